import Verif.Proofs.LR.Whole
import Verif.Proofs.Reprint.Sane
import Verif.Print
import Verif.Props.Text
import Verif.Props.Parse
import Verif.Spec.Walk
/-!
# What `Parse` leaves, accepted or not: C51, C52, C53
-/
namespace Verif
open Spec Lexer LR

theorem Spec.UpToSign.negate {x : F64} {u : Val} (h : UpToSign (.num x) u) : UpToSign (.num x.negate) u := by
  generalize hv : Val.num x = v at h
  cases h with
  | same => subst hv; exact .minus x
  | minus y =>
    injection hv with hv; subst hv
    have : y.negate.negate = y := by simp [F64.negate]
    rw [this]; exact .same _
  | not b => cases hv

theorem Spec.UpToSign.flip {b : Bool} {u : Val} (h : UpToSign (.bool b) u) : UpToSign (.bool !b) u := by
  generalize hv : Val.bool b = v at h
  cases h with
  | same => subst hv; exact .not b
  | minus y => cases hv
  | not b' => injection hv with hv; subst hv; rw [Bool.not_not]; exact .same _

section
variable [Letters]

/-- A token that was read is written in the text. -/
theorem fromText_written {code : List Char} {t : Tok} {k : Nat} (h : FromText code t k) : WrittenIn code (key (k, t)) := by
  obtain ⟨n, h⟩ := h
  obtain ⟨l, w, r, b, F, h1, -, h3, h4, -⟩ := lexNext_split h
  have hsuf : ∀ n t, (afterCalls n t).rest <:+ t.rest := by
    intro n
    induction n with
    | zero => exact fun t => List.suffix_refl _
    | succ n ih => exact fun t => (ih _).trans (lexNext_suffix t)
  obtain ⟨p, hp⟩ := hsuf n (startTok code)
  refine ⟨p ++ l, w, r, _, F, ?_, h3, h4⟩
  rw [h1] at hp
  rw [List.append_assoc]
  exact hp.symm

theorem fromText_name {code : List Char} {a : Terminal} (ha : a ∈ [Terminal.ktoken_identifier, .kGoToLabel, .kDirective, .kExecute])
    {t : Tok} (h : FromText code t a.kind) : key (a.kind, t) = named a t.literal := by
  simp only [List.mem_cons, List.not_mem_nil, or_false] at ha
  rcases ha with rfl | rfl | rfl | rfl <;> rfl

theorem fromText_value {code : List Char} {a : Terminal} (ha : a ∈ [Terminal.kNumber, .kString, .kDate, .kTrue, .kFalse])
    {t : Tok} (h : FromText code t a.kind) : key (a.kind, t) = literal a t.value := by
  simp only [List.mem_cons, List.not_mem_nil, or_false] at ha
  rcases ha with rfl | rfl | rfl | rfl | rfl <;> rfl

/-- The value of a literal. -/
theorem lexeme_value {dot : Bool} {w : List Char} {F : List Char → Prop} {a : Terminal} {v : Val}
    (ha : a ∈ [Terminal.kNumber, .kString, .kDate, .kTrue, .kFalse]) (h : Lexeme dot w (literal a v) F) :
    v ≠ .nil ∧ Marshals v := by
  by_cases hb : a ∈ [Terminal.kGoToLabel, .kDirective, .kNumber, .kString, .kDate]
  · rcases CanWrite.plain ⟨w, F, h⟩ hb with ⟨x, -, rfl, hx⟩ | ⟨x, -, rfl, -⟩ | ⟨x, -, rfl, hx⟩ | ⟨rfl, -⟩ | ⟨rfl, -⟩
    · exact ⟨nofun, hx⟩
    · exact ⟨nofun, trivial⟩
    · exact ⟨nofun, hx.1⟩
    · exact absurd ha (by decide)
    · exact absurd ha (by decide)
  · have ha' : a = .kTrue ∨ a = .kFalse := by
      simp only [List.mem_cons, List.not_mem_nil, or_false] at ha hb
      tauto
    generalize hk : literal a v = k at h
    cases h with
    | tru => injection hk with _ _ e; subst e; exact ⟨nofun, trivial⟩
    | fls => injection hk with _ _ e; subst e; exact ⟨nofun, trivial⟩
    | keyword _ _ ht =>
      injection hk with e
      rw [← kind_inj e] at ht
      rcases ha' with rfl | rfl <;> exact absurd ht (by decide)
    | mark hm =>
      injection hk with e
      have hm' : ∀ p ∈ marks, p.2 ∉ [Terminal.kTrue, .kFalse] := by decide
      have := hm' _ hm
      rw [← kind_inj e] at this
      rcases ha' with rfl | rfl <;> simp at this
    | _ =>
      injection hk with e
      have e := kind_inj e
      subst e
      rcases ha' with e | e <;> cases e

/-- The tokens of the text as sources of names and constants. -/
theorem text_sources (code : List Char) : Sources (fun k t => FromText code t k) (fun a n => WrittenIn code (named a n))
    (fun v => ∃ a u, WrittenIn code (literal a u) ∧ UpToSign v u ∧ Marshals v) where
  name a ha t h := by rw [← fromText_name ha h]; exact fromText_written h
  value a ha t h := by
    have hw := fromText_written h
    rw [fromText_value ha h] at hw
    obtain ⟨p, w, r, dot, F, h1, h2, h3⟩ := hw
    have hv := lexeme_value ha h2
    exact ⟨hv.1, a, t.value, ⟨p, w, r, dot, F, h1, h2, h3⟩, .same _, hv.2⟩
  negate x := by
    rintro ⟨a, u, h1, h2, h3⟩
    exact ⟨a, u, h1, h2.negate, finite_negate h3⟩
  not b := by
    rintro ⟨a, u, h1, h2, h3⟩
    exact ⟨a, u, h1, h2.flip, trivial⟩

theorem parsed_whole {code : List Char} {N : Terminal → Name → Prop} {V : Val → Prop}
    (hs : Sources (fun k t => FromText code t k) N V) {a : Ast} (h : Parsed code a) : a.code = code ∧ a.mod.Whole N V := by
  induction h with
  | new => exact ⟨rfl, ⟨(fun g hg => by cases hg), (fun f hf => by cases hf), (fun s hs => by cases hs)⟩⟩
  | parse _ hp ih =>
    obtain ⟨h1, h2⟩ := ih
    obtain ⟨h3, h4⟩ := parse_wholeMod (by rw [h1]; exact hs) h2 hp
    exact ⟨h3.trans h1, h4⟩

/-! ## C51 -/

/-- Whatever the text, and however often `Parse` was called: the tree that is left has no missing parts and no parts of the wrong
kind.  `Stm.whole` (Spec/Whole.lean) says for every statement which parts it must have. -/
theorem C51_whole (code : List Char) (a : Ast) (h : Parsed code a) : a.mod.Whole (fun _ _ => True) (fun _ => True) :=
  (parsed_whole ⟨fun _ _ _ _ => trivial, fun b hb t ht => ⟨((text_sources code).value b hb t ht).1, trivial⟩, fun _ _ => trivial,
    fun _ _ => trivial⟩ h).2

/-! ## C52 -/

omit [Letters] in
mutual
theorem whole_printOk {N : Terminal → Name → Prop} {V : Val → Prop} : (s : Stm) → s.whole N V → s.printOk = true
  | .ifS c t ei e, h => by
    have h : c.whole N V ∧ Stm.wholeL N V t ∧ Stm.wholeE N V ei ∧ Stm.wholeL N V e := h
    rw [Stm.printOk, whole_printOkL t h.2.1, whole_printOkE ei h.2.2.1, whole_printOkL e h.2.2.2]; rfl
  | .loop f tl i w b, h => by
    have hb := whole_printOkL b h.1
    rcases h.2 with ⟨⟨n, rfl, -⟩, -, -, -⟩ | ⟨-, -, rfl, -⟩ | ⟨-, -, rfl, -⟩
    · cases i <;> simp [Stm.printOk, hb]
    · simp [Stm.printOk, hb]
    · simp [Stm.printOk, hb]
  | .tryS b c, h => by
    have h : Stm.wholeL N V b ∧ Stm.wholeL N V c := h
    rw [Stm.printOk, whole_printOkL b h.1, whole_printOkL c h.2]; rfl
  | .nil, _ | .num _, _ | .str _, _ | .bool _, _ | .date _, _ | .undef, _ | .var _ _ _, _ | .chain _ _ _ _, _
  | .method _ _ _, _ | .item _ _, _ | .ternary _ _ _, _ | .new _ _, _ | .assign _ _, _ | .bin _ _ _ _ _, _ | .exprs _ _, _
  | .throw _, _ | .ret _, _ | .brk, _ | .cont, _ | .goto _, _ | .label _, _ => by rw [Stm.printOk] <;> exact nofun
theorem whole_printOkL {N : Terminal → Name → Prop} {V : Val → Prop} : (l : List Stm) → Stm.wholeL N V l → Stm.printOkL l = true
  | [], _ => rfl
  | s :: l, h => by rw [Stm.printOkL, whole_printOk s h.1, whole_printOkL l h.2]; rfl
theorem whole_printOkE {N : Terminal → Name → Prop} {V : Val → Prop} : (l : List Stm) → Stm.wholeE N V l → Stm.printOkE l = true
  | [], _ => rfl
  | .ifS c t ei e :: l, h => by rw [Stm.printOkE, whole_printOkL t h.1.2.1, whole_printOkE l h.2]; rfl
end

omit [Letters] in
mutual
theorem whole_inside {N : Terminal → Name → Prop} {V : Val → Prop} : (s : Stm) → s.whole N V → ∀ x ∈ inside s, x.whole N V
  | .ifS c t ei e, h, x, hx => by
    have h : c.whole N V ∧ Stm.wholeL N V t ∧ Stm.wholeE N V ei ∧ Stm.wholeL N V e := h
    rw [inside, List.mem_append, List.mem_append, List.mem_append] at hx
    rcases hx with ((hx | hx) | hx) | hx
    · exact whole_inside c h.1 x hx
    · exact whole_insideL t h.2.1 x hx
    · exact whole_insideL e h.2.2.2 x hx
    · exact whole_insideE ei h.2.2.1 x hx
  | .tryS b c, h, x, hx => by
    have h : Stm.wholeL N V b ∧ Stm.wholeL N V c := h
    rw [inside, List.mem_append] at hx
    exact hx.elim (whole_insideL b h.1 x) (whole_insideL c h.2 x)
  | .loop f tl i w b, h, x, hx => by
    rw [inside] at hx
    exact whole_insideL b h.1 x hx
  | .method n ps _, h, x, hx => by
    rw [inside] at hx
    exact whole_insideO ps h.2 x hx
  | .bin op l r _ _, h, x, hx => by
    have h : l.whole N V ∧ r.whole N V := h
    rw [inside, List.mem_append] at hx
    exact hx.elim (whole_inside r h.2 x) (whole_inside l h.1 x)
  | .ternary c t e, h, x, hx => by
    have h : c.whole N V ∧ t.whole N V ∧ e.whole N V := h
    rw [inside, List.mem_append, List.mem_append] at hx
    rcases hx with (hx | hx) | hx
    · exact whole_inside c h.1 x hx
    · exact whole_inside t h.2.1 x hx
    · exact whole_inside e h.2.2 x hx
  | .ret p, h, x, hx => by
    rw [inside] at hx
    rcases (h : p = .nil ∨ p.whole N V) with e | h
    · subst e; cases hx
    · exact whole_inside p h x hx
  | .nil, _, _, hx | .num _, _, _, hx | .str _, _, _, hx | .bool _, _, _, hx | .date _, _, _, hx | .undef, _, _, hx
  | .var _ _ _, _, _, hx | .chain _ _ _ _, _, _, hx | .item _ _, _, _, hx | .new _ _, _, _, hx | .assign _ _, _, _, hx
  | .exprs _ _, _, _, hx | .throw _, _, _, hx | .brk, _, _, hx | .cont, _, _, hx | .goto _, _, _, hx | .label _, _, _, hx => by
    simp [inside] at hx
theorem whole_insideL {N : Terminal → Name → Prop} {V : Val → Prop} : (l : List Stm) → Stm.wholeL N V l → ∀ x ∈ insideL l, x.whole N V
  | [], _, _, hx => by simp [insideL] at hx
  | s :: l, h, x, hx => by
    rw [insideL, List.mem_append, List.mem_cons] at hx
    rcases hx with hx | rfl | hx
    · exact whole_inside s h.1 x hx
    · exact h.1
    · exact whole_insideL l h.2 x hx
theorem whole_insideO {N : Terminal → Name → Prop} {V : Val → Prop} : (l : List Stm) → Stm.wholeO N V l → ∀ x ∈ insideParts l, x.whole N V
  | [], _, _, hx => by simp [insideParts] at hx
  | s :: l, h, x, hx => by
    rw [insideParts, List.mem_append] at hx
    rcases hx with hx | hx
    · rcases h.1 with e | h1
      · subst e; simp [inside] at hx
      · exact whole_inside s h1 x hx
    · exact whole_insideO l h.2 x hx
theorem whole_insideE {N : Terminal → Name → Prop} {V : Val → Prop} : (l : List Stm) → Stm.wholeE N V l → ∀ x ∈ insideL l, x.whole N V
  | [], _, _, hx => by simp [insideL] at hx
  | .ifS c t ei e :: l, h, x, hx => by
    obtain ⟨⟨h1, h2, rfl, rfl⟩, h3⟩ := h
    rw [insideL, List.mem_append, List.mem_cons] at hx
    rcases hx with hx | rfl | hx
    · rw [inside, List.mem_append, List.mem_append, List.mem_append] at hx
      rcases hx with ((hx | hx) | hx) | hx
      · exact whole_inside c h1 x hx
      · exact whole_insideL t h2 x hx
      · simp [insideL] at hx
      · simp [insideL] at hx
    · exact ⟨h1, h2, trivial, trivial⟩
    · exact whole_insideE l h3 x hx
end

/-- After `Parse` has returned, with or without error, `Print` and `PrintStatement` do not panic: for every statement of the tree, at
any depth, every type assertion they make holds. -/
theorem C52_print (code : List Char) (a : Ast) (h : Parsed code a) (i : Item) (hi : i ∈ a.mod.body) (s : Stm)
    (hs : .inl s ∈ insideItem i ∨ .inr (.stm s) ∈ insideItem i) : s.printOk = true := by
  have hw := C51_whole code a h
  refine whole_printOk (N := fun _ _ => True) (V := fun _ => True) s ?_
  cases i with
  | func f =>
    have hb := (hw.funcs f hi).body
    simp only [insideItem, List.mem_append, List.mem_map, List.mem_singleton] at hs
    rcases hs with (⟨x, hx, e⟩ | hs) | (⟨x, -, e⟩ | hs)
    · injection e with e; subst e; exact whole_insideL _ hb x hx
    · cases hs
    · cases e
    · injection hs with hs; cases hs
  | stm t =>
    have ht := hw.stms t hi
    simp only [insideItem, List.mem_append, List.mem_map, List.mem_singleton] at hs
    rcases hs with (⟨x, hx, e⟩ | hs) | (⟨x, -, e⟩ | hs)
    · injection e with e; subst e; exact whole_inside t ht x hx
    · cases hs
    · cases e
    · injection hs with hs; injection hs with hs; subst hs; exact ht

/-- And `JSON` does not fail: every number in the tree is finite, every date has a year from 0 to 9999. -/
theorem C52_json (code : List Char) (a : Ast) (h : Parsed code a) : a.mod.Whole (fun _ _ => True) Marshals :=
  (parsed_whole ⟨fun _ _ _ _ => trivial, fun b hb t ht =>
      have h := (text_sources code).value b hb t ht
      ⟨h.1, by obtain ⟨_, _, _, _, _, h⟩ := h; exact h⟩, fun _ h => finite_negate h, fun _ _ => trivial⟩ h).2

/-! ## C53 -/

/-- Whatever the text: every name in the tree, and every constant up to its sign, is written in the text, as a token of its kind. -/
theorem C53_from_text (code : List Char) (a : Ast) (h : Parsed code a) :
    a.mod.Whole (fun c n => WrittenIn code (named c n)) (fun v => ∃ c u, WrittenIn code (literal c u) ∧ UpToSign v u) :=
  (parsed_whole ⟨(text_sources code).name, fun b hb t ht =>
      have h := (text_sources code).value b hb t ht
      ⟨h.1, by obtain ⟨_, c, u, h1, h2, _⟩ := h; exact ⟨c, u, h1, h2⟩⟩,
    fun x => by
      rintro ⟨c, u, h1, h2⟩
      refine ⟨c, u, h1, ?_⟩
      exact UpToSign.negate h2,
    fun b => by
      rintro ⟨c, u, h1, h2⟩
      refine ⟨c, u, h1, ?_⟩
      exact UpToSign.flip h2⟩ h).2

theorem fromText_mem {t0 : Tok} {l : List (Nat × Tok)} (h : Tokens t0 l) {n : Nat} {t : Tok} {k : Nat}
    (hx : lexNext (afterCalls n t0) = (t, .ok (some k))) : (k, t) ∈ l := by
  induction h generalizing n with
  | @eof t0 h =>
    exfalso
    cases n with
    | zero =>
      have hx : lexNext t0 = _ := hx
      rw [hx] at h; cases h
    | succ n =>
      have := C01_eof_sticky t0 h n
      rw [afterCalls] at hx
      rw [hx] at this; cases this
  | @next t0 t1 k1 l h1 _ ih =>
    cases n with
    | zero =>
      have hx : lexNext t0 = _ := hx
      rw [h1] at hx
      injection hx with e1 e2
      injection e2 with e2
      injection e2 with e2
      subst e1; subst e2
      exact .head _
    | succ n =>
      rw [afterCalls, h1] at hx
      exact .tail _ (ih hx)

/-- In an accepted text they are among its tokens. -/
theorem C53_tokens (code : List Char) (M : Module) (hb : NotBlank code) (h : Accepts code M) :
    ∃ ks, Written false code ks ∧
      M.Whole (fun c n => named c n ∈ ks) (fun v => ∃ c u, literal c u ∈ ks ∧ UpToSign v u) := by
  obtain ⟨a, h1, h2, rfl⟩ := h
  obtain ⟨l, _, hl, _⟩ := C15_sound (newAST code) a ((notBlank_iff code).1 hb) h1 h2
  have hl : TokensOf code l := hl
  refine ⟨l.map key, tokens_written hl, ?_⟩
  refine (parsed_whole (code := code) ⟨?_, ?_, ?_, ?_⟩ (.parse .new h1)).2
  · rintro c hc t ⟨n, hn⟩
    rw [← fromText_name hc ⟨n, hn⟩]
    exact List.mem_map_of_mem (fromText_mem hl hn)
  · rintro c hc t ⟨n, hn⟩
    refine ⟨((text_sources code).value c hc t ⟨n, hn⟩).1, c, t.value, ?_, .same _⟩
    rw [← fromText_value hc ⟨n, hn⟩]
    exact List.mem_map_of_mem (fromText_mem hl hn)
  · rintro x ⟨c, u, h1, h2⟩
    exact ⟨c, u, h1, h2.negate⟩
  · rintro x ⟨c, u, h1, h2⟩
    exact ⟨c, u, h1, h2.flip⟩

end

/-- A text that is rejected at its end, after a declaration is in the module. -/
def brokenText : List Char :=
  "Процедура А(б = 1) Для Каждого в Из б Цикл Перейти ~м; КонецЦикла КонецПроцедуры Процедура".toList

/-- Its declaration. -/
def brokenFunc : FuncDecl :=
  { name := "А".toList, isFunc := false, directive := [], «export» := false, vars := some []
    params := [⟨.num ⟨false, 2 ^ 52, -52⟩, "б".toList, false⟩]
    body := [.loop (.str "в".toList) .nil (.var "б".toList false false) .nil [.goto "м".toList]] }

/-- `Parse` returns an error for it, and the declaration is left. -/
example : ∃ a, @Parsed stdLetters brokenText a ∧ a.err ≠ none ∧ a.mod = ⟨[], [.func brokenFunc]⟩ ∧
    .inl (Stm.goto "м".toList) ∈ insideItem (.func brokenFunc) := by
  have h1 : @okB stdLetters brokenText = false := by decide +kernel
  have h2 : @modOf stdLetters brokenText = ⟨[], [.func brokenFunc]⟩ := by decide +kernel
  unfold okB at h1
  unfold modOf at h2
  cases e : @parse stdLetters (newAST brokenText) with
  | ret a =>
    rw [e] at h1 h2
    refine ⟨a, @Parsed.parse stdLetters _ _ _ (@Parsed.new stdLetters _) e, ?_, h2, ?_⟩
    · intro h0; change a.err.isNone = false at h1; rw [h0] at h1; cases h1
    · simp [brokenFunc, insideItem, insideL, inside]
  | panic => rw [e] at h2; cases h2
  | loops => rw [e] at h2; cases h2
/-- `C52_print` says more than true: there are trees for which `Print` panics. -/
example : (Stm.loop .undef .nil .undef .nil []).printOk = false := by decide
/-- And so does `C51_whole`. -/
example : ¬ (Stm.bin .plus (.var ['а'] false false) .nil false false).whole (fun _ _ => True) (fun _ => True) := fun h => h.2
/-- The hypotheses of `C53_tokens` are met. -/
example : NotBlank sampleText ∧ @Accepts stdLetters sampleText sampleProgram.tree := ⟨sample_notBlank, sample_accepted⟩

end Verif
