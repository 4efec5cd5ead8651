import Verif.Props.Json
import Verif.Props.Lines
import Verif.Proofs.JsonText
/-!
# The text of JSON: C63

`JsonText v s` (Spec/JsonText.lean): by RFC 8259 the text `s` is JSON for the value `v`.  `Stands v j`: `v` is the value `j` of the tree.
-/
namespace Verif
open Spec Lexer

/-- Numbers are normalised. -/
def Normal : Val → Prop
  | .num x => x.Canon
  | _ => True

theorem slice_fine {l : List J} (h : J.fineL l) : (jSlice l).fine := by
  cases l with
  | nil => trivial
  | cons j l => exact h

theorem fineM_append {l l' : List (List Char × J)} (h : J.fineM l) (h' : J.fineM l') : J.fineM (l ++ l') := by
  induction l with
  | nil => exact h'
  | cons p l ih =>
    obtain ⟨k, j⟩ := p
    exact ⟨h.1, ih h.2⟩

theorem fineM_iff {l : List (List Char × J)} : J.fineM l ↔
    ∀ p ∈ l, (p.1 ∈ intKeys ∧ ∃ n, p.2 = .int n) ∨ ((p.1 ∈ intKeys → ∀ x, p.2 ≠ .flt x) ∧ p.2.fine) := by
  induction l with
  | nil => simp [J.fineM]
  | cons p l ih =>
    obtain ⟨k, j⟩ := p
    rw [J.fineM, ih]
    simp

theorem fineL_iff {l : List J} : J.fineL l ↔ ∀ j ∈ l, j.fine := by
  induction l with
  | nil => simp [J.fineL]
  | cons j l ih => rw [J.fineL, ih]; simp

theorem opt_fine (n : String) (hn : n.toList ∉ intKeys) {s : Stm} (h : (jStm s).fine) : J.fineM (fldOpt n s (jStm s)) := by
  have : J.fineM [fld n (jStm s)] := ⟨.inr ⟨fun hk => absurd hk hn, h⟩, trivial⟩
  unfold fldOpt
  split
  · trivial
  · exact this

/-- A map of things that are not numbers. -/
theorem map_fine {l : List (List Char × J)} (h : ∀ p ∈ l, ∃ fs, p.2 = .obj fs ∧ J.fineM fs) : (jMap l).fine := by
  show J.fineM _
  rw [fineM_iff]
  intro p hp
  rw [List.mem_mergeSort] at hp
  obtain ⟨fs, e, hf⟩ := h p hp
  rw [e]
  exact .inr ⟨fun _ => nofun, hf⟩

mutual
theorem jStm_fine {N : Terminal → Name → Prop} : (s : Stm) → s.whole N Normal → (jStm s).fine
  | .nil, _ => trivial
  | .num x, h => h
  | .str _, _ => trivial
  | .bool _, _ => trivial
  | .date _, _ => trivial
  | .undef, _ => trivial
  | .var _ _ _, _ => ⟨.inr ⟨fun hk => absurd hk (by decide), trivial⟩, trivial⟩
  | .chain u c _ _, h => by
    have h : u.whole N Normal ∧ c.whole N Normal := h
    exact ⟨.inr ⟨fun hk => absurd hk (by decide), jStm_fine u h.1⟩, .inr ⟨fun hk => absurd hk (by decide), jStm_fine c h.2⟩, trivial⟩
  | .method n ps _, h => by
    have h : _ ∧ Stm.wholeO N Normal ps := h
    exact ⟨.inr ⟨fun hk => absurd hk (by decide), trivial⟩, .inr ⟨fun hk => absurd hk (by decide),
      .inr ⟨fun hk => absurd hk (by decide), slice_fine (jL_fineO ps h.2)⟩, trivial⟩, trivial⟩
  | .item i o, h => by
    have h : i.whole N Normal ∧ o.whole N Normal := h
    exact ⟨.inr ⟨fun hk => absurd hk (by decide), jStm_fine i h.1⟩, .inr ⟨fun hk => absurd hk (by decide), jStm_fine o h.2⟩, trivial⟩
  | .ternary c t e, h => by
    have h : c.whole N Normal ∧ t.whole N Normal ∧ e.whole N Normal := h
    exact ⟨.inr ⟨fun hk => absurd hk (by decide), jStm_fine c h.1⟩, .inr ⟨fun hk => absurd hk (by decide), jStm_fine t h.2.1⟩,
      .inr ⟨fun hk => absurd hk (by decide), jStm_fine e h.2.2⟩, trivial⟩
  | .new c ps, h => by
    have h : _ ∧ Stm.wholeO N Normal ps := h
    exact ⟨.inr ⟨fun hk => absurd hk (by decide), trivial⟩, .inr ⟨fun hk => absurd hk (by decide),
      .inr ⟨fun hk => absurd hk (by decide), slice_fine (jL_fineO ps h.2)⟩, trivial⟩, trivial⟩
  | .assign v l, h => by
    have h : v.whole N Normal ∧ _ ∧ Stm.wholeL N Normal l := h
    exact ⟨.inr ⟨fun hk => absurd hk (by decide), jStm_fine v h.1⟩, .inr ⟨fun hk => absurd hk (by decide),
      .inr ⟨fun hk => absurd hk (by decide), slice_fine (jL_fine l h.2.2)⟩, trivial⟩, trivial⟩
  | .bin op l r _ _, h => by
    have h : l.whole N Normal ∧ r.whole N Normal := h
    exact ⟨.inr ⟨fun hk => absurd hk (by decide), jStm_fine l h.1⟩, .inr ⟨fun hk => absurd hk (by decide), jStm_fine r h.2⟩,
      .inl ⟨by decide, _, rfl⟩, trivial⟩
  | .exprs l _, h => ⟨.inr ⟨fun hk => absurd hk (by decide), slice_fine (jL_fineO l h)⟩, trivial⟩
  | .ifS c tb ei el, h => by
    have h : c.whole N Normal ∧ Stm.wholeL N Normal tb ∧ Stm.wholeE N Normal ei ∧ Stm.wholeL N Normal el := h
    exact ⟨.inr ⟨fun hk => absurd hk (by decide), jStm_fine c h.1⟩, .inr ⟨fun hk => absurd hk (by decide), slice_fine (jL_fine tb h.2.1)⟩,
      .inr ⟨fun hk => absurd hk (by decide), jElifs_fine ei h.2.2.1⟩,
      .inr ⟨fun hk => absurd hk (by decide), slice_fine (jL_fine el h.2.2.2)⟩, trivial⟩
  | .tryS b c, h => by
    have h : Stm.wholeL N Normal b ∧ Stm.wholeL N Normal c := h
    exact ⟨.inr ⟨fun hk => absurd hk (by decide), slice_fine (jL_fine b h.1)⟩,
      .inr ⟨fun hk => absurd hk (by decide), slice_fine (jL_fine c h.2)⟩, trivial⟩
  | .throw p, h => by
    rcases (h : p = .nil ∨ p.whole N Normal) with rfl | h
    · exact ⟨.inr ⟨fun hk => absurd hk (by decide), trivial⟩, trivial⟩
    · exact ⟨.inr ⟨fun hk => absurd hk (by decide), jStm_fine p h⟩, trivial⟩
  | .ret p, h => by
    rcases (h : p = .nil ∨ p.whole N Normal) with rfl | h
    · exact ⟨.inr ⟨fun hk => absurd hk (by decide), trivial⟩, trivial⟩
    · exact ⟨.inr ⟨fun hk => absurd hk (by decide), jStm_fine p h⟩, trivial⟩
  | .brk, _ => trivial
  | .cont, _ => trivial
  | .loop f tl i w b, h => by
    have hb : J.fineM [fld "Body" (jSlice (jL b))] :=
      ⟨.inr ⟨fun hk => absurd hk (by decide), slice_fine (jL_fine b h.1)⟩, trivial⟩
    show J.fineM (fldOpt "For" f (jStm f) ++ fldOpt "To" tl (jStm tl) ++ fldOpt "In" i (jStm i) ++ fldOpt "WhileExpr" w (jStm w) ++
      [fld "Body" (jSlice (jL b))])
    rcases h.2 with ⟨⟨n, rfl, -⟩, rfl, hi, rfl⟩ | ⟨hf, ht, rfl, rfl⟩ | ⟨rfl, rfl, rfl, hw⟩
    · have h1 := opt_fine "In" (by decide) (jStm_fine i hi)
      exact fineM_append (fineM_append (fineM_append (fineM_append ⟨.inr ⟨fun hk => absurd hk (by decide), trivial⟩, trivial⟩ trivial) h1) trivial) hb
    · have h1 := opt_fine "For" (by decide) (jStm_fine f hf)
      have h2 := opt_fine "To" (by decide) (jStm_fine tl ht)
      exact fineM_append (fineM_append (fineM_append (fineM_append h1 h2) trivial) trivial) hb
    · have h1 := opt_fine "WhileExpr" (by decide) (jStm_fine w hw)
      exact fineM_append (fineM_append trivial h1) hb
  | .goto n, _ => ⟨.inr ⟨fun hk => absurd hk (by decide), .inr ⟨fun hk => absurd hk (by decide), trivial⟩, trivial⟩, trivial⟩
  | .label n, _ => ⟨.inr ⟨fun hk => absurd hk (by decide), trivial⟩, trivial⟩
theorem jL_fine {N : Terminal → Name → Prop} : (l : List Stm) → Stm.wholeL N Normal l → J.fineL (jL l)
  | [], _ => trivial
  | s :: l, h => ⟨jStm_fine s h.1, jL_fine l h.2⟩
theorem jL_fineO {N : Terminal → Name → Prop} : (l : List Stm) → Stm.wholeO N Normal l → J.fineL (jL l)
  | [], _ => trivial
  | s :: l, h => ⟨by
    rcases h.1 with e | h1
    · subst e; trivial
    · exact jStm_fine s h1, jL_fineO l h.2⟩
theorem jElifs_fine {N : Terminal → Name → Prop} : (l : List Stm) → Stm.wholeE N Normal l → J.fineL (jElifs l)
  | [], _ => trivial
  | .ifS c tb ei el :: l, h => by
    have h : (c.whole N Normal ∧ Stm.wholeL N Normal tb ∧ _) ∧ Stm.wholeE N Normal l := h
    exact ⟨⟨.inr ⟨fun hk => absurd hk (by decide), jStm_fine c h.1.1⟩, .inr ⟨fun hk => absurd hk (by decide), slice_fine (jL_fine tb h.1.2.1)⟩,
      .inr ⟨fun hk => absurd hk (by decide), trivial⟩, .inr ⟨fun hk => absurd hk (by decide), trivial⟩, trivial⟩, jElifs_fine l h.2⟩
end

theorem jParam_fine {N : Terminal → Name → Prop} {p : Param} (h : p.default = .nil ∨ p.default.whole N Normal) : (jParam p).fine := by
  obtain ⟨d, n, v⟩ := p
  have hd : (jStm d).fine := by
    rcases h with e | h
    · simp only at e; subst e; trivial
    · exact jStm_fine d h
  show J.fineM (fldOpt "Default" d (jStm d) ++ [fld "Name" (.str n)] ++ if v = true then [fld "IsValue" (.bool true)] else [])
  refine fineM_append (fineM_append (opt_fine "Default" (by decide) hd) ⟨.inr ⟨fun hk => absurd hk (by decide), trivial⟩, trivial⟩) ?_
  split
  · exact ⟨.inr ⟨fun hk => absurd hk (by decide), trivial⟩, trivial⟩
  · trivial

theorem jFunc_fine {N : Terminal → Name → Prop} {f : FuncDecl} (h : f.Whole N Normal) : (jFunc f).fine := by
  have hv : (jVars f.vars).fine := by
    unfold jVars
    split
    · trivial
    · refine map_fine fun p hp => ?_
      obtain ⟨k, -, rfl⟩ := List.mem_map.1 hp
      exact ⟨_, rfl, .inr ⟨fun hk => absurd hk (by decide), trivial⟩, trivial⟩
  rw [jFunc_eq]
  refine ⟨.inr ⟨fun hk => absurd hk (by decide), hv⟩, .inr ⟨fun hk => absurd hk (by decide), trivial⟩, .inr ⟨fun hk => absurd hk (by decide), trivial⟩,
    .inr ⟨fun hk => absurd hk (by decide), slice_fine (jL_fine _ h.body)⟩, .inr ⟨fun hk => absurd hk (by decide), ?_⟩,
    .inl ⟨by decide, _, rfl⟩, .inr ⟨fun hk => absurd hk (by decide), trivial⟩, trivial⟩
  refine fineL_iff.2 fun j hj => ?_
  obtain ⟨p, hp, rfl⟩ := List.mem_map.1 hj
  exact jParam_fine (h.params p hp).2

theorem jModule_fine {N : Terminal → Name → Prop} {m : Module} (h : m.Whole N Normal) : (jModule m).fine := by
  have hb : (jSlice (m.body.map jItem)).fine := by
    refine slice_fine (fineL_iff.2 fun j hj => ?_)
    obtain ⟨i, hi, rfl⟩ := List.mem_map.1 hj
    cases i with
    | func f => exact jFunc_fine (h.funcs f hi)
    | stm s => exact jStm_fine s (h.stms s hi)
  have hg : (jMap (m.globals.map fun g => (g.name, jGVar g))).fine := by
    refine map_fine fun p hp => ?_
    obtain ⟨g, -, rfl⟩ := List.mem_map.1 hp
    exact ⟨_, rfl, .inr ⟨fun hk => absurd hk (by decide), trivial⟩, .inr ⟨fun hk => absurd hk (by decide),
      .inr ⟨fun hk => absurd hk (by decide), trivial⟩, trivial⟩, .inr ⟨fun hk => absurd hk (by decide), trivial⟩, trivial⟩
  show J.fineM (_ ++ (if m.globals = [] then [] else _) ++ _)
  refine fineM_append (fineM_append ⟨.inr ⟨fun hk => absurd hk (by decide), trivial⟩, trivial⟩ ?_)
    ⟨.inr ⟨fun hk => absurd hk (by decide), hb⟩, trivial⟩
  split
  · trivial
  · exact ⟨.inr ⟨fun hk => absurd hk (by decide), hg⟩, trivial⟩

section
variable [Letters]

omit [Letters] in
theorem canon_negate {x : F64} (h : x.Canon) : x.negate.Canon := by cases x; exact h

theorem written_normal {code : List Char} {v u : Val} {c : Terminal} (h : WrittenIn code (literal c u)) (hs : UpToSign v u) : Normal v := by
  have hu : Normal u := by
    cases u with
    | num x =>
      obtain ⟨p, w, r, dot, F, -, hl, -⟩ := h
      generalize hk : literal c (.num x) = k at hl
      cases hl with
      | number h1 h2 =>
        injection hk with _ _ e
        injection e with e
        subst e
        obtain ⟨n, d, hd, e, -⟩ := parseFloat_lit h1
        exact F64.ofRat_canon hd (e ▸ h2)
      | _ => injection hk with _ _ e; cases e
    | _ => trivial
  cases hs with
  | same => exact hu
  | minus x => exact canon_negate hu
  | not b => trivial

/-- The numbers in the tree are normalised. -/
theorem parsed_normal {code : List Char} {a : Ast} (h : Parsed code a) : a.mod.Whole (fun _ _ => True) Normal :=
  Lines.module_mono (fun _ _ _ => trivial) (fun _ ⟨_, _, h1, h2⟩ => written_normal h1 h2) (C53_from_text code a h)

/-- Whatever `Parse` made of the text, with or without error: `JSON` gives a JSON text of the value of the tree; numbers read back as
they are in the tree. -/
theorem C63_valid (code : List Char) (a : Ast) (h : Parsed code a) : ∃ v, JsonText v (jsonText a.mod) ∧ Stands v (jModule a.mod) := by
  have hf := jModule_fine (parsed_normal h)
  refine ⟨(jModule a.mod).read, ?_, read_stands _ (.inl hf)⟩
  have := JsonText.mk (w := []) (w' := []) (by simp) (jText_reads _ (.inl hf)) (by simp)
  simpa [jsonText] using this

/-- The text can be read in no other way. -/
theorem C63_only (code : List Char) (a : Ast) (h : Parsed code a) (v : JV) (hv : JsonText v (jsonText a.mod)) : Stands v (jModule a.mod) := by
  obtain ⟨v', h1, h2⟩ := C63_valid code a h
  rwa [JsonG.unique hv h1]

/-- It fits into one line, and into HTML and JavaScript: no control characters, no `<`, `>`, `&`, U+2028, U+2029. -/
theorem C63_safe (code : List Char) (a : Ast) (h : Parsed code a) : ∀ c ∈ jsonText a.mod, ¬ Raw c :=
  jText_not_raw _ (.inl (jModule_fine (parsed_normal h)))

/-- Texts are equal only if values are. -/
theorem jsonText_inj {code code' : List Char} {a a' : Ast} (h : Parsed code a) (h' : Parsed code' a') (e : jsonText a.mod = jsonText a'.mod) :
    jModule a.mod = jModule a'.mod := by
  have hf := jModule_fine (parsed_normal h)
  have hf' := jModule_fine (parsed_normal h')
  have h1 := JsonText.mk (w := []) (w' := []) (by simp) (jText_reads _ (.inl hf)) (by simp)
  have h2 := JsonText.mk (w := []) (w' := []) (by simp) (jText_reads _ (.inl hf')) (by simp)
  simp only [List.nil_append, List.append_nil] at h1 h2
  have e : jText (jModule a.mod) = jText (jModule a'.mod) := e
  rw [e] at h1
  exact read_inj _ _ hf hf' (JsonG.unique h1 h2)

/-- Texts that were accepted: the bytes that `JSON` gives are the same exactly if the modules are the same up to what JSON drops (signs,
`Не`, the kinds of some statements: C43). -/
theorem C63_same (code code' : List Char) (M M' : Module) (h : Accepts code M) (h' : Accepts code' M') :
    jsonText M = jsonText M' ↔ SameModule M M' := by
  constructor
  · intro e
    refine (C43_accepted_partial h M').1 ?_
    obtain ⟨a, h1, -, rfl⟩ := h
    obtain ⟨a', h1', -, rfl⟩ := h'
    exact jsonText_inj (.parse .new h1) (.parse .new h1') e
  · intro e
    rw [jsonText, jsonText, (C43_accepted_partial h M').2 e]

end

/-! ### Concrete cases -/

/-- A text with a number that is not exact and a string with characters that are escaped. -/
def jsonSample : List Char := "а = 0.1; б = \"<a>\t\"".toList

def jsonSampleTree : Module :=
  ⟨[], [.stm (.assign (.var ['а'] false false) [.num ⟨false, 7205759403792794, -56⟩]),
    .stm (.assign (.var ['б'] false false) [.str ['<', 'a', '>', '\t']])]⟩

theorem jsonSample_accepts : @Accepts stdLetters jsonSample jsonSampleTree :=
  @accepts_eq stdLetters _ _ (by decide +kernel) (by decide +kernel)

theorem jsonSample_parsed : ∃ a, @Parsed stdLetters jsonSample a ∧ a.mod = jsonSampleTree := by
  obtain ⟨a, h, -, e⟩ := jsonSample_accepts
  exact ⟨a, @Parsed.parse stdLetters _ _ _ (@Parsed.new stdLetters _) h, e⟩

/-- What `JSON` gives for it. -/
example : jsonText jsonSampleTree = ("{\"Name\":\"\",\"Body\":[{\"Var\":{\"Name\":\"а\"},\"Expr\":{\"Statements\":[0.1]}}," ++
    "{\"Var\":{\"Name\":\"б\"},\"Expr\":{\"Statements\":[\"\\u003ca\\u003e\\t\"]}}]}").toList := by decide +kernel

example : ∃ v, JsonText v (jsonText jsonSampleTree) ∧ Stands v (jModule jsonSampleTree) := by
  obtain ⟨a, h, e⟩ := jsonSample_parsed
  exact e ▸ @C63_valid stdLetters _ a h

/-- Layout and the case of keywords do not show in the bytes; numbers do. -/
example : jsonText jsonSampleTree ≠ jsonText ⟨[], [.stm (.assign (.var ['а'] false false) [.num ⟨false, 4503599627370496, -52⟩])]⟩ := by
  intro e
  have h := (@C63_same stdLetters jsonSample "а = 1".toList _ _ jsonSample_accepts
    (@accepts_eq stdLetters _ _ (by decide +kernel) (by decide +kernel))).1 e
  have := h.body.length_eq
  simp [jsonSampleTree] at this

/-- Numbers as `json.Marshal` writes them: shortest, with an exponent below `1e-6` and from `1e21` on. -/
example : (F64.ofRat 1 3).map F64.numText = some "0.3333333333333333".toList ∧ (F64.ofRat (10 ^ 21) 1).map F64.numText = some "1e+21".toList ∧
    (F64.ofRat (10 ^ 20) 1).map F64.numText = some "100000000000000000000".toList ∧
    (F64.ofRat 1 1000000).map F64.numText = some "0.000001".toList ∧ (F64.ofRat 12 100000000).map F64.numText = some "1.2e-7".toList ∧
    (F64.ofRat 9007199254740993 1).map F64.numText = some "9007199254740992".toList ∧ F64.numText ⟨true, 0, 0⟩ = "-0".toList := by
  decide +kernel

end Verif
