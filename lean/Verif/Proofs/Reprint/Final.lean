import Verif.Proofs.Reprint.Exist
import Verif.Props.Parse
/-!
# Printed modules read back
-/
namespace Verif
open Spec Lexer LR

variable [Letters]

omit [Letters] in
theorem tryOkL_of {cf} {l : List Stm} (h : ∀ s ∈ l, tryOk cf s) : tryOkL cf l := by
  induction l with
  | nil => unfold tryOkL; trivial
  | cons a l ih =>
    unfold tryOkL
    exact ⟨h a (by simp), ih fun x hx => h x (by simp [hx])⟩

/-- Semicolons, colons and parentheses are written as such. -/
theorem lexeme_mark {dot w t F} (h : Lexeme dot w (word t) F) (ht : t ∈ [Terminal.semi, .colon, .lpar]) : ∃ c ∈ w, c.toNat ∉ whiteSpace := by
  generalize hk : word t = k at h
  have hkw : ∀ p ∈ keywordTable, p.2 ∉ [Terminal.semi, .colon, .lpar].map Terminal.kind := by decide +kernel
  have hm : ∀ p ∈ marks, p.1.toNat ∉ whiteSpace := by decide +kernel
  have no : ∀ {t' : Terminal} {n v n' v'}, (⟨t.kind, n, v⟩ : Key) = ⟨t'.kind, n', v'⟩ → t' ∉ [Terminal.semi, .colon, .lpar] → False := by
    intro t' n v n' v' e hn
    injection e with e
    rw [kind_inj e] at ht
    exact hn ht
  cases h with
  | mark h => exact ⟨_, by simp, hm _ h⟩
  | keyword _ hd hi =>
    injection hk with e
    rw [← e] at hd
    generalize hn : t.kind = n at hd
    cases hd with
    | keyword h' => exact absurd (List.mem_map.2 ⟨t, ht, hn⟩) (hkw _ h')
    | ident =>
      rw [kind_inj (t' := .ktoken_identifier) hn] at ht
      exact absurd ht (by decide)
  | _ => exact (no hk (by decide)).elim

theorem written_mark {dot s ks t} (h : Written dot s ks) (ht : t ∈ [Terminal.semi, .colon, .lpar]) (hm : word t ∈ ks) : NotBlank s := by
  induction h with
  | done => cases hm
  | next _ hx _ _ ih =>
    rcases List.mem_cons.1 hm with e | hm
    · rw [← e] at hx
      obtain ⟨c, h1, h2⟩ := lexeme_mark hx ht
      exact ⟨c, by simp [h1], h2⟩
    · obtain ⟨c, h1, h2⟩ := ih hm
      exact ⟨c, by simp [h1], h2⟩

omit [Letters] in
theorem sep_mem (p : Sep) : ∃ t ∈ [Terminal.semi, .colon, .lpar], p.tok = word t := by
  cases p
  · exact ⟨_, by simp, rfl⟩
  · exact ⟨_, by simp, rfl⟩

theorem ReM.mark {g gs fs l ds b} (h : ReM g gs fs l ds b) (hne : fs.map Item.func ++ l.map Item.stm ≠ []) :
    ∃ t ∈ [Terminal.semi, .colon, .lpar], word t ∈ (progOf gs ds b).toks := by
  obtain ⟨_, hf, hb⟩ := h
  unfold Program.toks progOf
  cases hb with
  | body hb =>
    rename_i b p
    obtain ⟨t, ht, e⟩ := sep_mem p
    exact ⟨t, ht, by simp [Block.toks, Body.toks, e]⟩
  | empty =>
    cases hf with
    | nil => simp at hne
    | cons h1 h2 => exact ⟨.lpar, by simp, by simp [Part.toks, FuncD.toks]⟩

/-- The parts of an accepted module. -/
theorem accepted_parts {code : List Char} {P : Program} {M : Module} (hb : NotBlank code) (hs : Spells code P) (hc : P.clean)
    (ha : Accepts code M) : M = P.tree ∧ ProgOk P ∧ SaneM P.globals (P.funcs.map FuncD.tree) P.body.tree := by
  have hA := accepted hb hs ha
  refine ⟨Program.exact hc hA.shows, ⟨hc, hA.breaks, hA.throws, hA.returns, hA.colons, hA.distinct, hA.ordered⟩, ?_⟩
  exact Spec.Program.sane (hasKeys_ok hs.1)

omit [Letters] in
theorem tree_body (P : Program) : P.tree.body = (P.funcs.map FuncD.tree).map Item.func ++ P.body.tree.map Item.stm := by
  unfold Program.tree
  simp

section
omit [Letters]

mutual
/-- Without a second `ИначеЕсли` there is nothing to turn. -/
theorem stable_steady : ∀ s, stableS s → steadyS s ∧ turn s = s
  | .ifS c t ei el, h => by
    simp only [stableS] at h
    obtain ⟨h1, h2, h3, h4, h5⟩ := h
    have e1 := stable_steadyL t h3
    have e2 := stable_steadyL ei h4
    have e3 := stable_steadyL el h5
    simp only [steadyS, turn]
    refine ⟨⟨h2, e1.1, e2.1, e3.1⟩, ?_⟩
    rw [e1.2, e2.2, e3.2]
    match ei, h1 with
    | [], _ => rfl
    | [_], _ => rfl
  | .loop f z i w b, h => by
    simp only [stableS] at h
    have e := stable_steadyL b h.2.2.2.2
    simp only [steadyS, turn, e.2]
    exact ⟨⟨h.1, h.2.1, h.2.2.1, h.2.2.2.1, e.1⟩, trivial⟩
  | .tryS b x, h => by
    simp only [stableS] at h
    have e1 := stable_steadyL b h.1
    have e2 := stable_steadyL x h.2
    simp only [steadyS, turn, e1.2, e2.2]
    exact ⟨⟨e1.1, e2.1⟩, trivial⟩
  | .throw s, h => by
    refine ⟨?_, by simp only [turn]⟩
    cases s <;> (simp only [stableS] at h; simp only [steadyS]; exact h)
  | .num _, h | .str _, h | .bool _, h | .date _, h | .undef, h | .var _ _ _, h | .method _ _ _, h | .item _ _, h
  | .ternary _ _ _, h | .new _ _, h | .exprs _ _, h | .chain _ _ _ _, h | .bin _ _ _ _ _, h | .assign _ _, h
  | .nil, h | .ret _, h | .label _, h | .goto _, h | .brk, h | .cont, h => by
    refine ⟨?_, by simp only [turn]⟩
    unfold stableS at h
    unfold steadyS
    exact h
theorem stable_steadyL : ∀ l, stableB l → steadyB l ∧ turnL l = l
  | [], _ => by simp [steadyB, turnL]
  | s :: l, h => by
    simp only [stableB] at h
    have e1 := stable_steady s h.1
    have e2 := stable_steadyL l h.2
    simp only [steadyB, turnL, e1.2, e2.2]
    exact ⟨⟨e1.1, e2.1⟩, trivial⟩
end

theorem Spec.Stable.steady {M : Module} (h : Stable M) : Steady M := by
  intro i hi
  have := h i hi
  cases i with
  | func f => exact (stable_steadyL _ this).1
  | stm s => exact (stable_steady _ this).1

theorem Spec.Stable.still {M : Module} (h : Stable M) : turnModule M = M := by
  unfold turnModule
  have : M.body.map turnItem = M.body := by
    conv => rhs; rw [← List.map_id M.body]
    refine List.map_congr_left fun i hi => ?_
    have := h i hi
    cases i with
    | func f =>
      simp only [turnItem, turnFunc, id, (stable_steadyL _ this).2]
    | stm s => simp only [turnItem, id, (stable_steady _ this).2]
  rw [this]

/-- The parts of the turned module. -/
theorem turn_parts (fs : List FuncDecl) (l : List Stm) :
    (fs.map Item.func ++ l.map Item.stm).map turnItem = (fs.map turnFunc).map Item.func ++ (turnL l).map Item.stm := by
  rw [List.map_append, List.map_map, List.map_map, List.map_map, turnL_map, List.map_map]
  rfl

/-- The statement lists of a module. -/
theorem parts_all {Q : List Stm → Prop} {R : Stm → Prop} {P : Program} (hQ : ∀ l, (∀ s ∈ l, R s) → Q l)
    (h : ∀ i ∈ P.tree.body, match i with | .func f => Q f.body | .stm s => R s) :
    (∀ f ∈ P.funcs.map FuncD.tree, Q f.body) ∧ Q P.body.tree := by
  rw [tree_body] at h
  exact ⟨fun f hf => h (.func f) (List.mem_append_left _ (List.mem_map.2 ⟨f, hf, rfl⟩)),
    hQ _ fun s hs => h (.stm s) (List.mem_append_right _ (List.mem_map.2 ⟨s, hs, rfl⟩))⟩

theorem inLoopsL_of {l : List Stm} (h : ∀ s ∈ l, inLoops s) : inLoopsL l := by
  induction l with
  | nil => simp only [inLoopsL]
  | cons s l ih => simp only [inLoopsL]; exact ⟨h s (by simp), ih fun x hx => h x (by simp [hx])⟩

theorem turnL_of {l : List Stm} (h : ∀ s ∈ l, turn s = s) : turnL l = l := by
  rw [turnL_map]
  conv => rhs; rw [← List.map_id l]
  exact List.map_congr_left h

/-- What `ReM.ok` asks for. -/
theorem breaks_stable {P : Program} (h : Stable P.tree) :
    (∀ f ∈ P.funcs.map FuncD.tree, turnL f.body = f.body) ∧ turnL P.body.tree = P.body.tree :=
  parts_all (Q := fun l => turnL l = l) (R := fun s => turn s = s) (fun _ => turnL_of) fun i hi => by
    have := h i hi
    cases i with
    | func f => exact (stable_steadyL _ this).2
    | stm s => exact (stable_steady _ this).2

theorem breaks_loops {P : Program} (h : BreaksInLoops P.tree) : (∀ f ∈ P.funcs.map FuncD.tree, inLoopsL f.body) ∧ inLoopsL P.body.tree :=
  parts_all (Q := inLoopsL) (R := inLoops) (fun _ => inLoopsL_of) h
end

/-- A printable module spells a program, whatever the options. -/
theorem printable_re {g : Bool} {P : Program} {gs : List GVar} (h : SaneM P.globals (P.funcs.map FuncD.tree) P.body.tree)
    (hgs : gs.Perm P.globals) (hp : Printable P.tree) (hst : g = true → Steady P.tree) :
    ∃ ds b, ReM g gs (P.funcs.map FuncD.tree) P.body.tree ds b := by
  unfold Printable at hp
  unfold Steady at hst
  rw [tree_body] at hp hst
  refine h.re hgs (fun f hf => hp (.func f) ?_) (fun s hs => hp (.stm s) ?_) fun e => ⟨fun f hf => hst e (.func f) ?_, fun s hs => hst e (.stm s) ?_⟩
  all_goals (first | exact List.mem_append_left _ (List.mem_map.2 ⟨f, hf, rfl⟩) | exact List.mem_append_right _ (List.mem_map.2 ⟨s, hs, rfl⟩))

theorem ReM.written {g} {P : Program} {gs ds b} {cf : PrintConf} (h : ReM g gs (P.funcs.map FuncD.tree) P.body.tree ds b) (hb : P.tree.body ≠ [])
    (ht : TryOk cf P.tree) : Written false (printModule cf gs P.tree) (progOf gs ds b).toks := by
  unfold TryOk at ht
  rw [tree_body] at ht
  have := h.sp (cf := cf) (fun f hf => ht (.func f) (List.mem_append_left _ (List.mem_map.2 ⟨f, hf, rfl⟩)))
    (tryOkL_of fun s hs => ht (.stm s) (List.mem_append_right _ (List.mem_map.2 ⟨s, hs, rfl⟩))) [] [] trivial (.done (.layout .nil))
  unfold printModule
  rw [if_neg hb, tree_body]
  simpa using this

end Verif
