import Verif.Proofs.Reprint.Final
import Verif.Proofs.Reprint.Bare
/-!
# Printed modules read back with their branches `ИначеЕсли` in the opposite order
-/
namespace Verif
open Spec Lexer LR

/-! ## Turning -/

theorem turnL_reverse (l : List Stm) : turnL l.reverse = (turnL l).reverse := by
  rw [turnL_map, turnL_map, List.map_reverse]

mutual
theorem turn_turn : ∀ s, turn (turn s) = s
  | .ifS c t ei el => by
    simp only [turn, turnL_reverse, List.reverse_reverse, turnL_turnL t, turnL_turnL ei, turnL_turnL el]
  | .loop _ _ _ _ b => by simp only [turn, turnL_turnL b]
  | .tryS b h => by simp only [turn, turnL_turnL b, turnL_turnL h]
  | .num _ | .str _ | .bool _ | .date _ | .undef | .var _ _ _ | .method _ _ _ | .item _ _ | .ternary _ _ _ | .new _ _ | .exprs _ _
  | .chain _ _ _ _ | .bin _ _ _ _ _ | .assign _ _ | .nil | .brk | .cont | .throw _ | .ret _ | .label _ | .goto _ => by simp only [turn]
theorem turnL_turnL : ∀ l, turnL (turnL l) = l
  | [] => by simp only [turnL]
  | s :: l => by simp only [turnL, turn_turn s, turnL_turnL l]
end

theorem turnFunc_turnFunc (f : FuncDecl) : turnFunc (turnFunc f) = f := by simp only [turnFunc, turnL_turnL]

theorem turnModule_turnModule (M : Module) : turnModule (turnModule M) = M := by
  have : (turnItem ∘ turnItem) = id := by
    funext i
    cases i with
    | func f => simp only [Function.comp, turnItem, turnFunc_turnFunc, id]
    | stm s => simp only [Function.comp, turnItem, turn_turn, id]
  unfold turnModule
  simp only [List.map_map, this, List.map_id]

theorem plainB_append {l l' : List Stm} : plainB (l ++ l') ↔ plainB l ∧ plainB l' := by
  induction l with
  | nil => simp [plainB]
  | cons s l ih => simp [plainB, ih, and_assoc]
theorem plainB_reverse {l : List Stm} : plainB l.reverse ↔ plainB l := by
  induction l with
  | nil => simp
  | cons s l ih => rw [List.reverse_cons, plainB_append, ih]; simp [plainB, and_comm]
theorem steadyB_append {l l' : List Stm} : steadyB (l ++ l') ↔ steadyB l ∧ steadyB l' := by
  induction l with
  | nil => simp [steadyB]
  | cons s l ih => simp [steadyB, ih, and_assoc]
theorem steadyB_reverse {l : List Stm} : steadyB l.reverse ↔ steadyB l := by
  induction l with
  | nil => simp
  | cons s l ih => rw [List.reverse_cons, steadyB_append, ih]; simp [steadyB, and_comm]
theorem showsB_reverse {l : List Stm} : showsB l.reverse ↔ showsB l := by
  induction l with
  | nil => simp
  | cons s l ih => rw [List.reverse_cons, showsB_append, ih]; simp [showsB, and_comm]
theorem tryOkL_append_iff {cf} {l l' : List Stm} : tryOkL cf (l ++ l') ↔ tryOkL cf l ∧ tryOkL cf l' := by
  induction l with
  | nil => simp [tryOkL]
  | cons s l ih => simp [tryOkL, ih, and_assoc]
theorem tryOkL_reverse {cf} {l : List Stm} : tryOkL cf l.reverse ↔ tryOkL cf l := by
  induction l with
  | nil => simp
  | cons s l ih => rw [List.reverse_cons, tryOkL_append_iff, ih]; simp [tryOkL, and_comm]

mutual
theorem plainS_turn : ∀ s, plainS (turn s) ↔ plainS s
  | .ifS c t ei el => by simp only [turn, plainS, plainB_reverse, plainB_turn t, plainB_turn ei, plainB_turn el]
  | .loop _ _ _ _ b => by simp only [turn, plainS, plainB_turn b]
  | .tryS b h => by simp only [turn, plainS, plainB_turn b, plainB_turn h]
  | .num _ | .str _ | .bool _ | .date _ | .undef | .var _ _ _ | .method _ _ _ | .item _ _ | .ternary _ _ _ | .new _ _ | .exprs _ _
  | .chain _ _ _ _ | .bin _ _ _ _ _ | .assign _ _ | .nil | .brk | .cont | .throw _ | .ret _ | .label _ | .goto _ => by simp only [turn]
theorem plainB_turn : ∀ l, plainB (turnL l) ↔ plainB l
  | [] => by simp only [turnL]
  | s :: l => by simp only [turnL, plainB, plainS_turn s, plainB_turn l]
end

mutual
theorem steadyS_turn : ∀ s, steadyS (turn s) ↔ steadyS s
  | .ifS c t ei el => by simp only [turn, steadyS, steadyB_reverse, steadyB_turn t, steadyB_turn ei, steadyB_turn el]
  | .loop _ _ _ _ b => by simp only [turn, steadyS, steadyB_turn b]
  | .tryS b h => by simp only [turn, steadyS, steadyB_turn b, steadyB_turn h]
  | .num _ | .str _ | .bool _ | .date _ | .undef | .var _ _ _ | .method _ _ _ | .item _ _ | .ternary _ _ _ | .new _ _ | .exprs _ _
  | .chain _ _ _ _ | .bin _ _ _ _ _ | .assign _ _ | .nil | .brk | .cont | .throw _ | .ret _ | .label _ | .goto _ => by simp only [turn]
theorem steadyB_turn : ∀ l, steadyB (turnL l) ↔ steadyB l
  | [] => by simp only [turnL]
  | s :: l => by simp only [turnL, steadyB, steadyS_turn s, steadyB_turn l]
end

mutual
theorem showsS_turn : ∀ s, showsS (turn s) ↔ showsS s
  | .ifS c t ei el => by simp only [turn, showsS, showsB_reverse, showsB_turn t, showsB_turn ei, showsB_turn el]
  | .loop _ _ _ _ b => by simp only [turn, showsS, showsB_turn b]
  | .tryS b h => by simp only [turn, showsS, showsB_turn b, showsB_turn h]
  | .num _ | .str _ | .bool _ | .date _ | .undef | .var _ _ _ | .method _ _ _ | .item _ _ | .ternary _ _ _ | .new _ _ | .exprs _ _
  | .chain _ _ _ _ | .bin _ _ _ _ _ | .assign _ _ | .nil | .brk | .cont | .throw _ | .ret _ | .label _ | .goto _ => by simp only [turn]
theorem showsB_turn : ∀ l, showsB (turnL l) ↔ showsB l
  | [] => by simp only [turnL]
  | s :: l => by simp only [turnL, showsB, showsS_turn s, showsB_turn l]
end

mutual
theorem tryOk_turn (cf : PrintConf) : ∀ s, tryOk cf (turn s) ↔ tryOk cf s
  | .ifS c t ei el => by simp only [turn, tryOk, tryOkL_reverse, tryOkL_turn cf t, tryOkL_turn cf ei, tryOkL_turn cf el]
  | .loop _ _ _ _ b => by simp only [turn, tryOk, tryOkL_turn cf b]
  | .tryS b h => by simp only [turn, tryOk, tryOkL_turn cf b, tryOkL_turn cf h, ne_eq, turnL_nil]
  | .num _ | .str _ | .bool _ | .date _ | .undef | .var _ _ _ | .method _ _ _ | .item _ _ | .ternary _ _ _ | .new _ _ | .exprs _ _
  | .chain _ _ _ _ | .bin _ _ _ _ _ | .assign _ _ | .nil | .brk | .cont | .throw _ | .ret _ | .label _ | .goto _ => by simp only [turn]
theorem tryOkL_turn (cf : PrintConf) : ∀ l, tryOkL cf (turnL l) ↔ tryOkL cf l
  | [] => by simp only [turnL]
  | s :: l => by simp only [turnL, tryOkL, tryOk_turn cf s, tryOkL_turn cf l]
end

section
variable [Letters]

theorem turn_saneE {s : Stm} (h : SaneE s) : turn s = s := by cases h <;> (unfold turn; rfl)

mutual
theorem SaneS.turn : ∀ {s}, SaneS s → SaneS (turn s)
  | _, .assign hv hs => by simp only [Spec.turn]; exact .assign hv hs
  | _, .expr h => by rw [turn_saneE h]; exact .expr h
  | _, .ifS hc ht hi he => by
    simp only [Spec.turn]
    refine .ifS hc ?_ ?_ ?_
    · intro s hs
      rw [turnL_map] at hs
      obtain ⟨x, hx, rfl⟩ := List.mem_map.1 hs
      exact (ht x hx).turn
    · intro s hs
      rw [List.mem_reverse, turnL_map] at hs
      obtain ⟨x, hx, rfl⟩ := List.mem_map.1 hs
      exact (hi x hx).turn
    · intro s hs
      rw [turnL_map] at hs
      obtain ⟨x, hx, rfl⟩ := List.mem_map.1 hs
      exact (he x hx).turn
  | _, .forEach hn hi hb => by
    simp only [Spec.turn]
    refine .forEach hn hi fun s hs => ?_
    rw [turnL_map] at hs
    obtain ⟨x, hx, rfl⟩ := List.mem_map.1 hs
    exact (hb x hx).turn
  | _, .forTo hn hi hb => by
    simp only [Spec.turn]
    refine .forTo hn hi fun s hs => ?_
    rw [turnL_map] at hs
    obtain ⟨x, hx, rfl⟩ := List.mem_map.1 hs
    exact (hb x hx).turn
  | _, .whileS hc hb => by
    simp only [Spec.turn]
    refine .whileS hc fun s hs => ?_
    rw [turnL_map] at hs
    obtain ⟨x, hx, rfl⟩ := List.mem_map.1 hs
    exact (hb x hx).turn
  | _, .tryS hb hh => by
    simp only [Spec.turn]
    refine .tryS (fun s hs => ?_) (fun s hs => ?_)
    · rw [turnL_map] at hs
      obtain ⟨x, hx, rfl⟩ := List.mem_map.1 hs
      exact (hb x hx).turn
    · rw [turnL_map] at hs
      obtain ⟨x, hx, rfl⟩ := List.mem_map.1 hs
      exact (hh x hx).turn
  | _, .cont => by simp only [Spec.turn]; exact .cont
  | _, .brk => by simp only [Spec.turn]; exact .brk
  | _, .throw h => by simp only [Spec.turn]; exact .throw h
  | _, .ret h => by simp only [Spec.turn]; exact .ret h
theorem SaneElif.turn : ∀ {s}, SaneElif s → SaneElif (turn s)
  | _, .mk hc hb => by
    simp only [Spec.turn, turnL, List.reverse_nil]
    refine .mk hc fun s hs => ?_
    rw [turnL_map] at hs
    obtain ⟨x, hx, rfl⟩ := List.mem_map.1 hs
    exact (hb x hx).turn
end

/-! ## Reading printed modules -/

/-- Everything that is asked of a module; the conditions do not change when the module is turned. -/
structure Fine (cf : PrintConf) (gs : List GVar) (fs : List FuncDecl) (l : List Stm) : Prop where
  sane : SaneM gs fs l
  rules : TreeOk gs fs l
  params : ∀ f ∈ fs, ∀ p ∈ f.params, p.default = .nil ∨ IsLit p.default
  plainF : ∀ f ∈ fs, plainB f.body
  plain : ∀ s ∈ l, plainS s
  steadyF : ∀ f ∈ fs, steadyB f.body
  steady : ∀ s ∈ l, steadyS s
  loopsF : ∀ f ∈ fs, inLoopsL f.body
  loops : inLoopsL l
  tryF : ∀ f ∈ fs, tryOkL cf f.body
  tryL : tryOkL cf l
  ne : fs.map Item.func ++ l.map Item.stm ≠ []

theorem Fine.turn {cf gs fs l} (h : Fine cf gs fs l) : Fine cf gs (fs.map turnFunc) (turnL l) := by
  have hf : ∀ {Q : FuncDecl → Prop}, (∀ f ∈ fs, Q (turnFunc f)) → ∀ f ∈ fs.map turnFunc, Q f := by
    intro Q hQ f hf
    obtain ⟨x, hx, rfl⟩ := List.mem_map.1 hf
    exact hQ x hx
  have hl : ∀ {l : List Stm} {Q : Stm → Prop}, (∀ s ∈ l, Q (Spec.turn s)) → ∀ s ∈ turnL l, Q s := by
    intro l Q hQ s hs
    rw [turnL_map] at hs
    obtain ⟨x, hx, rfl⟩ := List.mem_map.1 hs
    exact hQ x hx
  refine ⟨⟨h.sane.vars, hf fun f hm => ?_, hl fun s hm => (h.sane.body s hm).turn⟩, ⟨h.rules.names, ⟨hf fun f hm => ?_, ?_⟩, hf fun f hm => ?_, ?_⟩,
    hf fun f hm => h.params f hm, hf fun f hm => ?_, hl fun s hm => (plainS_turn s).2 (h.plain s hm), hf fun f hm => ?_,
    hl fun s hm => (steadyS_turn s).2 (h.steady s hm), hf fun f hm => ?_, (inLoopsL_turn _).2 h.loops, hf fun f hm => ?_,
    (tryOkL_turn cf _).2 h.tryL, ?_⟩
  · obtain ⟨h1, h2, h3, h4⟩ := h.sane.funcs f hm
    exact ⟨h1, h2, h3, hl fun s hs => (h4 s hs).turn⟩
  · exact (thL_turn _ _).2 (h.rules.throws.1 f hm)
  · exact (thL_turn _ _).2 h.rules.throws.2
  · exact (rtL_turn _ _).2 (h.rules.returns.1 f hm)
  · exact (rtL_turn _ _).2 h.rules.returns.2
  · exact (plainB_turn _).2 (h.plainF f hm)
  · exact (steadyB_turn _).2 (h.steadyF f hm)
  · exact (inLoopsL_turn _).2 (h.loopsF f hm)
  · exact (tryOkL_turn cf _).2 (h.tryF f hm)
  · intro e
    refine h.ne ?_
    obtain ⟨e1, e2⟩ := List.append_eq_nil_iff.1 e
    have h1 : fs = [] := by simpa using e1
    have h2 : turnL l = [] := by simpa using e2
    rw [h1, turnL_nil.1 h2]
    rfl

/-- The module with these parts. -/
abbrev modOfParts (gs : List GVar) (fs : List FuncDecl) (l : List Stm) : Module := ⟨gs, fs.map .func ++ l.map .stm⟩

theorem Fine.reread {cf gs fs l} (h : Fine cf gs fs l) :
    ∃ M', Accepts (printModule cf gs (modOfParts gs fs l)) M' ∧ M'.globals = gs ∧
      (∀ cf' gs', gs'.Perm gs → printModule cf' gs' M' = printModule cf' gs' (modOfParts gs (fs.map turnFunc) (turnL l))) ∧
      ((∀ f ∈ fs, showsB f.body) → (∀ s ∈ l, showsS s) → M'.body.map bareItem = (modOfParts gs (fs.map turnFunc) (turnL l)).body.map bareItem) := by
  obtain ⟨ds, b, hr⟩ := h.sane.re (g := true) (.refl gs) (fun f hf => ⟨h.params f hf, h.plainF f hf⟩) h.plain fun _ => ⟨h.steadyF, h.steady⟩
  have hw : Written false (printModule cf gs (modOfParts gs fs l)) (progOf gs ds b).toks := by
    have := hr.sp (cf := cf) h.tryF h.tryL [] [] trivial (.done (.layout .nil))
    unfold printModule
    rw [if_neg h.ne]
    simpa using this
  obtain ⟨t, ht1, ht2⟩ := hr.mark h.ne
  refine ⟨(progOf gs ds b).tree, accepts_of (written_mark hw ht1 ht2) ⟨written_keys hw, hr.grouped⟩
    (hr.ok' h.rules (.inr ⟨h.loopsF, h.loops⟩)), globals_progOf .., ?_, ?_⟩
  · intro cf' gs' hp'
    have h' : ReM true gs' fs l ds b := ⟨fun v hv => hr.vars v (hp'.subset hv), hr.funcs, hr.body⟩
    have e := h'.again (globals := gs) cf' h.ne
    rw [← e]
    have hbody : (progOf gs ds b).tree.body = (progOf gs' ds b).tree.body := by
      rw [tree_body, tree_body, funcs_progOf, funcs_progOf]
      rfl
    unfold printModule
    rw [hbody]
  · exact fun h1 h2 => hr.bare h1 h2

end

end Verif
