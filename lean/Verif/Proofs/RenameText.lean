import Verif.Spec.RenameText
import Verif.Spec.Bare
import Verif.Proofs.RenameProgram
import Verif.Proofs.TextInv
import Verif.Proofs.Reprint.Sane
/-! Every sequence of tokens that can be written one by one has a text; renaming does not change what `Print` and `Parse` do with
the shape of a tree. -/
namespace Verif.RenameText
open Spec Lexer
variable [Letters]

/-! ## Texts for tokens -/

/-- A line feed and an empty comment: ends every token. -/
def gap (r : List Char) : List Char := '\n' :: '/' :: '/' :: '\n' :: r

theorem newline_part : ¬ WordPart '\n' := by
  rintro ((h | h) | h)
  · rw [Letters.ascii _ (by decide)] at h
    exact absurd h (by decide)
  · exact absurd h (by decide)
  · exact absurd h (by unfold Digit; decide)

theorem wordEnds_gap (r : List Char) : WordEnds (gap r) := by
  rintro c r' h
  injection h with h1 h2
  subst h1
  exact newline_part

omit [Letters] in
theorem noQuote_gap (r : List Char) : NoQuoteNext (gap r) := by
  intro b s h hb s' hs
  subst hs
  match b, h, hb with
  | [], h, _ => injection h with h1 _; exact absurd h1 (by decide)
  | [_], h, _ => injection h with _ h2; injection h2 with h1 _; exact absurd h1 (by decide)
  | _ :: c :: b, h, hb =>
    injection h with _ h2
    injection h2 with h1 _
    have := hb c (by simp)
    subst h1
    rcases this with h | h | h | h <;> exact absurd h (by decide)

theorem lexeme_gap {dot : Bool} {w : List Char} {k : Key} {F : List Char → Prop} (h : Lexeme dot w k F) (r : List Char) : F (gap r) := by
  have notNext : ∀ c, c ≠ '\n' → NotNext c (gap r) := by
    intro c hc r' h
    injection h with h1 _
    exact hc h1.symm
  cases h with
  | name | keyword | tru | fls | exec | directive | label => exact wordEnds_gap r
  | mark => exact fun _ => notNext _ (by decide)
  | ne | le | ge => trivial
  | lt => exact ⟨notNext _ (by decide), notNext _ (by decide)⟩
  | gt => exact notNext _ (by decide)
  | number =>
    intro c r' h
    injection h with h1 _
    subst h1
    rintro (h | h | h)
    · exact newline_part (.inr h)
    · exact absurd h (by decide)
    · exact newline_part (.inl h)
  | string | date => exact noQuote_gap r

omit [Letters] in
theorem layout_gap : Layout (gap []) := .blank (.inr (.inr (.inr rfl))) (.comment (t := []) (by simp) .nil)

theorem written_gap {dot : Bool} {ks : List Key} (h : KeysOk dot ks) : ∃ s, Written dot (gap s) ks := by
  induction h with
  | nil => exact ⟨[], .done (.layout layout_gap)⟩
  | cons hk _ ih =>
    obtain ⟨w, F, hw⟩ := hk
    obtain ⟨s, hs⟩ := ih
    exact ⟨w ++ gap s, .next (l := gap []) layout_gap hw (lexeme_gap hw s) hs⟩

/-- The renamed tokens can be written. -/
theorem keysOk_rename {ρ : Renaming} (hρ : ρ.Writable) {dot : Bool} {ks : List Key} (h : KeysOk dot ks) : KeysOk dot (ks.map ρ.key) := by
  induction h with
  | nil => exact .nil
  | @cons dot k ks hk _ ih =>
    refine .cons (hρ _ _ hk) ?_
    have : dotAfter dot (ρ.key k) = dotAfter dot k := by
      unfold dotAfter
      congr 1
      rw [decide_eq_decide]
      constructor
      · intro h
        have hkind : k.kind = Terminal.dot.kind := by
          have := congrArg Key.kind h
          unfold Renaming.key at this
          split at this
          · exact this
          split at this
          · exact this
          split at this
          · exact this
          · exact this
        obtain ⟨w, F, hw⟩ := hk
        cases hw with
        | @name _ w => exact absurd (kind_inj (t := .ktoken_identifier) hkind) (by decide)
        | tru => exact absurd (kind_inj (t := .kTrue) hkind) (by decide)
        | fls => exact absurd (kind_inj (t := .kFalse) hkind) (by decide)
        | exec => exact absurd (kind_inj (t := .kExecute) hkind) (by decide)
        | number => exact absurd (kind_inj (t := .kNumber) hkind) (by decide)
        | string => exact absurd (kind_inj (t := .kString) hkind) (by decide)
        | date => exact absurd (kind_inj (t := .kDate) hkind) (by decide)
        | directive => exact absurd (kind_inj (t := .kDirective) hkind) (by decide)
        | label => exact absurd (kind_inj (t := .kGoToLabel) hkind) (by decide)
        | keyword | mark | ne | le | ge | lt | gt => exact congrArg word (kind_inj hkind)
      · rintro rfl
        exact ρ.key_word (by decide)
    rw [this]
    exact ih

/-! ## Shapes -/

section
variable (ρ : Renaming)
omit [Letters]

theorem rename_nil (s : Stm) : s.rename ρ = .nil ↔ s = .nil := by
  cases s <;> simp [Stm.rename]

theorem renameL_nil (l : List Stm) : Stm.renameL ρ l = [] ↔ l = [] := by
  cases l <;> simp [Stm.renameL]

theorem renameL_length (l : List Stm) : (Stm.renameL ρ l).length = l.length := by
  induction l with
  | nil => rfl
  | cons s l ih => simp [Stm.renameL, ih]

/-- The variable of a loop is renamed as it is, or is a Go string. -/
theorem loopVar_cases (f i : Stm) : ρ.loopVar (f.rename ρ) f i = f.rename ρ ∨ ∃ n m, f = .str n ∧ ρ.loopVar (f.rename ρ) f i = .str m := by
  unfold Renaming.loopVar
  split
  · exact .inl rfl
  · exact .inr ⟨_, _, rfl, rfl⟩
  · exact .inl rfl

mutual
theorem tryOk_rename (cf : PrintConf) : ∀ s : Stm, tryOk cf (s.rename ρ) ↔ tryOk cf s
  | .ifS _ tb ei el => by simp only [Stm.rename, tryOk, tryOkL_rename cf tb, tryOkL_rename cf ei, tryOkL_rename cf el]
  | .loop _ _ _ _ b => by simp only [Stm.rename, tryOk, tryOkL_rename cf b]
  | .tryS b h => by simp only [Stm.rename, tryOk, tryOkL_rename cf b, tryOkL_rename cf h, ne_eq, renameL_nil]
  | .nil | .num _ | .str _ | .bool _ | .date _ | .undef | .var _ _ _ | .chain _ _ _ _ | .method _ _ _ | .item _ _ | .ternary _ _ _
  | .new _ _ | .assign _ _ | .bin _ _ _ _ _ | .exprs _ _ | .throw _ | .ret _ | .brk | .cont | .goto _ | .label _ => by
    simp only [Stm.rename, tryOk]
theorem tryOkL_rename (cf : PrintConf) : ∀ l : List Stm, tryOkL cf (Stm.renameL ρ l) ↔ tryOkL cf l
  | [] => by simp only [Stm.renameL]
  | s :: l => by simp only [Stm.renameL, tryOkL, tryOk_rename cf s, tryOkL_rename cf l]
end

mutual
theorem plainE_rename : ∀ s : Stm, plainE (s.rename ρ) ↔ plainE s
  | .chain u c _ _ => by simp only [Stm.rename, plainE, plainE_rename u, plainE_rename c]
  | .method _ ps _ => by simp only [Stm.rename, plainE, plainEs_rename ps]
  | .item i o => by simp only [Stm.rename, plainE, plainE_rename i, plainE_rename o]
  | .ternary c t e => by simp only [Stm.rename, plainE, plainE_rename c, plainE_rename t, plainE_rename e]
  | .new _ ps => by simp only [Stm.rename, plainE, plainEs_rename ps]
  | .exprs [] _ => by simp only [Stm.rename, Stm.renameL, plainE]
  | .exprs [s] _ => by simp only [Stm.rename, Stm.renameL, plainE, plainE_rename s, ne_eq, rename_nil]
  | .exprs (_ :: _ :: _) _ => by simp only [Stm.rename, Stm.renameL, plainE]
  | .bin _ l r _ _ => by simp only [Stm.rename, plainE, plainE_rename l, plainE_rename r]
  | .nil | .num _ | .str _ | .bool _ | .date _ | .undef | .var _ _ _ | .ifS _ _ _ _ | .loop _ _ _ _ _ | .tryS _ _
  | .assign _ _ | .throw _ | .ret _ | .brk | .cont | .goto _ | .label _ => by
    simp only [Stm.rename, plainE]
theorem plainEs_rename : ∀ l : List Stm, plainEs (Stm.renameL ρ l) ↔ plainEs l
  | [] => by simp only [Stm.renameL]
  | s :: l => by simp only [Stm.renameL, plainEs, plainE_rename s, plainEs_rename l]
end

theorem plainE_loopVar (f i : Stm) : plainE (ρ.loopVar (f.rename ρ) f i) ↔ plainE f := by
  rcases loopVar_cases ρ f i with h | ⟨n, m, rfl, h⟩
  · rw [h, plainE_rename]
  · rw [h]
    simp only [plainE]

mutual
theorem plainS_rename : ∀ s : Stm, plainS (s.rename ρ) ↔ plainS s
  | .assign v l => by simp only [Stm.rename, plainS, plainE_rename, plainEs_rename]
  | .ifS c t ei el => by simp only [Stm.rename, plainS, plainE_rename, plainB_rename t, plainB_rename ei, plainB_rename el]
  | .loop f z i w b => by simp only [Stm.rename, plainS, plainE_loopVar, plainE_rename, plainB_rename b]
  | .tryS b h => by simp only [Stm.rename, plainS, plainB_rename b, plainB_rename h]
  | .throw s => by
    have h := plainE_rename ρ s
    cases s <;> simp only [Stm.rename, plainS] at h ⊢ <;> first | exact h | exact plainEs_rename ρ _
  | .ret s => by simp only [Stm.rename, plainS, plainE_rename]
  | .label _ | .goto _ => by simp only [Stm.rename, plainS]
  | .chain u c m n => by have h := plainE_rename ρ (.chain u c m n); simp only [Stm.rename, plainS] at h ⊢; exact h
  | .method f ps n => by have h := plainE_rename ρ (.method f ps n); simp only [Stm.rename, plainS] at h ⊢; exact h
  | .item i o => by have h := plainE_rename ρ (.item i o); simp only [Stm.rename, plainS] at h ⊢; exact h
  | .ternary c t e => by have h := plainE_rename ρ (.ternary c t e); simp only [Stm.rename, plainS] at h ⊢; exact h
  | .new c ps => by have h := plainE_rename ρ (.new c ps); simp only [Stm.rename, plainS] at h ⊢; exact h
  | .exprs l n => by have h := plainE_rename ρ (.exprs l n); simp only [Stm.rename, plainS] at h ⊢; exact h
  | .bin op l r u n => by have h := plainE_rename ρ (.bin op l r u n); simp only [Stm.rename, plainS] at h ⊢; exact h
  | .nil | .num _ | .str _ | .bool _ | .date _ | .undef | .var _ _ _ | .brk | .cont => by simp only [Stm.rename, plainS, plainE]
theorem plainB_rename : ∀ l : List Stm, plainB (Stm.renameL ρ l) ↔ plainB l
  | [] => by simp only [Stm.renameL]
  | s :: l => by simp only [Stm.renameL, plainB, plainS_rename s, plainB_rename l]
end

theorem isLit_rename (s : Stm) : IsLit (s.rename ρ) ↔ IsLit s := by
  cases s <;> simp only [Stm.rename, IsLit]

theorem varLike_rename (s : Stm) : VarLike (s.rename ρ) ↔ VarLike s := by
  cases s <;> simp only [Stm.rename, VarLike]

theorem startsNot_rename : ∀ s : Stm, startsNot (s.rename ρ) ↔ startsNot s
  | .exprs [] _ => by simp only [Stm.rename, Stm.renameL, startsNot]
  | .exprs [s] _ => by simp only [Stm.rename, Stm.renameL, startsNot, startsNot_rename s]
  | .exprs (_ :: _ :: _) _ => by simp only [Stm.rename, Stm.renameL, startsNot]
  | .chain _ _ _ _ | .method _ _ _ | .item _ _ | .ternary _ _ _ | .new _ _ | .bin _ _ _ _ _
  | .nil | .num _ | .str _ | .bool _ | .date _ | .undef | .var _ _ _ | .ifS _ _ _ _ | .loop _ _ _ _ _ | .tryS _ _
  | .assign _ _ | .throw _ | .ret _ | .brk | .cont | .goto _ | .label _ => by
    simp only [Stm.rename, startsNot]

mutual
theorem stableE_rename (lv : Place) : ∀ s : Stm, stableE lv (s.rename ρ) ↔ stableE lv s
  | .chain u c _ _ => by simp only [Stm.rename, stableE, stableE_rename _ u, stableE_rename _ c]
  | .method _ ps _ => by simp only [Stm.rename, stableE, stableL_rename _ ps]
  | .item i o => by simp only [Stm.rename, stableE, stableE_rename _ i, stableE_rename _ o]
  | .ternary c t e => by simp only [Stm.rename, stableE, stableE_rename _ c, stableE_rename _ t, stableE_rename _ e]
  | .new _ ps => by simp only [Stm.rename, stableE, stableL_rename _ ps]
  | .exprs [] _ => by simp only [Stm.rename, Stm.renameL, stableE]
  | .exprs [s] _ => by simp only [Stm.rename, Stm.renameL, stableE, stableE_rename _ s, varLike_rename]
  | .exprs (_ :: _ :: _) _ => by simp only [Stm.rename, Stm.renameL, stableE]
  | .bin _ l r _ _ => by simp only [Stm.rename, stableE, stableE_rename _ l, stableE_rename _ r, startsNot_rename]
  | .nil | .num _ | .str _ | .bool _ | .date _ | .undef | .var _ _ _ | .ifS _ _ _ _ | .loop _ _ _ _ _ | .tryS _ _
  | .assign _ _ | .throw _ | .ret _ | .brk | .cont | .goto _ | .label _ => by
    simp only [Stm.rename, stableE]
theorem stableL_rename (lv : Place) : ∀ l : List Stm, stableL lv (Stm.renameL ρ l) ↔ stableL lv l
  | [] => by simp only [Stm.renameL]
  | s :: l => by simp only [Stm.renameL, stableL, stableE_rename _ s, stableL_rename _ l]
end

theorem stableE_loopVar (lv : Place) (f i : Stm) : stableE lv (ρ.loopVar (f.rename ρ) f i) ↔ stableE lv f := by
  rcases loopVar_cases ρ f i with h | ⟨n, m, rfl, h⟩
  · rw [h, stableE_rename]
  · rw [h]
    simp only [stableE]

mutual
theorem stableS_rename : ∀ s : Stm, stableS (s.rename ρ) ↔ stableS s
  | .assign v l => by simp only [Stm.rename, stableS, stableE_rename, stableL_rename]
  | .bin op l r u n => by have h := stableE_rename ρ .top (.bin op l r u n); simp only [Stm.rename, stableS] at h ⊢; rw [h]
  | .ifS c t ei el => by
    simp only [Stm.rename, stableS, stableE_rename, renameL_length, stableB_rename t, stableB_rename ei, stableB_rename el]
  | .loop f z i w b => by simp only [Stm.rename, stableS, stableE_loopVar, stableE_rename, stableB_rename b]
  | .tryS b h => by simp only [Stm.rename, stableS, stableB_rename b, stableB_rename h]
  | .throw s => by
    have h := stableE_rename ρ .arg s
    cases s <;> simp only [Stm.rename, stableS] at h ⊢ <;> first | exact h | exact stableL_rename ρ _ _
  | .ret s => by simp only [Stm.rename, stableS, stableE_rename]
  | .exprs _ _ => by simp only [Stm.rename, stableS]
  | .chain u c m n => by have h := stableE_rename ρ .arg (.chain u c m n); simp only [Stm.rename, stableS] at h ⊢; exact h
  | .method f ps n => by have h := stableE_rename ρ .arg (.method f ps n); simp only [Stm.rename, stableS] at h ⊢; exact h
  | .item i o => by have h := stableE_rename ρ .arg (.item i o); simp only [Stm.rename, stableS] at h ⊢; exact h
  | .ternary c t e => by have h := stableE_rename ρ .arg (.ternary c t e); simp only [Stm.rename, stableS] at h ⊢; exact h
  | .new c ps => by have h := stableE_rename ρ .arg (.new c ps); simp only [Stm.rename, stableS] at h ⊢; exact h
  | .nil | .num _ | .str _ | .bool _ | .date _ | .undef | .var _ _ _ | .brk | .cont | .label _ | .goto _ => by
    simp only [Stm.rename, stableS, stableE]
theorem stableB_rename : ∀ l : List Stm, stableB (Stm.renameL ρ l) ↔ stableB l
  | [] => by simp only [Stm.renameL]
  | s :: l => by simp only [Stm.renameL, stableB, stableS_rename s, stableB_rename l]
end

mutual
theorem showsE_rename (lv : Place) : ∀ s : Stm, showsE lv (s.rename ρ) ↔ showsE lv s
  | .chain u c _ _ => by simp only [Stm.rename, showsE, showsE_rename _ u, showsE_rename _ c]
  | .method _ ps _ => by simp only [Stm.rename, showsE, showsL_rename _ ps]
  | .item i o => by simp only [Stm.rename, showsE, showsE_rename _ i, showsE_rename _ o]
  | .ternary c t e => by simp only [Stm.rename, showsE, showsE_rename _ c, showsE_rename _ t, showsE_rename _ e]
  | .new _ ps => by simp only [Stm.rename, showsE, showsL_rename _ ps]
  | .exprs l _ => by simp only [Stm.rename, showsE, showsL_rename _ l]
  | .bin _ l r _ _ => by simp only [Stm.rename, showsE, showsE_rename _ l, showsE_rename _ r]
  | .nil | .num _ | .str _ | .bool _ | .date _ | .undef | .var _ _ _ | .ifS _ _ _ _ | .loop _ _ _ _ _ | .tryS _ _
  | .assign _ _ | .throw _ | .ret _ | .brk | .cont | .goto _ | .label _ => by
    simp only [Stm.rename, showsE]
theorem showsL_rename (lv : Place) : ∀ l : List Stm, showsL lv (Stm.renameL ρ l) ↔ showsL lv l
  | [] => by simp only [Stm.renameL]
  | s :: l => by simp only [Stm.renameL, showsL, showsE_rename _ s, showsL_rename _ l]
end

theorem showsE_loopVar (lv : Place) (f i : Stm) : showsE lv (ρ.loopVar (f.rename ρ) f i) ↔ showsE lv f := by
  rcases loopVar_cases ρ f i with h | ⟨n, m, rfl, h⟩
  · rw [h, showsE_rename]
  · rw [h]
    simp only [showsE]

mutual
theorem showsS_rename : ∀ s : Stm, showsS (s.rename ρ) ↔ showsS s
  | .assign v l => by simp only [Stm.rename, showsS, showsE_rename, showsL_rename]
  | .bin op l r u n => by have h := showsE_rename ρ .top (.bin op l r u n); simp only [Stm.rename, showsS] at h ⊢; exact h
  | .ifS c t ei el => by simp only [Stm.rename, showsS, showsE_rename, showsB_rename t, showsB_rename ei, showsB_rename el]
  | .loop f z i w b => by simp only [Stm.rename, showsS, showsE_loopVar, showsE_rename, showsB_rename b]
  | .tryS b h => by simp only [Stm.rename, showsS, showsB_rename b, showsB_rename h]
  | .throw s => by
    have h := showsE_rename ρ .arg s
    cases s <;> simp only [Stm.rename, showsS] at h ⊢ <;> first | exact h | rw [showsL_rename ρ]
  | .ret s => by simp only [Stm.rename, showsS, showsE_rename]
  | .exprs l n => by have h := showsE_rename ρ .arg (.exprs l n); simp only [Stm.rename, showsS] at h ⊢; exact h
  | .chain u c m n => by have h := showsE_rename ρ .arg (.chain u c m n); simp only [Stm.rename, showsS] at h ⊢; rw [h]
  | .method f ps n => by have h := showsE_rename ρ .arg (.method f ps n); simp only [Stm.rename, showsS] at h ⊢; exact h
  | .item i o => by have h := showsE_rename ρ .arg (.item i o); simp only [Stm.rename, showsS] at h ⊢; exact h
  | .ternary c t e => by have h := showsE_rename ρ .arg (.ternary c t e); simp only [Stm.rename, showsS] at h ⊢; exact h
  | .new c ps => by have h := showsE_rename ρ .arg (.new c ps); simp only [Stm.rename, showsS] at h ⊢; exact h
  | .nil | .num _ | .str _ | .bool _ | .date _ | .undef | .var _ _ _ | .brk | .cont | .label _ | .goto _ => by
    simp only [Stm.rename, showsS, showsE]
theorem showsB_rename : ∀ l : List Stm, showsB (Stm.renameL ρ l) ↔ showsB l
  | [] => by simp only [Stm.renameL]
  | s :: l => by simp only [Stm.renameL, showsB, showsS_rename s, showsB_rename l]
end

theorem renameL_map (l : List Stm) : l.map (Stm.rename ρ) = Stm.renameL ρ l := by
  induction l with
  | nil => rfl
  | cons s l ih => rw [List.map_cons, ih]; rfl

theorem printable_rename (M : Module) (h : Printable M) : Printable (M.rename ρ) := by
  intro i hi
  obtain ⟨j, hj, rfl⟩ := List.mem_map.1 hi
  have := h j hj
  cases j with
  | stm s => exact (plainS_rename ρ s).2 this
  | func f =>
    refine ⟨fun p hp => ?_, ?_⟩
    · obtain ⟨q, hq, rfl⟩ := List.mem_map.1 hp
      exact (this.1 q hq).imp (fun h => (rename_nil ρ _).2 h) fun h => (isLit_rename ρ _).2 h
    · show plainB (f.body.map (Stm.rename ρ))
      rw [renameL_map, plainB_rename]
      exact this.2

theorem stable_rename (M : Module) (h : Stable M) : Stable (M.rename ρ) := by
  intro i hi
  obtain ⟨j, hj, rfl⟩ := List.mem_map.1 hi
  have := h j hj
  cases j with
  | stm s => exact (stableS_rename ρ s).2 this
  | func f =>
    show stableB (f.body.map (Stm.rename ρ))
    rw [renameL_map, stableB_rename]
    exact this

theorem shows_rename (M : Module) (h : ShowsSigns M) : ShowsSigns (M.rename ρ) := by
  intro i hi
  obtain ⟨j, hj, rfl⟩ := List.mem_map.1 hi
  have := h j hj
  cases j with
  | stm s => exact (showsS_rename ρ s).2 this
  | func f =>
    show showsB (f.body.map (Stm.rename ρ))
    rw [renameL_map, showsB_rename]
    exact this

theorem try_rename (cf : PrintConf) (M : Module) (h : TryOk cf M) : TryOk cf (M.rename ρ) := by
  intro i hi
  obtain ⟨j, hj, rfl⟩ := List.mem_map.1 hi
  have := h j hj
  cases j with
  | stm s => exact (tryOk_rename ρ cf s).2 this
  | func f =>
    show tryOkL cf (f.body.map (Stm.rename ρ))
    rw [renameL_map, tryOkL_rename]
    exact this

end

end Verif.RenameText
