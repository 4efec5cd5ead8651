import Verif.Parser
/-! What the semantic actions leave alone. -/
namespace Verif
open Lexer

/-- `a'` differs from `a` only in ways a semantic action may change it. -/
structure Frame (a a' : Ast) : Prop where
  code : a'.code = a.code
  cur : a'.cur = a.cur
  err : a.err ≠ none → a'.err ≠ none

theorem Frame.rfl' (a : Ast) : Frame a a := ⟨rfl, rfl, id⟩
theorem Frame.trans {a b c : Ast} (h : Frame a b) (g : Frame b c) : Frame a c :=
  ⟨g.code.trans h.code, g.cur.trans h.cur, fun x => g.err (h.err x)⟩

theorem error_frame {a a' : Ast} {m : Msg} (h : a.error m = .ok a') : Frame a a' ∧ a'.err ≠ none := by
  unfold Ast.error at h
  split at h
  · cases h
  · injection h with h
    subst h
    exact ⟨⟨rfl, rfl, fun _ => nofun⟩, nofun⟩

theorem error_panic {a : Ast} {m : Msg} {p : Panic} (h : a.error m = .error p) : p = .nilToken ∧ a.cur = none := by
  unfold Ast.error at h
  split at h
  · injection h with h; exact ⟨h.symm, by assumption⟩
  · cases h

theorem appendGlobal_frame {a a' : Ast} {v : GVar} (h : appendGlobal a v = .ok a') : Frame a a' := by
  unfold appendGlobal at h
  split at h
  · exact (error_frame h).1
  · split at h
    · exact (error_frame h).1
    · injection h with h; subst h; exact ⟨rfl, rfl, id⟩

theorem appendGlobal_panic {a : Ast} {v : GVar} {p : Panic} (h : appendGlobal a v = .error p) : p = .nilToken ∧ a.cur = none := by
  unfold appendGlobal at h
  split at h
  · exact error_panic h
  · split at h
    · exact error_panic h
    · cases h

theorem bind_ok {ε α β : Type} {x : Except ε α} {f : α → Except ε β} {b : β} (h : (x >>= f) = .ok b) :
    ∃ a, x = .ok a ∧ f a = .ok b := by
  cases x with
  | error e => cases h
  | ok a => exact ⟨a, rfl, h⟩

theorem bind_error {ε α β : Type} {x : Except ε α} {f : α → Except ε β} {e : ε} (h : (x >>= f) = .error e) :
    x = .error e ∨ ∃ a, x = .ok a ∧ f a = .error e := by
  cases x with
  | error e' => exact .inl (by injection h with h; rw [h])
  | ok a => exact .inr ⟨a, rfl, h⟩

theorem appendGlobals_frame {vs : List GVar} {a a' : Ast} (h : appendGlobals a vs = .ok a') : Frame a a' := by
  induction vs generalizing a with
  | nil => injection h with h; subst h; exact .rfl' _
  | cons v vs ih =>
    rw [appendGlobals] at h
    obtain ⟨b, h1, h2⟩ := bind_ok h
    exact (appendGlobal_frame h1).trans (ih h2)

theorem appendGlobals_panic {vs : List GVar} {a : Ast} {p : Panic} (h : appendGlobals a vs = .error p) :
    p = .nilToken ∧ a.cur = none := by
  induction vs generalizing a with
  | nil => cases h
  | cons v vs ih =>
    rw [appendGlobals] at h
    rcases bind_error h with h | ⟨b, h1, h2⟩
    · exact appendGlobal_panic h
    · have := ih h2
      rw [(appendGlobal_frame h1).cur] at this
      exact this

theorem appendFunc_frame {a a' : Ast} {f : FuncDecl} (h : appendFunc a f = .ok a') : Frame a a' := by
  unfold appendFunc at h
  split at h
  · exact (error_frame h).1
  · injection h with h; subst h; exact ⟨rfl, rfl, id⟩

theorem appendFunc_panic {a : Ast} {f : FuncDecl} {p : Panic} (h : appendFunc a f = .error p) : p = .nilToken ∧ a.cur = none := by
  unfold appendFunc at h
  split at h
  · exact error_panic h
  · cases h

theorem checkLoop_frame {a a' : Ast} {t : Tok} (h : checkLoop a t = .ok a') : Frame a a' := by
  unfold checkLoop at h
  split at h
  · exact (error_frame h).1
  · injection h with h; subst h; exact .rfl' _

theorem checkThrow_frame {a a' : Ast} {t : Tok} {v : Stm} (h : checkThrow a t v = .ok a') : Frame a a' := by
  unfold checkThrow at h
  split at h
  · exact (error_frame h).1
  · injection h with h; subst h; exact .rfl' _

theorem checkReturn_frame {a a' : Ast} {v : Stm} (h : checkReturn a v = .ok a') : Frame a a' := by
  unfold checkReturn at h
  split at h
  · exact (error_frame h).1
  · injection h with h; subst h; exact .rfl' _

theorem checkColon_frame {a a' : Ast} {t : Tok} {l : List Stm} (h : checkColon a t l = .ok a') : Frame a a' := by
  unfold checkColon at h
  split at h
  · split at h
    · injection h with h; subst h; exact .rfl' _
    · injection h with h; subst h; exact .rfl' _
    · exact (error_frame h).1
  · injection h with h; subst h; exact .rfl' _

theorem pair_ok {α β ε : Type} {x x' : α} {y y' : β} (h : (Except.ok (x, y) : Except ε (α × β)) = .ok (x', y')) : x' = x ∧ y' = y := by
  injection h with h; injection h with h1 h2; exact ⟨h1.symm, h2.symm⟩

theorem act_frame {p : Nat} {d : Nat → SV} {v v' : SV} {a a' : Ast} (h : act p d v a = .ok (v', a')) : Frame a a' := by
  unfold act at h
  split at h <;> try (obtain ⟨rfl, rfl⟩ := pair_ok h; exact ⟨rfl, rfl, id⟩)
  -- 6
  · obtain ⟨b, h1, h2⟩ := bind_ok h
    obtain ⟨rfl, rfl⟩ := pair_ok h2
    exact appendGlobals_frame h1
  -- 7
  · split at h
    · obtain ⟨b, h1, h2⟩ := bind_ok h
      obtain ⟨rfl, rfl⟩ := pair_ok h2
      exact appendFunc_frame h1
    · obtain ⟨rfl, rfl⟩ := pair_ok h; exact .rfl' _
  -- 19
  · obtain ⟨b, h1, h2⟩ := bind_ok h
    obtain ⟨rfl, rfl⟩ := pair_ok h2
    exact checkColon_frame h1
  -- 26
  · obtain ⟨b, h1, h2⟩ := bind_ok h
    split at h2
    · obtain ⟨c, h3, h4⟩ := bind_ok h2
      obtain ⟨rfl, rfl⟩ := pair_ok h4
      exact (error_frame h3).1
    · obtain ⟨rfl, rfl⟩ := pair_ok h2; exact .rfl' _
  -- 27
  · obtain ⟨b, h1, h2⟩ := bind_ok h
    split at h2
    · obtain ⟨c, h3, h4⟩ := bind_ok h2
      obtain ⟨rfl, rfl⟩ := pair_ok h4
      exact (error_frame h3).1
    · obtain ⟨rfl, rfl⟩ := pair_ok h2; exact .rfl' _
  -- 49
  · obtain ⟨b, h1, h2⟩ := bind_ok h
    obtain ⟨rfl, rfl⟩ := pair_ok h2
    exact checkLoop_frame h1
  · obtain ⟨b, h1, h2⟩ := bind_ok h
    obtain ⟨rfl, rfl⟩ := pair_ok h2
    exact checkLoop_frame h1
  · obtain ⟨b, h1, h2⟩ := bind_ok h
    obtain ⟨rfl, rfl⟩ := pair_ok h2
    exact checkThrow_frame h1
  · obtain ⟨b, h1, h2⟩ := bind_ok h
    obtain ⟨rfl, rfl⟩ := pair_ok h2
    exact checkReturn_frame h1

theorem checkLoop_panic {a : Ast} {t : Tok} {q : Panic} (h : checkLoop a t = .error q) : q = .nilToken ∧ a.cur = none := by
  unfold checkLoop at h
  split at h
  · exact error_panic h
  · cases h

theorem checkThrow_panic {a : Ast} {t : Tok} {v : Stm} {q : Panic} (h : checkThrow a t v = .error q) :
    q = .nilToken ∧ a.cur = none := by
  unfold checkThrow at h
  split at h
  · exact error_panic h
  · cases h

theorem checkReturn_panic {a : Ast} {v : Stm} {q : Panic} (h : checkReturn a v = .error q) :
    q = .nilToken ∧ a.cur = none := by
  unfold checkReturn at h
  split at h
  · exact error_panic h
  · cases h

theorem checkColon_panic {a : Ast} {t : Tok} {l : List Stm} {q : Panic} (h : checkColon a t l = .error q) :
    q = .nilToken ∧ a.cur = none := by
  unfold checkColon at h
  split at h
  · split at h
    · cases h
    · cases h
    · exact error_panic h
  · cases h

theorem appendVars_panic {m : Option (List (List Char))} {l : List Tok} {q : Panic} (h : appendVars m l = .error q) :
    q = .nilMap ∧ m = none := by
  induction l generalizing m with
  | nil => cases h
  | cons t ts ih =>
    unfold appendVars at h
    cases m with
    | none => injection h with h; exact ⟨h.symm, rfl⟩
    | some ks =>
      dsimp only at h
      split at h
      · cases h
      · exact absurd (ih h).2 nofun

theorem act_panic {p : Nat} {d : Nat → SV} {v : SV} {a : Ast} {q : Panic} (h : act p d v a = .error q) :
    (q = .nilToken ∧ a.cur = none ∧ p ≠ 1) ∨ (q = .nilMap ∧ p = 27 ∧ (d 1).explicit_variables = none) := by
  unfold act at h
  split at h <;> try (cases h; done)
  · rcases bind_error h with h | ⟨b, h1, h2⟩
    · obtain ⟨h1, h2⟩ := appendGlobals_panic h; exact .inl ⟨h1, h2, by decide⟩
    · cases h2
  · split at h
    · rcases bind_error h with h | ⟨b, h1, h2⟩
      · obtain ⟨h1, h2⟩ := appendFunc_panic h; exact .inl ⟨h1, h2, by decide⟩
      · cases h2
    · cases h
  · rcases bind_error h with h | ⟨b, h1, h2⟩
    · obtain ⟨h1, h2⟩ := checkColon_panic h; exact .inl ⟨h1, h2, by decide⟩
    · cases h2
  · rcases bind_error h with h | ⟨b, h1, h2⟩
    · exact absurd (appendVars_panic h).2 nofun
    · split at h2
      · rcases bind_error h2 with h | ⟨b, h1, h2⟩
        · obtain ⟨h1, h2⟩ := error_panic h; exact .inl ⟨h1, h2, by decide⟩
        · cases h2
      · cases h2
  · rcases bind_error h with h | ⟨b, h1, h2⟩
    · obtain ⟨h1, h2⟩ := appendVars_panic h; exact .inr ⟨h1, rfl, h2⟩
    · split at h2
      · rcases bind_error h2 with h | ⟨b, h1, h2⟩
        · obtain ⟨h1, h2⟩ := error_panic h; exact .inl ⟨h1, h2, by decide⟩
        · cases h2
      · cases h2
  · rcases bind_error h with h | ⟨b, h1, h2⟩
    · obtain ⟨h1, h2⟩ := checkLoop_panic h; exact .inl ⟨h1, h2, by decide⟩
    · cases h2
  · rcases bind_error h with h | ⟨b, h1, h2⟩
    · obtain ⟨h1, h2⟩ := checkLoop_panic h; exact .inl ⟨h1, h2, by decide⟩
    · cases h2
  · rcases bind_error h with h | ⟨b, h1, h2⟩
    · obtain ⟨h1, h2⟩ := checkThrow_panic h; exact .inl ⟨h1, h2, by decide⟩
    · cases h2
  · rcases bind_error h with h | ⟨b, h1, h2⟩
    · obtain ⟨h1, h2⟩ := checkReturn_panic h; exact .inl ⟨h1, h2, by decide⟩
    · cases h2

end Verif
