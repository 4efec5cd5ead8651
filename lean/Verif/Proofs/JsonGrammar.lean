import Verif.Spec.JsonText
/-!
# A JSON text can be read in one way only
-/
namespace Verif.JsonG
open Spec

/-- Runs of characters of a kind, followed by something that is not of this kind. -/
theorem run_split {P : Char → Prop} {a b x y : List Char} (ha : ∀ c ∈ a, P c) (hb : ∀ c ∈ b, P c)
    (hx : ∀ c r, x = c :: r → ¬ P c) (hy : ∀ c r, y = c :: r → ¬ P c) (h : a ++ x = b ++ y) : a = b ∧ x = y := by
  induction a generalizing b with
  | nil =>
    cases b with
    | nil => exact ⟨rfl, h⟩
    | cons c b => exact absurd (hb c (by simp)) (hx c (b ++ y) (by simpa using h))
  | cons c a ih =>
    cases b with
    | nil => exact absurd (ha c (by simp)) (hy c (a ++ x) (by simpa using h.symm))
    | cons d b =>
      simp only [List.cons_append, List.cons.injEq] at h
      simp only [List.mem_cons, forall_eq_or_imp] at ha hb
      obtain ⟨h1, h2⟩ := ih ha.2 hb.2 h.2
      exact ⟨by rw [h.1, h1], h2⟩

theorem digit_cases {c : Char} (h : Digit c) : c = '0' ∨ c = '1' ∨ c = '2' ∨ c = '3' ∨ c = '4' ∨ c = '5' ∨ c = '6' ∨ c = '7' ∨ c = '8' ∨ c = '9' := by
  simpa [Digit] using h

theorem not_digit {c : Char} (h : c ∈ ['.', 'e', 'E', '+', '-', '"', '[', '{', 'n', 't', 'f', ']', '}', ',', ':', ' ', '\t', '\n', '\r']) :
    ¬ Digit c := by
  have : ∀ c ∈ ['.', 'e', 'E', '+', '-', '"', '[', '{', 'n', 't', 'f', ']', '}', ',', ':', ' ', '\t', '\n', '\r'], ¬ Digit c := by
    unfold Digit; decide
  exact this c h

/-! ## Numbers -/

/-- Characters of numbers. -/
def NumCh (c : Char) : Prop := Digit c ∨ c ∈ ['-', '+', '.', 'e', 'E']

theorem jInt_digits {i : List Char} (h : JInt i) : i ≠ [] ∧ ∀ c ∈ i, Digit c := by
  cases h with
  | zero => exact ⟨by simp, by simp [Digit]⟩
  | digits h1 _ h2 => exact ⟨by simp, by simpa using ⟨h1, h2⟩⟩

theorem jFrac_chars {f : List Char} {v : ℚ} (h : JFrac f v) : ∀ c ∈ f, NumCh c := by
  cases h with
  | none => simp
  | some _ h => simp only [List.mem_cons, forall_eq_or_imp]; exact ⟨.inr (by simp), fun d hd => .inl (h d hd)⟩

theorem jExp_chars {e : List Char} {k : ℤ} (h : JExp e k) : ∀ c ∈ e, NumCh c := by
  cases h with
  | none => simp
  | bare hc _ h => simp only [List.mem_cons, forall_eq_or_imp]; exact ⟨.inr (by rcases hc with rfl | rfl <;> simp), fun d hd => .inl (h d hd)⟩
  | plus hc _ h =>
    simp only [List.mem_cons, forall_eq_or_imp]
    exact ⟨.inr (by rcases hc with rfl | rfl <;> simp), .inr (by simp), fun d hd => .inl (h d hd)⟩
  | minus hc _ h =>
    simp only [List.mem_cons, forall_eq_or_imp]
    exact ⟨.inr (by rcases hc with rfl | rfl <;> simp), .inr (by simp), fun d hd => .inl (h d hd)⟩

theorem jNum_chars {neg : Bool} {q : ℚ} {s : List Char} (h : JNum neg q s) : ∀ c ∈ s, NumCh c := by
  cases h with
  | mk h1 h2 h3 =>
    intro c hc
    simp only [List.mem_append] at hc
    rcases hc with ((hc | hc) | hc) | hc
    · cases neg
      · simp at hc
      · simp at hc; exact .inr (by simp [hc])
    · exact .inl ((jInt_digits h1).2 c hc)
    · exact jFrac_chars h2 c hc
    · exact jExp_chars h3 c hc

theorem jNum_head {neg : Bool} {q : ℚ} {s : List Char} (h : JNum neg q s) : ∃ c r, s = c :: r ∧ (c = '-' ∨ Digit c) := by
  cases h with
  | mk h1 h2 h3 =>
    obtain ⟨hn, hd⟩ := jInt_digits h1
    cases neg
    · obtain ⟨c, r, rfl⟩ := List.exists_cons_of_ne_nil hn
      exact ⟨c, _, rfl, .inr (hd c (by simp))⟩
    · exact ⟨'-', _, rfl, .inl rfl⟩

theorem jExp_start {e : List Char} {k : ℤ} (h : JExp e k) : ∀ c r, e = c :: r → c = 'e' ∨ c = 'E' := by
  cases h with
  | none => simp
  | bare hc | plus hc | minus hc => intro c r h; injection h with h; exact h ▸ hc

theorem jExp_unique {e : List Char} {k k' : ℤ} (h : JExp e k) (h' : JExp e k') : k = k' := by
  cases h with
  | none => cases h'; rfl
  | @bare c s n hc hn hd hv =>
    cases h' with
    | bare _ _ _ hv' => have := hv.symm.trans hv'; exact_mod_cast this
    | plus => exact absurd (hd '+' (by simp)) (not_digit (by simp))
    | minus => exact absurd (hd '-' (by simp)) (not_digit (by simp))
  | @plus c s n hc hn hd hv =>
    cases h' with
    | bare _ _ hd' => exact absurd (hd' '+' (by simp)) (not_digit (by simp))
    | plus _ _ _ hv' => have := hv.symm.trans hv'; exact_mod_cast this
  | @minus c s n hc hn hd hv =>
    cases h' with
    | bare _ _ hd' => exact absurd (hd' '-' (by simp)) (not_digit (by simp))
    | minus _ _ _ hv' => have := hv.symm.trans hv'; congr 1; exact_mod_cast this

theorem jFracExp_unique {f e f' e' : List Char} {v v' : ℚ} {k k' : ℤ} (hf : JFrac f v) (he : JExp e k) (hf' : JFrac f' v') (he' : JExp e' k')
    (h : f ++ e = f' ++ e') : v = v' ∧ k = k' := by
  have stop : ∀ {e : List Char} {k : ℤ}, JExp e k → ∀ c r, e = c :: r → ¬ Digit c := fun he c r h => by
    rcases jExp_start he c r h with rfl | rfl <;> exact not_digit (by simp)
  cases hf with
  | none =>
    cases hf' with
    | none => rw [List.nil_append, List.nil_append] at h; exact ⟨rfl, jExp_unique he (h ▸ he')⟩
    | some =>
      rcases jExp_start he _ _ h with h | h <;> exact absurd h (by decide)
  | some _ hd =>
    cases hf' with
    | none => rcases jExp_start he' _ _ h.symm with h | h <;> exact absurd h (by decide)
    | some _ hd' =>
      simp only [List.cons_append, List.cons.injEq, true_and] at h
      obtain ⟨h1, h2⟩ := run_split hd hd' (stop he) (stop he') h
      exact ⟨by rw [h1], jExp_unique he (h2 ▸ he')⟩

theorem jNum_unique {neg neg' : Bool} {q q' : ℚ} {s : List Char} (h : JNum neg q s) (h' : JNum neg' q' s) : neg = neg' ∧ q = q' := by
  generalize hs : s = s' at h'
  cases h with
  | @mk i f v e k h1 h2 h3 =>
    cases h' with
    | @mk i' f' v' e' k' h1' h2' h3' =>
      have hn : neg = neg' := by
        obtain ⟨hi, hd⟩ := jInt_digits h1
        obtain ⟨hi', hd'⟩ := jInt_digits h1'
        obtain ⟨c, r, rfl⟩ := List.exists_cons_of_ne_nil hi
        obtain ⟨c', r', rfl⟩ := List.exists_cons_of_ne_nil hi'
        cases neg <;> cases neg'
        · rfl
        · simp at hs
          exact absurd (hd c (by simp)) (by rw [hs.1]; exact not_digit (by simp))
        · simp at hs
          exact absurd (hd' c' (by simp)) (by rw [← hs.1]; exact not_digit (by simp))
        · rfl
      subst hn
      refine ⟨rfl, ?_⟩
      simp only [List.append_assoc, List.append_cancel_left_eq] at hs
      have stop : ∀ {f e : List Char} {v : ℚ} {k : ℤ}, JFrac f v → JExp e k → ∀ c r, f ++ e = c :: r → ¬ Digit c := by
        intro f e v k hf he c r h
        cases hf with
        | none => rcases jExp_start he c r h with rfl | rfl <;> exact not_digit (by simp)
        | some => injection h with h; rw [← h]; exact not_digit (by simp)
      obtain ⟨e1, e2⟩ := run_split (jInt_digits h1).2 (jInt_digits h1').2 (stop h2 h3) (stop h2' h3') hs
      obtain ⟨e3, e4⟩ := jFracExp_unique h2 h3 h2' h3' e2
      rw [e1, e3, e4]

/-! ## Strings -/

theorem jHex_length {n : Nat} {h : List Char} (hh : JHex n h) : h.length = 4 := by cases hh; rfl

theorem jHex_unique {n m : Nat} {h : List Char} (hn : JHex n h) (hm : JHex m h) : n = m := by
  cases hn with
  | mk a b c d =>
    cases hm with
    | mk a' b' c' d' =>
      rw [a] at a'; rw [b] at b'; rw [c] at c'; rw [d] at d'
      cases a'; cases b'; cases c'; cases d'
      rfl

theorem jHex_split {n m : Nat} {h g x y : List Char} (hn : JHex n h) (hm : JHex m g) (e : h ++ x = g ++ y) : n = m ∧ h = g ∧ x = y := by
  obtain ⟨e1, e2⟩ := List.append_inj e ((jHex_length hn).trans (jHex_length hm).symm)
  subst e1
  exact ⟨jHex_unique hn hm, rfl, e2⟩

theorem escape_unique {e c c' : Char} (h : (e, c) ∈ escapes) (h' : (e, c') ∈ escapes) : c = c' := by
  have : ∀ p ∈ escapes, ∀ q ∈ escapes, p.1 = q.1 → p.2 = q.2 := by decide
  exact this _ h _ h' rfl

theorem escape_u {c : Char} : ('u', c) ∉ escapes := by
  have : ∀ p ∈ escapes, p.1 ≠ 'u' := by decide
  exact fun h => this _ h rfl

theorem jChars_split {u u' s s' x y : List Char} (h : JChars u s) (h' : JChars u' s') (e : s ++ '"' :: x = s' ++ '"' :: y) :
    u = u' ∧ s = s' ∧ x = y := by
  induction h generalizing u' s' with
  | nil =>
    cases h' with
    | nil => simp at e; exact ⟨rfl, rfl, e⟩
    | plain _ h => simp at e; exact absurd e.1.symm h
    | escape => simp at e
    | unit => simp at e
    | pair => simp at e
  | plain h1 h2 h3 _ ih =>
    cases h' with
    | nil => simp at e; exact absurd e.1 h2
    | plain _ _ _ h =>
      simp only [List.cons_append, List.cons.injEq] at e
      obtain ⟨e1, e2, e3⟩ := ih h e.2
      exact ⟨by rw [e1, e.1], by rw [e2, e.1], e3⟩
    | escape => simp at e; exact absurd e.1 h3
    | unit => simp at e; exact absurd e.1 h3
    | pair => simp at e; exact absurd e.1 h3
  | escape hm _ ih =>
    cases h' with
    | nil => simp at e
    | plain _ _ h => simp at e; exact absurd e.1.symm h
    | escape hm' h =>
      simp only [List.cons_append, List.cons.injEq, true_and] at e
      obtain ⟨e1, e2, e3⟩ := ih h e.2
      obtain ⟨e, -⟩ := e
      subst e
      exact ⟨by rw [e1, escape_unique hm hm'], by rw [e2], e3⟩
    | unit => simp at e; exact absurd (e.1 ▸ hm) escape_u
    | pair => simp at e; exact absurd (e.1 ▸ hm) escape_u
  | unit hn hs _ ih =>
    cases h' with
    | nil => simp at e
    | plain _ _ h => simp at e; exact absurd e.1.symm h
    | escape hm' => simp at e; exact absurd (e.1 ▸ hm') escape_u
    | unit hn' hs' h =>
      simp only [List.cons_append, List.cons.injEq, true_and, List.append_assoc] at e
      obtain ⟨e1, e2, e3⟩ := jHex_split hn hn' e
      obtain ⟨e4, e5, e6⟩ := ih h e3
      exact ⟨by rw [e1, e4], by rw [e2, e5], e6⟩
    | pair hn' _ h1 h2 =>
      simp only [List.cons_append, List.cons.injEq, true_and, List.append_assoc] at e
      obtain ⟨e1, e2, e3⟩ := jHex_split hn hn' e
      exact absurd ⟨e1 ▸ h1, by omega⟩ hs
  | pair hn hm l1 l2 l3 l4 _ ih =>
    cases h' with
    | nil => simp at e
    | plain _ _ h => simp at e; exact absurd e.1.symm h
    | escape hm' => simp at e; exact absurd (e.1 ▸ hm') escape_u
    | unit hn' hs' h =>
      simp only [List.cons_append, List.cons.injEq, true_and, List.append_assoc] at e
      obtain ⟨e1, e2, e3⟩ := jHex_split hn hn' e
      exact absurd ⟨e1 ▸ l1, by omega⟩ hs'
    | pair hn' hm' _ _ _ _ h =>
      simp only [List.cons_append, List.cons.injEq, true_and, List.append_assoc] at e
      obtain ⟨e1, e2, e3⟩ := jHex_split hn hn' e
      simp only [List.cons.injEq, true_and] at e3
      obtain ⟨e4, e5, e6⟩ := jHex_split hm hm' e3
      obtain ⟨e7, e8, e9⟩ := ih h e6
      exact ⟨by rw [e1, e4, e7], by rw [e2, e5, e8], e9⟩

/-! ## Values -/

/-- What can come after a value. -/
def Follow (x : List Char) : Prop := ∀ c r, x = c :: r → c ∈ [' ', '\t', '\n', '\r', ',', ']', '}']

theorem follow_not_num {x : List Char} (h : Follow x) : ∀ c r, x = c :: r → ¬ NumCh c := by
  intro c r e
  have : ∀ c ∈ [' ', '\t', '\n', '\r', ',', ']', '}'], ¬ NumCh c := by unfold NumCh Digit; decide
  exact this c (h c r e)

/-- How values begin. -/
def Begins : JV → Char → Prop
  | .null, c => c = 'n'
  | .bool true, c => c = 't'
  | .bool false, c => c = 'f'
  | .num _ _, c => c = '-' ∨ Digit c
  | .str _, c => c = '"'
  | .arr _, c => c = '['
  | .obj _, c => c = '{'

theorem reads_begins {v : JV} {s : List Char} (h : Reads (.value v) s) : ∃ c r, s = c :: r ∧ Begins v c := by
  cases h with
  | null | true | false | str | arr0 | arr | obj0 | obj => exact ⟨_, _, rfl, rfl⟩
  | num h => exact jNum_head h

theorem begins_not {v : JV} {c : Char} (h : Begins v c) : c ∉ [' ', '\t', '\n', '\r', ',', ']', '}', ':'] := by
  have hd : ∀ {c : Char}, Digit c → c ∉ [' ', '\t', '\n', '\r', ',', ']', '}', ':'] := by
    intro c h
    have : ∀ c ∈ ['0', '1', '2', '3', '4', '5', '6', '7', '8', '9'], c ∉ [' ', '\t', '\n', '\r', ',', ']', '}', ':'] := by decide
    exact this c h
  cases v with
  | bool b => cases b <;> (rw [show c = _ from h]; decide)
  | num =>
    rcases h with rfl | h
    · decide
    · exact hd h
  | null | str | arr | obj => rw [show c = _ from h]; decide

/-- White space before something that is not white space. -/
theorem ws_split {w w' x y : List Char} (hw : ∀ c ∈ w, JWs c) (hw' : ∀ c ∈ w', JWs c) (hx : ∀ c r, x = c :: r → ¬ JWs c)
    (hy : ∀ c r, y = c :: r → ¬ JWs c) (h : w ++ x = w' ++ y) : w = w' ∧ x = y := run_split hw hw' hx hy h

theorem value_stop {v : JV} {s x : List Char} (h : Reads (.value v) s) : ∀ c r, s ++ x = c :: r → ¬ JWs c := by
  intro c r e
  obtain ⟨c', r', rfl, hb⟩ := reads_begins h
  injection e with e
  subst e
  intro hw
  refine begins_not hb ?_
  simp only [JWs, List.mem_cons, List.not_mem_nil, or_false] at hw
  rcases hw with rfl | rfl | rfl | rfl <;> simp

theorem quote_stop {x : List Char} : ∀ c r, '"' :: x = c :: r → ¬ JWs c := by
  intro c r e; injection e with e; subst e; unfold JWs; decide

theorem mark_stop {d : Char} (hd : d ∈ [',', ']', '}', ':']) {x : List Char} : ∀ c r, d :: x = c :: r → ¬ JWs c := by
  intro c r e
  injection e with e
  subst e
  have : ∀ d ∈ [',', ']', '}', ':'], ¬ JWs d := by unfold JWs; decide
  exact this d hd

theorem ws_follow {w x : List Char} (hw : ∀ c ∈ w, JWs c) (hx : Follow x) : Follow (w ++ x) := by
  cases w with
  | nil => exact hx
  | cons c w =>
    intro d r e
    injection e with e
    subst e
    have := hw c (by simp)
    simp only [JWs, List.mem_cons, List.not_mem_nil, or_false] at this
    rcases this with rfl | rfl | rfl | rfl <;> simp

theorem mark_follow {d : Char} (hd : d ∈ [',', ']', '}']) {x : List Char} : Follow (d :: x) := by
  intro c r e
  injection e with e
  subst e
  simp only [List.mem_cons, List.not_mem_nil, or_false] at hd
  rcases hd with rfl | rfl | rfl <;> simp

/-- Reading a piece is determined. -/
def Det (f : JForm) (s : List Char) : Prop :=
  match f with
  | .value v => ∀ v' s' x y, Reads (.value v') s' → Follow x → Follow y → s ++ x = s' ++ y → v = v' ∧ s = s' ∧ x = y
  | .elems l => ∀ l' s' x y, Reads (.elems l') s' → s ++ ']' :: x = s' ++ ']' :: y → l = l' ∧ s = s' ∧ x = y
  | .members l => ∀ l' s' x y, Reads (.members l') s' → s ++ '}' :: x = s' ++ '}' :: y → l = l' ∧ s = s' ∧ x = y

/-- A value between white space, followed by a mark. -/
theorem between {v v' : JV} {w s w1 w' s' w1' x y : List Char} {d d' : Char} (hs : Det (.value v) s) (hr : Reads (.value v) s)
    (hr' : Reads (.value v') s') (hw : ∀ c ∈ w, JWs c) (hw' : ∀ c ∈ w', JWs c) (h1 : ∀ c ∈ w1, JWs c) (h1' : ∀ c ∈ w1', JWs c)
    (hd : d ∈ [',', ']', '}']) (hd' : d' ∈ [',', ']', '}']) (e : w ++ (s ++ (w1 ++ d :: x)) = w' ++ (s' ++ (w1' ++ d' :: y))) :
    v = v' ∧ w = w' ∧ s = s' ∧ w1 = w1' ∧ d = d' ∧ x = y := by
  obtain ⟨e1, e2⟩ := ws_split hw hw' (value_stop hr) (value_stop hr') e
  obtain ⟨e3, e4, e5⟩ := hs v' s' _ _ hr' (ws_follow h1 (mark_follow hd)) (ws_follow h1' (mark_follow hd')) e2
  have hm : ∀ {d}, d ∈ [',', ']', '}'] → d ∈ [',', ']', '}', ':'] := by
    intro d h; simp only [List.mem_cons, List.not_mem_nil, or_false] at h ⊢; tauto
  obtain ⟨e6, e7⟩ := ws_split h1 h1' (mark_stop (hm hd)) (mark_stop (hm hd')) e5
  injection e7 with e7 e8
  exact ⟨e3, e1, e4, e6, e7, e8⟩

/-- The key of a member. -/
theorem key_split {k k' : List Char} {w t w1 w' t' w1' x y : List Char} (hw : ∀ c ∈ w, JWs c) (hw' : ∀ c ∈ w', JWs c)
    (h1 : ∀ c ∈ w1, JWs c) (h1' : ∀ c ∈ w1', JWs c) (ht : JChars k t) (ht' : JChars k' t')
    (e : w ++ ('"' :: t ++ '"' :: (w1 ++ ':' :: x)) = w' ++ ('"' :: t' ++ '"' :: (w1' ++ ':' :: y))) :
    k = k' ∧ w = w' ∧ t = t' ∧ w1 = w1' ∧ x = y := by
  obtain ⟨e1, e2⟩ := ws_split hw hw' quote_stop quote_stop e
  simp only [List.cons.injEq, true_and] at e2
  obtain ⟨e3, e4, e5⟩ := jChars_split ht ht' e2
  obtain ⟨e6, e7⟩ := ws_split h1 h1' (mark_stop (by simp)) (mark_stop (by simp)) e5
  injection e7 with _ e7
  exact ⟨e3, e1, e4, e6, e7⟩

theorem elems_begin {l : List JV} {s : List Char} (h : Reads (.elems l) s) :
    ∃ w c r, s = w ++ c :: r ∧ (∀ d ∈ w, JWs d) ∧ c ∉ [' ', '\t', '\n', '\r', ',', ']', '}', ':'] := by
  cases h with
  | @elem v w s w' hw hs _ =>
    obtain ⟨c, r, rfl, hb⟩ := reads_begins hs
    exact ⟨w, c, r ++ w', by simp, hw, begins_not hb⟩
  | @elems v l w s w' r hw hs _ _ =>
    obtain ⟨c, r', rfl, hb⟩ := reads_begins hs
    exact ⟨w, c, r' ++ w' ++ ',' :: r, by simp, hw, begins_not hb⟩

theorem members_begin {l : List (List Char × JV)} {s : List Char} (h : Reads (.members l) s) :
    ∃ w c r, s = w ++ c :: r ∧ (∀ d ∈ w, JWs d) ∧ c ∉ [' ', '\t', '\n', '\r', ',', ']', '}', ':'] := by
  cases h with
  | member hw => exact ⟨_, '"', _, rfl, hw, by decide⟩
  | members hw => exact ⟨_, '"', _, rfl, hw, by decide⟩

theorem empty_or {d : Char} (hd : d ∈ [',', ']', '}', ':']) {w w' x y r : List Char} {c : Char} (hw : ∀ c ∈ w, JWs c) (hw' : ∀ c ∈ w', JWs c)
    (hc : c ∉ [' ', '\t', '\n', '\r', ',', ']', '}', ':']) (e : w ++ d :: x = w' ++ c :: r ++ y) : False := by
  rw [List.append_assoc, List.cons_append] at e
  obtain ⟨-, e⟩ := ws_split hw hw' (mark_stop hd) (fun c' r' e' => by
    injection e' with e'
    subst e'
    intro h
    refine hc ?_
    simp only [JWs, List.mem_cons, List.not_mem_nil, or_false] at h
    rcases h with rfl | rfl | rfl | rfl <;> simp) e
  injection e with e
  subst e
  refine hc ?_
  simp only [List.mem_cons, List.not_mem_nil, or_false] at hd ⊢
  tauto

theorem digit_first {c : Char} {s : List Char} {neg : Bool} {q : ℚ} (h : JNum neg q (c :: s)) :
    c ∉ ['n', 't', 'f', '"', '[', '{'] := by
  obtain ⟨c', r, e, h⟩ := jNum_head h
  injection e with e
  subst e
  rcases h with rfl | h
  · decide
  · have : ∀ c ∈ ['0', '1', '2', '3', '4', '5', '6', '7', '8', '9'], c ∉ ['n', 't', 'f', '"', '[', '{'] := by decide
    exact this c h

theorem begins_kind {v v' : JV} {c : Char} (h : Begins v c) (h' : Begins v' c) :
    (v = .null ∧ v' = .null) ∨ (∃ b, v = .bool b ∧ v' = .bool b) ∨ (∃ n q n' q', v = .num n q ∧ v' = .num n' q') ∨
    (∃ s s', v = .str s ∧ v' = .str s') ∨ (∃ l l', v = .arr l ∧ v' = .arr l') ∨ ∃ l l', v = .obj l ∧ v' = .obj l' := by
  have hd : ∀ {c : Char}, (c = '-' ∨ Digit c) → c ∉ ['n', 't', 'f', '"', '[', '{'] := by
    rintro c (rfl | h)
    · decide
    · have : ∀ c ∈ ['0', '1', '2', '3', '4', '5', '6', '7', '8', '9'], c ∉ ['n', 't', 'f', '"', '[', '{'] := by decide
      exact this c h
  cases v with
  | num n q =>
    have hd := hd h
    cases v' with
    | num => exact .inr (.inr (.inl ⟨_, _, _, _, rfl, rfl⟩))
    | bool b => cases b <;> (rw [show c = _ from h'] at hd; simp at hd)
    | null | str | arr | obj => rw [show c = _ from h'] at hd; simp at hd
  | bool b =>
    cases v' with
    | num => have hd := hd h'; cases b <;> (rw [show c = _ from h] at hd; simp at hd)
    | bool b' =>
      have : b = b' := by
        cases b <;> cases b' <;> first | rfl | (rw [show c = _ from h] at h'; exact absurd h' (by simp [Begins]))
      exact .inr (.inl ⟨b, rfl, by rw [this]⟩)
    | null | str | arr | obj => cases b <;> (rw [show c = _ from h] at h'; exact absurd h' (by simp [Begins]))
  | null =>
    cases v' with
    | null => exact .inl ⟨rfl, rfl⟩
    | num => have hd := hd h'; rw [show c = _ from h] at hd; simp at hd
    | bool b => cases b <;> (rw [show c = _ from h] at h'; exact absurd h' (by simp [Begins]))
    | str | arr | obj => rw [show c = _ from h] at h'; exact absurd h' (by simp [Begins])
  | str s =>
    cases v' with
    | str => exact .inr (.inr (.inr (.inl ⟨_, _, rfl, rfl⟩)))
    | num => have hd := hd h'; rw [show c = _ from h] at hd; simp at hd
    | bool b => cases b <;> (rw [show c = _ from h] at h'; exact absurd h' (by simp [Begins]))
    | null | arr | obj => rw [show c = _ from h] at h'; exact absurd h' (by simp [Begins])
  | arr s =>
    cases v' with
    | arr => exact .inr (.inr (.inr (.inr (.inl ⟨_, _, rfl, rfl⟩))))
    | num => have hd := hd h'; rw [show c = _ from h] at hd; simp at hd
    | bool b => cases b <;> (rw [show c = _ from h] at h'; exact absurd h' (by simp [Begins]))
    | null | str | obj => rw [show c = _ from h] at h'; exact absurd h' (by simp [Begins])
  | obj s =>
    cases v' with
    | obj => exact .inr (.inr (.inr (.inr (.inr ⟨_, _, rfl, rfl⟩))))
    | num => have hd := hd h'; rw [show c = _ from h] at hd; simp at hd
    | bool b => cases b <;> (rw [show c = _ from h] at h'; exact absurd h' (by simp [Begins]))
    | null | str | arr => rw [show c = _ from h] at h'; exact absurd h' (by simp [Begins])

theorem det {f : JForm} {s : List Char} (h : Reads f s) : Det f s := by
  -- values that begin alike are alike
  have alike : ∀ {v v' : JV} {s s' x y : List Char}, Reads (.value v) s → Reads (.value v') s' → s ++ x = s' ++ y →
      (v = .null ∧ v' = .null) ∨ (∃ b, v = .bool b ∧ v' = .bool b) ∨ (∃ n q n' q', v = .num n q ∧ v' = .num n' q') ∨
      (∃ s s', v = .str s ∧ v' = .str s') ∨ (∃ l l', v = .arr l ∧ v' = .arr l') ∨ ∃ l l', v = .obj l ∧ v' = .obj l' := by
    intro v v' s s' x y h h' e
    obtain ⟨c, r, rfl, hb⟩ := reads_begins h
    obtain ⟨c', r', rfl, hb'⟩ := reads_begins h'
    injection e with e
    subst e
    exact begins_kind hb hb'
  induction h with
  | null =>
    intro v' s' x y h' _ _ e
    rcases alike .null h' e with ⟨-, rfl⟩ | ⟨b, hh, -⟩ | ⟨_, _, _, _, hh, -⟩ | ⟨_, _, hh, -⟩ | ⟨_, _, hh, -⟩ | ⟨_, _, hh, -⟩ <;> first | cases hh | skip
    cases h'
    exact ⟨rfl, rfl, List.append_cancel_left e⟩
  | true =>
    intro v' s' x y h' _ _ e
    rcases alike .true h' e with ⟨hh, -⟩ | ⟨b, hh, rfl⟩ | ⟨_, _, _, _, hh, -⟩ | ⟨_, _, hh, -⟩ | ⟨_, _, hh, -⟩ | ⟨_, _, hh, -⟩ <;> cases hh
    cases h'
    exact ⟨rfl, rfl, List.append_cancel_left e⟩
  | false =>
    intro v' s' x y h' _ _ e
    rcases alike .false h' e with ⟨hh, -⟩ | ⟨b, hh, rfl⟩ | ⟨_, _, _, _, hh, -⟩ | ⟨_, _, hh, -⟩ | ⟨_, _, hh, -⟩ | ⟨_, _, hh, -⟩ <;> cases hh
    cases h'
    exact ⟨rfl, rfl, List.append_cancel_left e⟩
  | num h =>
    intro v' s' x y h' hx hy e
    rcases alike (.num h) h' e with ⟨hh, -⟩ | ⟨b, hh, -⟩ | ⟨_, _, _, _, -, rfl⟩ | ⟨_, _, hh, -⟩ | ⟨_, _, hh, -⟩ | ⟨_, _, hh, -⟩ <;>
      first | cases hh | skip
    cases h' with
    | num h' =>
      obtain ⟨e1, e2⟩ := run_split (jNum_chars h) (jNum_chars h') (follow_not_num hx) (follow_not_num hy) e
      subst e1
      obtain ⟨e3, e4⟩ := jNum_unique h h'
      exact ⟨by rw [e3, e4], rfl, e2⟩
  | str h =>
    intro v' s' x y h' _ _ e
    rcases alike (.str h) h' e with ⟨hh, -⟩ | ⟨b, hh, -⟩ | ⟨_, _, _, _, hh, -⟩ | ⟨_, _, -, rfl⟩ | ⟨_, _, hh, -⟩ | ⟨_, _, hh, -⟩ <;>
      first | cases hh | skip
    cases h' with
    | str h' =>
      simp only [List.cons_append, List.append_assoc, List.cons.injEq, true_and, List.nil_append] at e
      obtain ⟨e1, e2, e3⟩ := jChars_split h h' e
      exact ⟨by rw [e1], by rw [e2], e3⟩
  | arr0 hw =>
    intro v' s' x y h' _ _ e
    rcases alike (.arr0 hw) h' e with ⟨hh, -⟩ | ⟨b, hh, -⟩ | ⟨_, _, _, _, hh, -⟩ | ⟨_, _, hh, -⟩ | ⟨_, _, -, rfl⟩ | ⟨_, _, hh, -⟩ <;>
      first | cases hh | skip
    cases h' with
    | arr0 hw' =>
      simp only [List.cons_append, List.append_assoc, List.cons.injEq, true_and, List.nil_append] at e
      obtain ⟨e1, e2⟩ := ws_split hw hw' (mark_stop (by simp)) (mark_stop (by simp)) e
      injection e2 with _ e2
      exact ⟨rfl, by rw [e1], e2⟩
    | arr h' =>
      obtain ⟨w', c, r, rfl, h1, h2⟩ := elems_begin h'
      simp only [List.cons_append, List.append_assoc, List.cons.injEq, true_and, List.nil_append] at e
      exact (empty_or (d := ']') (by simp) hw h1 h2 (y := ']' :: y) (by simpa using e)).elim
  | arr h ih =>
    intro v' s' x y h' _ _ e
    rcases alike (.arr h) h' e with ⟨hh, -⟩ | ⟨b, hh, -⟩ | ⟨_, _, _, _, hh, -⟩ | ⟨_, _, hh, -⟩ | ⟨_, _, -, rfl⟩ | ⟨_, _, hh, -⟩ <;>
      first | cases hh | skip
    cases h' with
    | arr0 hw' =>
      obtain ⟨w', c, r, rfl, h1, h2⟩ := elems_begin h
      simp only [List.cons_append, List.append_assoc, List.cons.injEq, true_and, List.nil_append] at e
      exact (empty_or (d := ']') (by simp) hw' h1 h2 (y := ']' :: x) (by simpa using e.symm)).elim
    | arr h' =>
      simp only [List.cons_append, List.append_assoc, List.cons.injEq, true_and, List.nil_append] at e
      obtain ⟨e1, e2, e3⟩ := ih _ _ x y h' e
      exact ⟨by rw [e1], by rw [e2], e3⟩
  | obj0 hw =>
    intro v' s' x y h' _ _ e
    rcases alike (.obj0 hw) h' e with ⟨hh, -⟩ | ⟨b, hh, -⟩ | ⟨_, _, _, _, hh, -⟩ | ⟨_, _, hh, -⟩ | ⟨_, _, hh, -⟩ | ⟨_, _, -, rfl⟩ <;>
      first | cases hh | skip
    cases h' with
    | obj0 hw' =>
      simp only [List.cons_append, List.append_assoc, List.cons.injEq, true_and, List.nil_append] at e
      obtain ⟨e1, e2⟩ := ws_split hw hw' (mark_stop (by simp)) (mark_stop (by simp)) e
      injection e2 with _ e2
      exact ⟨rfl, by rw [e1], e2⟩
    | obj h' =>
      obtain ⟨w', c, r, rfl, h1, h2⟩ := members_begin h'
      simp only [List.cons_append, List.append_assoc, List.cons.injEq, true_and, List.nil_append] at e
      exact (empty_or (d := '}') (by simp) hw h1 h2 (y := '}' :: y) (by simpa using e)).elim
  | obj h ih =>
    intro v' s' x y h' _ _ e
    rcases alike (.obj h) h' e with ⟨hh, -⟩ | ⟨b, hh, -⟩ | ⟨_, _, _, _, hh, -⟩ | ⟨_, _, hh, -⟩ | ⟨_, _, hh, -⟩ | ⟨_, _, -, rfl⟩ <;>
      first | cases hh | skip
    cases h' with
    | obj0 hw' =>
      obtain ⟨w', c, r, rfl, h1, h2⟩ := members_begin h
      simp only [List.cons_append, List.append_assoc, List.cons.injEq, true_and, List.nil_append] at e
      exact (empty_or (d := '}') (by simp) hw' h1 h2 (y := '}' :: x) (by simpa using e.symm)).elim
    | obj h' =>
      simp only [List.cons_append, List.append_assoc, List.cons.injEq, true_and, List.nil_append] at e
      obtain ⟨e1, e2, e3⟩ := ih _ _ x y h' e
      exact ⟨by rw [e1], by rw [e2], e3⟩
  | elem hw hs hw1 ih =>
    intro l' s' x y h' e
    cases h' with
    | elem hw' hs' hw1' =>
      simp only [List.append_assoc] at e
      obtain ⟨e1, e2, e3, e4, e5, e6⟩ := between ih hs hs' hw hw' hw1 hw1' (by simp) (by simp) e
      exact ⟨by rw [e1], by rw [e2, e3, e4], e6⟩
    | elems hw' hs' hw1' _ =>
      simp only [List.append_assoc, List.cons_append] at e
      obtain ⟨e1, e2, e3, e4, e5, e6⟩ := between ih hs hs' hw hw' hw1 hw1' (by simp) (by simp) e
      exact absurd e5 (by decide)
  | elems hw hs hw1 _ ih ihl =>
    intro l' s' x y h' e
    cases h' with
    | elem hw' hs' hw1' =>
      simp only [List.append_assoc, List.cons_append] at e
      obtain ⟨e1, e2, e3, e4, e5, e6⟩ := between ih hs hs' hw hw' hw1 hw1' (by simp) (by simp) e
      exact absurd e5 (by decide)
    | elems hw' hs' hw1' hl' =>
      simp only [List.append_assoc, List.cons_append] at e
      obtain ⟨e1, e2, e3, e4, e5, e6⟩ := between ih hs hs' hw hw' hw1 hw1' (by simp) (by simp) e
      obtain ⟨e7, e8, e9⟩ := ihl _ _ x y hl' e6
      exact ⟨by rw [e1, e7], by rw [e2, e3, e4, e8], e9⟩
  | member hw hk h1 h2 hs h3 ih =>
    intro l' s' x y h' e
    cases h' with
    | member hw' hk' h1' h2' hs' h3' =>
      simp only [List.append_assoc, List.cons_append] at e
      obtain ⟨a1, a2, a3, a4, a5⟩ := key_split hw hw' h1 h1' hk hk' (by simpa using e)
      obtain ⟨e1, e2, e3, e4, e5, e6⟩ := between ih hs hs' h2 h2' h3 h3' (by simp) (by simp) a5
      exact ⟨by rw [a1, e1], by rw [a2, a3, a4, e2, e3, e4], e6⟩
    | members hw' hk' h1' h2' hs' h3' _ =>
      simp only [List.append_assoc, List.cons_append] at e
      obtain ⟨a1, a2, a3, a4, a5⟩ := key_split hw hw' h1 h1' hk hk' (by simpa using e)
      obtain ⟨e1, e2, e3, e4, e5, e6⟩ := between ih hs hs' h2 h2' h3 h3' (by simp) (by simp) a5
      exact absurd e5 (by decide)
  | members hw hk h1 h2 hs h3 _ ih ihl =>
    intro l' s' x y h' e
    cases h' with
    | member hw' hk' h1' h2' hs' h3' =>
      simp only [List.append_assoc, List.cons_append] at e
      obtain ⟨a1, a2, a3, a4, a5⟩ := key_split hw hw' h1 h1' hk hk' (by simpa using e)
      obtain ⟨e1, e2, e3, e4, e5, e6⟩ := between ih hs hs' h2 h2' h3 h3' (by simp) (by simp) a5
      exact absurd e5 (by decide)
    | members hw' hk' h1' h2' hs' h3' hl' =>
      simp only [List.append_assoc, List.cons_append] at e
      obtain ⟨a1, a2, a3, a4, a5⟩ := key_split hw hw' h1 h1' hk hk' (by simpa using e)
      obtain ⟨e1, e2, e3, e4, e5, e6⟩ := between ih hs hs' h2 h2' h3 h3' (by simp) (by simp) a5
      obtain ⟨e7, e8, e9⟩ := ihl _ _ x y hl' e6
      exact ⟨by rw [a1, e1, e7], by rw [a2, a3, a4, e2, e3, e4, e8], e9⟩

/-- A JSON text has one value. -/
theorem unique {v v' : JV} {s : List Char} (h : JsonText v s) (h' : JsonText v' s) : v = v' := by
  generalize hs : s = s' at h'
  cases h with
  | mk hw hv hw1 =>
    cases h' with
    | mk hw' hv' hw1' =>
      rw [List.append_assoc, List.append_assoc] at hs
      obtain ⟨-, e⟩ := ws_split hw hw' (value_stop hv) (value_stop hv') hs
      have hf : ∀ {w : List Char}, (∀ c ∈ w, JWs c) → Follow w := fun {w} h => by
        have := ws_follow h (x := []) (by intro c r e; cases e)
        rwa [List.append_nil] at this
      exact (det hv _ _ _ _ hv' (hf hw1) (hf hw1') e).1

end Verif.JsonG
