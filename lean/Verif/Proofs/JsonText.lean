import Verif.Proofs.JsonNum
import Verif.Proofs.JsonGrammar
/-!
# The text `JSON` gives is read as the value of the tree
-/
namespace Verif
open Spec

/-! ## Strings -/

theorem hexVal_hexChar : ∀ n < 16, hexVal (hexChar n) = some n := by decide +kernel

theorem jChar_reads (c : Char) {u s : List Char} (h : JChars u s) : JChars (c :: u) (jChar c ++ s) := by
  unfold jChar
  split
  · next h1 =>
    rcases h1 with rfl | rfl <;> exact .escape (by decide) h
  split
  · next h1 => subst h1; exact .escape (by decide) h
  split
  · next h1 => subst h1; exact .escape (by decide) h
  split
  · next h1 => subst h1; exact .escape (by decide) h
  split
  · next h1 => subst h1; exact .escape (by decide) h
  split
  · next h1 => subst h1; exact .escape (by decide) h
  split
  · next h1 =>
    have hc : c.toNat < 128 := by
      rcases h1 with h1 | rfl | rfl | rfl
      · omega
      · decide
      · decide
      · decide
    have hh : JHex (((0 * 16 + 0) * 16 + c.toNat / 16) * 16 + c.toNat % 16) ['0', '0', hexChar (c.toNat / 16), hexChar (c.toNat % 16)] :=
      .mk (by decide) (by decide) (hexVal_hexChar _ (by omega)) (hexVal_hexChar _ (by omega))
    have := JChars.unit hh (by omega) h
    rw [show ((0 * 16 + 0) * 16 + c.toNat / 16) * 16 + c.toNat % 16 = c.toNat by omega, Char.ofNat_toNat] at this
    exact this
  split
  · next h1 =>
    rcases h1 with rfl | rfl
    · exact JChars.unit (n := 0x2028) (.mk (i := 2) (j := 0) (k := 2) (l := 8) (by decide) (by decide) (by decide) (by decide)) (by decide) h
    · exact JChars.unit (n := 0x2029) (.mk (i := 2) (j := 0) (k := 2) (l := 9) (by decide) (by decide) (by decide) (by decide)) (by decide) h
  · next h1 h2 h3 h4 h5 h6 h7 h8 =>
    simp only [not_or] at h1 h7
    exact .plain (by omega) h1.1 h1.2 h

theorem jChars_flatMap (s : List Char) : JChars s (s.flatMap jChar) := by
  induction s with
  | nil => exact .nil
  | cons c s ih => rw [List.flatMap_cons]; exact jChar_reads c ih

/-! ## Values -/

/-- Keys whose values are given by an `int`. -/
def intKeys : List (List Char) := ["Operation".toList, "Type".toList]

mutual
/-- Numbers are normalised, and it can be told from the key whether a number is an `int` or a `float64`. -/
def J.fine : J → Prop
  | .null => True
  | .bool _ => True
  | .flt x => x.Canon
  | .int _ => False
  | .str _ => True
  | .arr l => J.fineL l
  | .obj l => J.fineM l
def J.fineL : List J → Prop
  | [] => True
  | j :: l => j.fine ∧ J.fineL l
def J.fineM : List (List Char × J) → Prop
  | [] => True
  | (k, j) :: l => ((k ∈ intKeys ∧ ∃ n, j = .int n) ∨ ((k ∈ intKeys → ∀ x, j ≠ .flt x) ∧ j.fine)) ∧ J.fineM l
end

mutual
/-- What is read. -/
def J.read : J → JV
  | .null => .null
  | .bool b => .bool b
  | .flt x => .num x.neg x.shown
  | .int n => .num false n
  | .str s => .str s
  | .arr l => .arr (J.readL l)
  | .obj l => .obj (J.readM l)
def J.readL : List J → List JV
  | [] => []
  | j :: l => j.read :: J.readL l
def J.readM : List (List Char × J) → List (List Char × JV)
  | [] => []
  | (k, j) :: l => (k, j.read) :: J.readM l
end

theorem jElems_cons (v w : J) (l : List J) : jElems (v :: w :: l) = jText v ++ ',' :: jElems (w :: l) := by
  rw [jElems]; simp

theorem jMembers_cons (k : List Char) (v : J) (p : List Char × J) (l : List (List Char × J)) :
    jMembers ((k, v) :: p :: l) = jString k ++ ':' :: (jText v ++ ',' :: jMembers (p :: l)) := by
  rw [jMembers]; simp

mutual
theorem jText_reads : (j : J) → (j.fine ∨ ∃ n, j = .int n) → Reads (.value j.read) (jText j)
  | .null, _ => .null
  | .bool true, _ => .true
  | .bool false, _ => .false
  | .flt x, h => by
    rcases h with h | ⟨n, h⟩
    · exact .num (F64.numText_num h)
    · cases h
  | .int n, _ => .num (jNum_nat n)
  | .str s, _ => .str (jChars_flatMap s)
  | .arr l, h => by
    have h : J.fineL l := by
      rcases h with h | ⟨n, h⟩
      · exact h
      · cases h
    cases l with
    | nil => exact .arr0 (w := []) (by simp)
    | cons j l => exact .arr (jElems_reads (j :: l) h (by simp))
  | .obj l, h => by
    have h : J.fineM l := by
      rcases h with h | ⟨n, h⟩
      · exact h
      · cases h
    cases l with
    | nil => exact .obj0 (w := []) (by simp)
    | cons j l => exact .obj (jMembers_reads (j :: l) h (by simp))
theorem jElems_reads : (l : List J) → J.fineL l → l ≠ [] → Reads (.elems (J.readL l)) (jElems l)
  | [], _, h => absurd rfl h
  | [j], h, _ => by
    have := Reads.elem (w := []) (w' := []) (by simp) (jText_reads j (.inl h.1)) (by simp)
    simpa [jElems, J.readL] using this
  | j :: k :: l, h, _ => by
    rw [jElems_cons]
    have := Reads.elems (w := []) (w' := []) (by simp) (jText_reads j (.inl h.1)) (by simp) (jElems_reads (k :: l) h.2 (by simp))
    simpa [J.readL] using this
theorem jMembers_reads : (l : List (List Char × J)) → J.fineM l → l ≠ [] → Reads (.members (J.readM l)) (jMembers l)
  | [], _, h => absurd rfl h
  | [(k, j)], h, _ => by
    have hj : j.fine ∨ ∃ n, j = .int n := by
      rcases h.1 with h | h
      · exact .inr h.2
      · exact .inl h.2
    have := Reads.member (w := []) (w' := []) (w'' := []) (w''' := []) (by simp) (jChars_flatMap k) (by simp) (by simp) (jText_reads j hj) (by simp)
    simpa [jMembers, J.readM, jString] using this
  | (k, j) :: p :: l, h, _ => by
    have hj : j.fine ∨ ∃ n, j = .int n := by
      rcases h.1 with h | h
      · exact .inr h.2
      · exact .inl h.2
    rw [jMembers_cons]
    have := Reads.members (w := []) (w' := []) (w'' := []) (w''' := []) (by simp) (jChars_flatMap k) (by simp) (by simp) (jText_reads j hj) (by simp)
      (jMembers_reads (p :: l) h.2 (by simp))
    simpa [J.readM, jString] using this
end

mutual
theorem read_stands : (j : J) → (j.fine ∨ ∃ n, j = .int n) → Stands j.read j
  | .null, _ => .null
  | .bool _, _ => .bool
  | .flt x, h => by
    rcases h with h | ⟨n, h⟩
    · exact .flt (F64.shown_readAs h)
    · cases h
  | .int n, _ => .int
  | .str s, _ => .str
  | .arr l, h => read_standsL l (by
      rcases h with h | ⟨n, h⟩
      · exact h
      · cases h)
  | .obj l, h => read_standsM l (by
      rcases h with h | ⟨n, h⟩
      · exact h
      · cases h)
theorem read_standsL : (l : List J) → J.fineL l → Stands (.arr (J.readL l)) (.arr l)
  | [], _ => .arr0
  | j :: l, h => .arr (read_stands j (.inl h.1)) (read_standsL l h.2)
theorem read_standsM : (l : List (List Char × J)) → J.fineM l → Stands (.obj (J.readM l)) (.obj l)
  | [], _ => .obj0
  | (k, j) :: l, h => .obj (read_stands j (by
      rcases h.1 with h | h
      · exact .inr h.2
      · exact .inl h.2)) (read_standsM l h.2)
end

/-! ## Nothing is lost -/

namespace F64

theorem roundHalfEven_mul {k : Nat} (hk : 0 < k) (n d : Nat) : roundHalfEven (k * n) (k * d) = roundHalfEven n d := by
  unfold roundHalfEven
  dsimp only
  rw [Nat.mul_div_mul_left _ _ hk, Nat.mul_mod_mul_left]
  have e1 : (2 * (k * (n % d)) < k * d) ↔ 2 * (n % d) < d := by
    rw [show 2 * (k * (n % d)) = k * (2 * (n % d)) by ring]; exact Nat.mul_lt_mul_left hk
  have e2 : (k * d < 2 * (k * (n % d))) ↔ d < 2 * (n % d) := by
    rw [show 2 * (k * (n % d)) = k * (2 * (n % d)) by ring]; exact Nat.mul_lt_mul_left hk
  simp only [e1, e2]

theorem floorLog2_mul {k n d : Nat} (hk : 0 < k) (hn : n ≠ 0) (hd : d ≠ 0) : floorLog2 (k * n) (k * d) = floorLog2 n d := by
  have h1 := floorLog2_spec (n := k * n) (d := k * d) (by positivity) (by positivity)
  have h2 := floorLog2_spec hn hd
  have e : ((k * n : ℕ) : ℚ) / (k * d : ℕ) = (n : ℚ) / d := by
    push_cast
    have : (k : ℚ) ≠ 0 := by positivity
    have : (d : ℚ) ≠ 0 := by positivity
    field_simp
  rw [e] at h1
  have a := (zpow_lt_zpow_iff_right₀ (by norm_num : (1 : ℚ) < 2)).1 (h1.1.trans_lt h2.2)
  have b := (zpow_lt_zpow_iff_right₀ (by norm_num : (1 : ℚ) < 2)).1 (h2.1.trans_lt h1.2)
  omega

theorem ofRat_mul {k n d : Nat} (hk : 0 < k) (hd : d ≠ 0) : ofRat (k * n) (k * d) = ofRat n d := by
  unfold ofRat
  by_cases hn : n = 0
  · subst hn; simp
  rw [if_neg (by positivity), if_neg hn]
  dsimp only
  rw [floorLog2_mul hk hn hd, mul_assoc, mul_assoc, roundHalfEven_mul hk, roundHalfEven_mul hk]

/-- `ofRat` depends on nothing but the number. -/
theorem ofRat_congr {n d n' d' : Nat} (hd : d ≠ 0) (hd' : d' ≠ 0) (h : (n : ℚ) / d = n' / d') : ofRat n d = ofRat n' d' := by
  have e : d' * n = d * n' := by
    have h1 : (d : ℚ) ≠ 0 := by positivity
    have h2 : (d' : ℚ) ≠ 0 := by positivity
    rw [div_eq_div_iff h1 h2] at h
    have : ((n * d' : ℕ) : ℚ) = (n' * d : ℕ) := by push_cast; exact h
    have : n * d' = n' * d := by exact_mod_cast this
    rw [mul_comm d' n, this, mul_comm]
  rw [← ofRat_mul (k := d') (by omega) hd, ← ofRat_mul (k := d) (by omega) hd', e, mul_comm d' d]

end F64

theorem readAs_unique {q : ℚ} {x y : F64} (h : ReadAs q x) (h' : ReadAs q y) : x = y := by
  obtain ⟨-, n, d, hd, e, ho⟩ := h
  obtain ⟨-, n', d', hd', e', ho'⟩ := h'
  have := F64.ofRat_congr hd hd' (e.symm.trans e')
  rw [ho, ho'] at this
  injection this

theorem shown_inj {x y : F64} (hx : x.Canon) (hy : y.Canon) (hn : x.neg = y.neg) (h : x.shown = y.shown) : x = y := by
  have h1 := F64.shown_readAs hx
  have h2 := F64.shown_readAs hy
  rw [← h] at h2
  have := readAs_unique h1 h2
  cases x; cases y
  simp only [F64.mk.injEq, true_and] at this hn ⊢
  exact ⟨hn, this⟩

mutual
theorem read_inj : (j j' : J) → j.fine → j'.fine → j.read = j'.read → j = j'
  | .null, j', _, h', e => by cases j' <;> simp [J.read] at e; rfl
  | .bool b, j', _, h', e => by cases j' <;> simp [J.read] at e; rw [e]
  | .flt x, j', h, h', e => by
    cases j' <;> simp [J.read] at e
    · rw [shown_inj h h' e.1 e.2]
    · exact absurd h' (by simp [J.fine])
  | .int n, j', h, _, _ => absurd h (by simp [J.fine])
  | .str s, j', _, h', e => by cases j' <;> simp [J.read] at e; rw [e]
  | .arr l, j', h, h', e => by
    cases j' <;> simp [J.read] at e
    rw [read_injL l _ h h' e]
  | .obj l, j', h, h', e => by
    cases j' <;> simp [J.read] at e
    rw [read_injM l _ h h' e]
theorem read_injL : (l l' : List J) → J.fineL l → J.fineL l' → J.readL l = J.readL l' → l = l'
  | [], l', _, _, e => by cases l' <;> simp [J.readL] at e; rfl
  | j :: l, l', h, h', e => by
    cases l' with
    | nil => simp [J.readL] at e
    | cons j' l' =>
      simp only [J.readL, List.cons.injEq] at e
      rw [read_inj j j' h.1 h'.1 e.1, read_injL l l' h.2 h'.2 e.2]
theorem read_injM : (l l' : List (List Char × J)) → J.fineM l → J.fineM l' → J.readM l = J.readM l' → l = l'
  | [], l', _, _, e => by cases l' <;> simp [J.readM] at e; rfl
  | (k, j) :: l, l', h, h', e => by
    cases l' with
    | nil => simp [J.readM] at e
    | cons p l' =>
      obtain ⟨k', j'⟩ := p
      simp only [J.readM, List.cons.injEq, Prod.mk.injEq] at e
      obtain ⟨⟨rfl, e1⟩, e2⟩ := e
      rw [read_injM l l' h.2 h'.2 e2]
      have hj : j = j' := by
        rcases h.1 with ⟨hk, n, rfl⟩ | ⟨hk, hf⟩ <;> rcases h'.1 with ⟨hk', n', rfl⟩ | ⟨hk', hf'⟩
        · simp [J.read] at e1; rw [e1]
        · cases j' <;> simp [J.read] at e1
          · exact absurd rfl (hk' hk _)
          · exact absurd hf' (by simp [J.fine])
        · cases j <;> simp [J.read] at e1
          · exact absurd rfl (hk hk' _)
          · exact absurd hf (by simp [J.fine])
        · exact read_inj j j' hf hf' e1
      rw [hj]
end

/-! ## No control characters, nothing that HTML takes for markup -/

theorem numCh_not_raw {c : Char} (h : JsonG.NumCh c) : ¬ Raw c := by
  have : ∀ c ∈ ['0', '1', '2', '3', '4', '5', '6', '7', '8', '9', '-', '+', '.', 'e', 'E'], ¬ Raw c := by unfold Raw; decide
  refine this c ?_
  rcases h with h | h
  · have := JsonG.digit_cases h
    simp only [List.mem_cons, List.not_mem_nil, or_false]
    tauto
  · simp only [List.mem_cons, List.not_mem_nil, or_false] at h ⊢
    tauto

theorem hexChar_not_raw (n : Nat) : ¬ Raw (hexChar n) := by
  have h : ∀ c ∈ "0123456789abcdef".toList, ¬ Raw c := by unfold Raw; decide
  unfold hexChar
  rw [List.getD_eq_getElem?_getD]
  cases hg : "0123456789abcdef".toList[n]? with
  | none => exact (by unfold Raw; decide)
  | some c => exact h c (List.mem_of_getElem? hg)

theorem jChar_not_raw (c : Char) : ∀ d ∈ jChar c, ¬ Raw d := by
  have hl : ∀ d ∈ ['\\', '"', 'b', 'f', 'n', 'r', 't', 'u', '0', '2'], ¬ Raw d := by unfold Raw; decide
  unfold jChar
  split
  · next h1 => rcases h1 with rfl | rfl <;> exact fun d hd => hl d (by simp at hd; rcases hd with rfl | rfl <;> simp)
  split
  · exact fun d hd => hl d (by simp at hd; rcases hd with rfl | rfl <;> simp)
  split
  · exact fun d hd => hl d (by simp at hd; rcases hd with rfl | rfl <;> simp)
  split
  · exact fun d hd => hl d (by simp at hd; rcases hd with rfl | rfl <;> simp)
  split
  · exact fun d hd => hl d (by simp at hd; rcases hd with rfl | rfl <;> simp)
  split
  · exact fun d hd => hl d (by simp at hd; rcases hd with rfl | rfl <;> simp)
  split
  · intro d hd
    simp only [List.mem_cons, List.not_mem_nil, or_false] at hd
    rcases hd with rfl | rfl | rfl | rfl | rfl | rfl
    all_goals first | exact hexChar_not_raw _ | exact hl _ (by simp)
  split
  · intro d hd
    simp only [List.mem_cons, List.not_mem_nil, or_false] at hd
    rcases hd with rfl | rfl | rfl | rfl | rfl | rfl
    all_goals first | exact hexChar_not_raw _ | exact hl _ (by simp)
  · next h1 h2 h3 h4 h5 h6 h7 h8 =>
    intro d hd
    rw [List.mem_singleton] at hd
    subst hd
    simp only [not_or] at h7 h8
    simp only [Raw, List.mem_cons, List.not_mem_nil, or_false]
    tauto

theorem jString_not_raw (s : List Char) : ∀ d ∈ jString s, ¬ Raw d := by
  intro d hd
  simp only [jString, List.mem_append, List.mem_cons, List.not_mem_nil, or_false, List.mem_flatMap] at hd
  rcases hd with (rfl | ⟨c, -, h⟩) | rfl
  · unfold Raw; decide
  · exact jChar_not_raw c d h
  · unfold Raw; decide

mutual
theorem jText_not_raw : (j : J) → (j.fine ∨ ∃ n, j = .int n) → ∀ c ∈ jText j, ¬ Raw c
  | .null, _ => by unfold Raw; decide
  | .bool true, _ => by unfold Raw; decide
  | .bool false, _ => by unfold Raw; decide
  | .flt x, h => by
    rcases h with h | ⟨n, h⟩
    · exact fun c hc => numCh_not_raw (JsonG.jNum_chars (F64.numText_num h) c hc)
    · cases h
  | .int n, _ => fun c hc => numCh_not_raw (JsonG.jNum_chars (jNum_nat n) c hc)
  | .str s, _ => jString_not_raw s
  | .arr l, h => by
    have h : J.fineL l := by
      rcases h with h | ⟨n, h⟩
      · exact h
      · cases h
    intro c hc
    simp only [jText, List.mem_append, List.mem_cons, List.not_mem_nil, or_false] at hc
    rcases hc with (rfl | hc) | rfl
    · unfold Raw; decide
    · exact jElems_not_raw l h c hc
    · unfold Raw; decide
  | .obj l, h => by
    have h : J.fineM l := by
      rcases h with h | ⟨n, h⟩
      · exact h
      · cases h
    intro c hc
    simp only [jText, List.mem_append, List.mem_cons, List.not_mem_nil, or_false] at hc
    rcases hc with (rfl | hc) | rfl
    · unfold Raw; decide
    · exact jMembers_not_raw l h c hc
    · unfold Raw; decide
theorem jElems_not_raw : (l : List J) → J.fineL l → ∀ c ∈ jElems l, ¬ Raw c
  | [], _ => by simp [jElems]
  | [j], h => by rw [jElems]; exact jText_not_raw j (.inl h.1)
  | j :: k :: l, h => by
    intro c hc
    simp only [jElems_cons, List.mem_append, List.mem_cons] at hc
    rcases hc with hc | rfl | hc
    · exact jText_not_raw j (.inl h.1) c hc
    · unfold Raw; decide
    · exact jElems_not_raw (k :: l) h.2 c hc
theorem jMembers_not_raw : (l : List (List Char × J)) → J.fineM l → ∀ c ∈ jMembers l, ¬ Raw c
  | [], _ => by simp [jMembers]
  | [(k, j)], h => by
    have hj : j.fine ∨ ∃ n, j = .int n := by
      rcases h.1 with h | h
      · exact .inr h.2
      · exact .inl h.2
    intro c hc
    simp only [jMembers, List.mem_append, List.mem_cons] at hc
    rcases hc with hc | rfl | hc
    · exact jString_not_raw k c hc
    · unfold Raw; decide
    · exact jText_not_raw j hj c hc
  | (k, j) :: p :: l, h => by
    have hj : j.fine ∨ ∃ n, j = .int n := by
      rcases h.1 with h | h
      · exact .inr h.2
      · exact .inl h.2
    intro c hc
    simp only [jMembers_cons, List.mem_append, List.mem_cons] at hc
    rcases hc with hc | rfl | hc | rfl | hc
    · exact jString_not_raw k c hc
    · unfold Raw; decide
    · exact jText_not_raw j hj c hc
    · unfold Raw; decide
    · exact jMembers_not_raw (p :: l) h.2 c hc
end

end Verif
