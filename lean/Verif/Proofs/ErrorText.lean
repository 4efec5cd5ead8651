import Verif.ErrorText
import Verif.Proofs.JsonText
/-!
# The text of an error determines the error
-/
namespace Verif
namespace ErrorText
open Spec

/-- The value of hexadecimal digits. -/
def readHex (l : List Char) : Nat := l.foldl (fun n c => n * 16 + (hexVal c).getD 0) 0

theorem hex_length : ∀ k n, (hex k n).length = k
  | 0, _ => rfl
  | k + 1, n => by rw [hex, List.length_append, hex_length k]; rfl

theorem readHex_hex : ∀ k n, n < 16 ^ k → readHex (hex k n) = n
  | 0, n, h => by have : n = 0 := by simpa using h
                  rw [this]; rfl
  | k + 1, n, h => by
    have ih := readHex_hex k (n / 16) (by rw [Nat.pow_succ] at h; omega)
    unfold readHex at ih ⊢
    rw [hex, List.foldl_append, ih]
    show n / 16 * 16 + (hexVal (hexChar (n % 16))).getD 0 = n
    rw [hexVal_hexChar _ (Nat.mod_lt _ (by decide))]
    show n / 16 * 16 + n % 16 = n
    omega

/-- Reads one character of a quotation. -/
def readEscape : List Char → Nat × List Char
  | '\\' :: 'x' :: r => (readHex (r.take 2), r.drop 2)
  | '\\' :: 'u' :: r => (readHex (r.take 4), r.drop 4)
  | '\\' :: 'U' :: r => (readHex (r.take 8), r.drop 8)
  | '\\' :: 'a' :: r => (7, r)
  | '\\' :: 'b' :: r => (8, r)
  | '\\' :: 'f' :: r => (12, r)
  | '\\' :: 'n' :: r => (10, r)
  | '\\' :: 'r' :: r => (13, r)
  | '\\' :: 't' :: r => (9, r)
  | '\\' :: 'v' :: r => (11, r)
  | '\\' :: c :: r => (c.toNat, r)
  | c :: r => (c.toNat, r)
  | [] => (0, [])

theorem toNat_lt (c : Char) : c.toNat < 16 ^ 8 := by
  have h := c.valid
  have e : c.toNat = c.val.toNat := rfl
  rw [e]
  rcases h with h | h
  · exact Nat.lt_trans h (by decide)
  · exact Nat.lt_trans h.2 (by decide)

variable {isPrint : Char → Bool}

theorem readEscape_escape (c : Char) (x : List Char) : readEscape (escape isPrint c ++ x) = (c.toNat, x) := by
  unfold escape
  split
  · rename_i h
    rcases h with rfl | rfl <;> rfl
  rename_i h0
  split
  · have : c ≠ '\\' := fun h => h0 (.inr h)
    show readEscape (c :: x) = _
    unfold readEscape
    split <;> first | (rename_i h; injection h with h _; exact absurd h this) | skip
    · rename_i h; injection h with h1 h2; rw [h1, h2]
    · rename_i h; cases h
  iterate 7
    split
    · rename_i h; rw [h]; rfl
  have hx : ∀ k n, ((hex k n ++ x).take k) = hex k n ∧ ((hex k n ++ x).drop k) = x := by
    intro k n
    have := hex_length k n
    exact ⟨by rw [List.take_append_of_le_length (by omega), List.take_of_length_le (by omega)],
      List.drop_left' this⟩
  split
  · rename_i h
    show (readHex ((hex 2 c.toNat ++ x).take 2), (hex 2 c.toNat ++ x).drop 2) = _
    rw [(hx 2 _).1, (hx 2 _).2, readHex_hex 2 _ (by omega)]
  split
  · rename_i h
    show (readHex ((hex 4 c.toNat ++ x).take 4), (hex 4 c.toNat ++ x).drop 4) = _
    rw [(hx 4 _).1, (hx 4 _).2, readHex_hex 4 _ (by omega)]
  · show (readHex ((hex 8 c.toNat ++ x).take 8), (hex 8 c.toNat ++ x).drop 8) = _
    rw [(hx 8 _).1, (hx 8 _).2, readHex_hex 8 _ (toNat_lt c)]

theorem escape_inj {c d : Char} {x y : List Char} (h : escape isPrint c ++ x = escape isPrint d ++ y) : c = d ∧ x = y := by
  have h := congrArg readEscape h
  rw [readEscape_escape, readEscape_escape] at h
  injection h with h1 h2
  exact ⟨Char.toNat_inj.1 h1, h2⟩

theorem escape_ne_quote (c : Char) (x y : List Char) : escape isPrint c ++ x ≠ '"' :: y := by
  unfold escape
  split
  · intro h; injection h with h _; exact absurd h (by decide)
  rename_i h0
  split
  · intro h; injection h with h _; exact h0 (.inl h)
  repeat' (split; · intro h; injection h with h _; exact absurd h (by decide))
  intro h; injection h with h _; exact absurd h (by decide)

theorem body_inj : ∀ {a b : List Char} {x y : List Char},
    a.flatMap (escape isPrint) ++ '"' :: x = b.flatMap (escape isPrint) ++ '"' :: y → a = b ∧ x = y
  | [], [], x, y, h => by injection h with _ h; exact ⟨rfl, h⟩
  | [], d :: b, x, y, h => by
    rw [List.flatMap_cons, List.append_assoc] at h
    exact absurd h.symm (escape_ne_quote _ _ _)
  | c :: a, [], x, y, h => by
    rw [List.flatMap_cons, List.append_assoc] at h
    exact absurd h (escape_ne_quote _ _ _)
  | c :: a, d :: b, x, y, h => by
    rw [List.flatMap_cons, List.append_assoc, List.flatMap_cons, List.append_assoc] at h
    obtain ⟨h1, h2⟩ := escape_inj h
    obtain ⟨h3, h4⟩ := body_inj h2
    exact ⟨by rw [h1, h3], h4⟩

theorem quote_inj {a b : List Char} {x y : List Char} (h : quote isPrint a ++ x = quote isPrint b ++ y) : a = b ∧ x = y := by
  unfold quote at h
  rw [List.cons_append, List.cons_append, List.append_assoc, List.append_assoc] at h
  injection h with _ h
  exact body_inj h

omit isPrint in
theorem digits_inj {m n : Nat} {c d : Char} {x y : List Char} (hc : c.isDigit = false) (hd : d.isDigit = false)
    (h : Nat.toDigits 10 m ++ c :: x = Nat.toDigits 10 n ++ d :: y) : m = n ∧ c :: x = d :: y := by
  have ht : ∀ (k : Nat) (c : Char) (x : List Char), c.isDigit = false → (Nat.toDigits 10 k ++ c :: x).takeWhile Char.isDigit = Nat.toDigits 10 k := by
    intro k c x hc
    rw [List.takeWhile_append_of_pos (fun a ha => Nat.isDigit_of_mem_toDigits (by decide) (by decide) ha),
      List.takeWhile_cons_of_neg (by rw [hc]; decide), List.append_nil]
  have h1 := congrArg (List.takeWhile Char.isDigit) h
  rw [ht _ _ _ hc, ht _ _ _ hd] at h1
  have h2 := congrArg (Nat.ofDigitChars 10 · 0) h1
  rw [Nat.ofDigitChars_ten_toDigits, Nat.ofDigitChars_ten_toDigits] at h2
  rw [h2] at h
  exact ⟨h2, List.append_cancel_left h⟩

omit isPrint in
theorem showInt_inj {m n : Int} {c d : Char} {x y : List Char} (hc : c.isDigit = false) (hd : d.isDigit = false)
    (h : showInt m ++ c :: x = showInt n ++ d :: y) : m = n ∧ c :: x = d :: y := by
  have hne : ∀ (k : Nat) (z w : List Char), Nat.toDigits 10 k ++ z ≠ '-' :: w := by
    intro k z w e
    cases hk : Nat.toDigits 10 k with
    | nil => exact Nat.toDigits_ne_nil hk
    | cons a l =>
      rw [hk] at e
      injection e with e _
      have := Nat.isDigit_of_mem_toDigits (b := 10) (by decide) (by decide) (hk ▸ List.mem_cons_self : a ∈ Nat.toDigits 10 k)
      rw [e] at this
      exact absurd this (by decide)
  unfold showInt at h
  rw [List.append_assoc, List.append_assoc] at h
  by_cases hm : m < 0
  · rw [if_pos hm] at h
    by_cases hn : n < 0
    · rw [if_pos hn] at h
      injection h with _ h
      obtain ⟨h1, h2⟩ := digits_inj hc hd h
      exact ⟨by omega, h2⟩
    · rw [if_neg hn] at h
      exact absurd h.symm (hne _ _ _)
  · rw [if_neg hm] at h
    by_cases hn : n < 0
    · rw [if_pos hn] at h
      exact absurd h (hne _ _ _)
    · rw [if_neg hn] at h
      obtain ⟨h1, h2⟩ := digits_inj hc hd h
      exact ⟨by omega, h2⟩

/-- How the messages begin. -/
def begins : Msg → List Char
  | .syntaxError => ['s', 'y', 'n', 't', 'a', 'x', ' ', 'e', 'r']
  | .loopOp _ => ['o', 'p', 'e', 'r', 'a', 't', 'o', 'r', ' ']
  | .throwOp _ => ['o', 'p', 'e', 'r', 'a', 't', 'o', 'r', ' ']
  | .procReturn => ['p', 'r', 'o', 'c', 'e', 'd', 'u', 'r', 'e']
  | .semicolon => ['s', 'e', 'm', 'i', 'c', 'o', 'l', 'o', 'n']
  | .dupVar _ => ['v', 'a', 'r', 'i', 'a', 'b', 'l', 'e', ' ']
  | .varOrder => ['v', 'a', 'r', 'i', 'a', 'b', 'l', 'e', ' ']
  | .funcOrder => ['p', 'r', 'o', 'c', 'e', 'd', 'u', 'r', 'e']

omit isPrint in
theorem clash (k : Nat) {a b x y : List Char} (ha : k ≤ a.length) (hb : k ≤ b.length) (h : a.take k ≠ b.take k) : a ++ x ≠ b ++ y := by
  intro e
  have e := congrArg (List.take k) e
  rw [List.take_append_of_le_length ha, List.take_append_of_le_length hb] at e
  exact h e

theorem begins_eq (m : Msg) (x : List Char) : (msgText isPrint m ++ x).take 9 = begins m := by
  cases m <;> rfl

theorem msg_inj {m n : Msg} {x y : List Char} (h : msgText isPrint m ++ x = msgText isPrint n ++ y) : m = n ∧ x = y := by
  have h9 := congrArg (List.take 9) h
  rw [begins_eq, begins_eq] at h9
  have op : ∀ {a b t u x y : List Char}, ("operator ".toList ++ (quote isPrint a ++ t)) ++ x = ("operator ".toList ++ (quote isPrint b ++ u)) ++ y →
      a = b ∧ t ++ x = u ++ y := by
    intro a b t u x y h
    rw [List.append_assoc, List.append_assoc, List.append_assoc, List.append_assoc] at h
    exact quote_inj (List.append_cancel_left h)
  have hv : ∀ {n x y}, msgText isPrint (.dupVar n) ++ x ≠ msgText isPrint .varOrder ++ y := by
    intro n x y
    show ("variable has already been defined: with the specified name ".toList ++ quote isPrint n) ++ x ≠
      "variable declarations must be placed at the beginning of the module".toList ++ y
    rw [List.append_assoc]
    exact clash 11 (by decide) (by decide) (by decide)
  have hp : ∀ {x y}, msgText isPrint .procReturn ++ x ≠ msgText isPrint .funcOrder ++ y := by
    intro x y
    show "procedure cannot return a value".toList ++ x ≠
      "procedure and function definitions should be placed before the module body statements".toList ++ y
    exact clash 11 (by decide) (by decide) (by decide)
  have same : ∀ {m : Msg} {x y}, msgText isPrint m ++ x = msgText isPrint m ++ y → m = m ∧ x = y :=
    fun h => ⟨rfl, List.append_cancel_left h⟩
  cases m <;> cases n <;> first | (cases h9; done) | skip
  · exact same h
  · obtain ⟨rfl, h⟩ := op h
    exact ⟨rfl, List.append_cancel_left h⟩
  · exact absurd (op h).2 (clash 5 (by decide) (by decide) (by decide))
  · exact absurd (op h).2 (clash 5 (by decide) (by decide) (by decide))
  · obtain ⟨rfl, h⟩ := op h
    exact ⟨rfl, List.append_cancel_left h⟩
  · exact same h
  · exact absurd h hp
  · exact same h
  · rename_i a b
    have h : ("variable has already been defined: with the specified name ".toList ++ quote isPrint a) ++ x =
        ("variable has already been defined: with the specified name ".toList ++ quote isPrint b) ++ y := h
    rw [List.append_assoc, List.append_assoc] at h
    obtain ⟨h1, h2⟩ := quote_inj (List.append_cancel_left h)
    exact ⟨by rw [h1], h2⟩
  · exact absurd h hv
  · exact absurd h.symm hv
  · exact same h
  · exact absurd h.symm hp
  · exact same h

theorem lex_inj {e e' : Lexer.LexErr} {t : List Char} (h : lexText isPrint e = some t) (h' : lexText isPrint e' = some t) : e = e' := by
  have hx : ∀ c (t : List Char), t ∈ ["unexpected EOL".toList, "unexpected EOF".toList, "identifier immediately follow the number".toList,
      "incorrect Date type constant".toList] → "syntax error ".toList ++ quote isPrint [c] ≠ t := by
    intro c t ht h
    have h := congrArg List.head? h
    have : ∀ t ∈ ["unexpected EOL".toList, "unexpected EOF".toList, "identifier immediately follow the number".toList,
      "incorrect Date type constant".toList], t.head? ≠ some 's' := by decide
    exact this t ht h.symm
  have hc : ∀ {c : Char} {e : Lexer.LexErr} {t}, lexText isPrint (.badChar c) = some t → lexText isPrint e = some t → ∃ d, e = .badChar d := by
    intro c e t h h'
    injection h with h
    cases e with
    | badChar d => exact ⟨d, rfl⟩
    | badNumber => cases h'
    | badDate => cases h'
    | _ => injection h' with h'; exact absurd (h.trans h'.symm) (hx _ _ (by simp))
  cases e with
  | badChar c =>
    obtain ⟨d, rfl⟩ := hc h h'
    injection h with h
    injection h' with h'
    have := List.append_cancel_left (h.trans h'.symm)
    have := (quote_inj (x := []) (y := []) (congrArg (· ++ []) this)).1
    injection this with this
    rw [this]
  | badNumber => cases h
  | badDate => cases h
  | _ =>
    cases e' with
    | badChar c => obtain ⟨d, hd⟩ := hc h' h; cases hd
    | badNumber => cases h'
    | badDate => cases h'
    | _ =>
      injection h with h
      injection h' with h'
      first | rfl | exact absurd (h.trans h'.symm) (by decide)

theorem err_inj {e e' : Err} {t : List Char} (h : errText isPrint e = some t) (h' : errText isPrint e' = some t) : e = e' := by
  have hg : ∀ m (x : List Char) y, msgText isPrint m ++ x ≠ "get token error: ".toList ++ y := by
    intro m x y h
    have h := congrArg (List.take 9) h
    rw [begins_eq] at h
    have h : begins m = ['g', 'e', 't', ' ', 't', 'o', 'k', 'e', 'n'] := h
    cases m <;> cases h
  cases e with
  | lex e =>
    cases e' with
    | lex e' =>
      obtain ⟨u, hu, rfl⟩ := Option.map_eq_some_iff.1 h
      obtain ⟨v, hv, e⟩ := Option.map_eq_some_iff.1 h'
      rw [List.append_cancel_left e] at hv
      rw [lex_inj hu hv]
    | «at» m l c lit =>
      obtain ⟨u, hu, rfl⟩ := Option.map_eq_some_iff.1 h
      injection h' with h'
      exact absurd h' (hg _ _ _)
  | «at» m l c lit =>
    cases e' with
    | lex e' =>
      obtain ⟨u, hu, rfl⟩ := Option.map_eq_some_iff.1 h'
      injection h with h
      exact absurd h (hg _ _ _)
    | «at» m' l' c' lit' =>
      injection h with h
      injection h' with h'
      rw [← h'] at h
      have e1 : ∀ u : List Char, ", column: ".toList ++ u = ',' :: (" column: ".toList ++ u) := fun _ => rfl
      have e2 : ∀ u : List Char, " (unexpected literal: ".toList ++ u = ' ' :: ("(unexpected literal: ".toList ++ u) := fun _ => rfl
      obtain ⟨hm, h1⟩ := msg_inj h
      rw [List.append_cancel_left_eq, e1, e1] at h1
      obtain ⟨hl, h2⟩ := showInt_inj (by decide) (by decide) h1
      rw [← e1, ← e1, List.append_cancel_left_eq, e2, e2] at h2
      obtain ⟨hc, h3⟩ := showInt_inj (by decide) (by decide) h2
      rw [← e2, ← e2, List.append_cancel_left_eq] at h3
      rw [hm, hl, hc, (quote_inj h3).1]

/-- Printable characters. -/
def Nice (isPrint : Char → Bool) (l : List Char) : Prop := ∀ c ∈ l, isPrint c = true ∨ 0x20 ≤ c.toNat ∧ c.toNat < 0x7f

theorem Nice.append {a b : List Char} (h : Nice isPrint a) (h' : Nice isPrint b) : Nice isPrint (a ++ b) := by
  intro c hc
  rcases List.mem_append.1 hc with hc | hc
  exacts [h c hc, h' c hc]

theorem nice_ascii {l : List Char} (h : l.all (fun c => 0x20 ≤ c.toNat && c.toNat < 0x7f) = true) : Nice isPrint l := by
  intro c hc
  have := List.all_eq_true.1 h c hc
  rw [Bool.and_eq_true, decide_eq_true_eq, decide_eq_true_eq] at this
  exact .inr this

theorem nice_hex : ∀ k n, Nice isPrint (hex k n)
  | 0, _ => nofun
  | k + 1, n => by
    refine (nice_hex k (n / 16)).append (nice_ascii ?_)
    have : ∀ m < 16, [hexChar m].all (fun c => 0x20 ≤ c.toNat && c.toNat < 0x7f) = true := by decide +kernel
    exact this _ (Nat.mod_lt _ (by decide))

theorem nice_escape (c : Char) : Nice isPrint (escape isPrint c) := by
  unfold escape
  split
  · rename_i h; rcases h with rfl | rfl <;> exact nice_ascii (by decide)
  split
  · rename_i h
    intro d hd
    rw [List.mem_singleton] at hd
    rw [hd]; exact .inl h
  iterate 7
    split
    · exact nice_ascii (by decide)
  split
  · exact Nice.append (a := ['\\', 'x']) (nice_ascii (by decide)) (nice_hex 2 c.toNat)
  split
  · exact Nice.append (a := ['\\', 'u']) (nice_ascii (by decide)) (nice_hex 4 c.toNat)
  · exact Nice.append (a := ['\\', 'U']) (nice_ascii (by decide)) (nice_hex 8 c.toNat)

theorem nice_quote (l : List Char) : Nice isPrint (quote isPrint l) := by
  refine Nice.append (a := ['"']) (nice_ascii (by decide)) (Nice.append ?_ (nice_ascii (by decide)))
  intro d hd
  obtain ⟨c, _, hd⟩ := List.mem_flatMap.1 hd
  exact nice_escape c d hd

theorem nice_showInt (n : Int) : Nice isPrint (showInt n) := by
  unfold showInt
  refine Nice.append ?_ ?_
  · split
    · exact nice_ascii (by decide)
    · nofun
  · intro c hc
    have := Nat.isDigit_of_mem_toDigits (b := 10) (by decide) (by decide) hc
    unfold Char.isDigit at this
    rw [Bool.and_eq_true, decide_eq_true_eq, decide_eq_true_eq] at this
    have h1 : 48 ≤ c.toNat := this.1
    have h2 : c.toNat ≤ 57 := this.2
    exact .inr ⟨by omega, by omega⟩

theorem nice_msg (m : Msg) : Nice isPrint (msgText isPrint m) := by
  cases m with
  | loopOp l => exact (nice_ascii (by decide)).append ((nice_quote l).append (nice_ascii (by decide)))
  | throwOp l => exact (nice_ascii (by decide)).append ((nice_quote l).append (nice_ascii (by decide)))
  | dupVar l => exact (nice_ascii (by decide)).append (nice_quote l)
  | syntaxError => exact nice_ascii (l := "syntax error".toList) (by decide)
  | procReturn => exact nice_ascii (l := "procedure cannot return a value".toList) (by decide)
  | semicolon => exact nice_ascii (l := "semicolon (;) is expected".toList) (by decide)
  | varOrder => exact nice_ascii (l := "variable declarations must be placed at the beginning of the module".toList) (by decide)
  | funcOrder =>
    exact nice_ascii (l := "procedure and function definitions should be placed before the module body statements".toList) (by decide)

theorem err_printable {e : Err} {t : List Char} (h : errText isPrint e = some t) : Nice isPrint t := by
  cases e with
  | lex e =>
    obtain ⟨u, hu, rfl⟩ := Option.map_eq_some_iff.1 h
    refine (nice_ascii (by decide)).append ?_
    cases e with
    | badChar c => injection hu with hu; rw [← hu]; exact (nice_ascii (by decide)).append (nice_quote _)
    | badNumber => cases hu
    | badDate => cases hu
    | _ => injection hu with hu; rw [← hu]; exact nice_ascii (by decide)
  | «at» m l c lit =>
    injection h with h
    rw [← h]
    exact (nice_msg m).append ((nice_ascii (by decide)).append ((nice_showInt l).append ((nice_ascii (by decide)).append
      ((nice_showInt c).append ((nice_ascii (by decide)).append ((nice_quote lit).append (nice_ascii (by decide))))))))

end ErrorText
end Verif
