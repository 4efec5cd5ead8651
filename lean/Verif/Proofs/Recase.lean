import Verif.Lexer
import Verif.Proofs.LexBasic
import Verif.Proofs.LexScan
import Verif.Proofs.ByteLexer
import Verif.Proofs.TextInv
import Verif.Spec.Rename
import Verif.Spec.Recase
/-!
# The tokeniser on a text in lower case

`low c` is `c` in lower case.  On the text in lower case every call gives the same token kind or error, and what is left and the
literal are those of the text itself in lower case.
-/
namespace Verif
namespace Recase
open Lexer

/-- A letter that has another case. -/
def cased (c : Char) : Prop :=
  (0x41 ≤ c.toNat ∧ c.toNat ≤ 0x5A) ∨ (0x61 ≤ c.toNat ∧ c.toNat ≤ 0x7A) ∨ (0x410 ≤ c.toNat ∧ c.toNat ≤ 0x44F) ∨
  c.toNat = 0x401 ∨ c.toNat = 0x451

instance (c : Char) : Decidable (cased c) := inferInstanceAs (Decidable (_ ∨ _))

/-- The character in lower case. -/
abbrev low (c : Char) : Char := ToLower.lowerRune c

theorem toNat_ofNat {n : Nat} (h : n < 0xD800) : (Char.ofNat n).toNat = n := by
  have hv : n.isValidChar := .inl (by omega)
  simp [Char.ofNat, hv, Char.ofNatAux, Char.toNat]

theorem low_of_not {c : Char} (h : ¬ cased c) : low c = c := by
  unfold cased at h
  unfold low ToLower.lowerRune
  dsimp only
  rw [if_neg (by omega), if_neg (by omega)]

theorem low_cased {c : Char} (h : cased c) : cased (low c) := by
  unfold cased at h ⊢
  unfold low ToLower.lowerRune
  dsimp only
  split
  · rw [toNat_ofNat (by omega)]; omega
  · split
    · rw [toNat_ofNat (by omega)]; omega
    · exact h

theorem low_eq_iff {c d : Char} (hd : ¬ cased d) : low c = d ↔ c = d := by
  constructor
  · intro h
    by_cases hc : cased c
    · exact absurd (h ▸ low_cased hc) hd
    · rwa [low_of_not hc] at h
  · rintro rfl; exact low_of_not hd

theorem low_low (c : Char) : low (low c) = low c := by
  by_cases hc : cased c
  · unfold low ToLower.lowerRune cased at *
    dsimp only
    by_cases h1 : 1040 ≤ c.toNat ∧ c.toNat ≤ 1071 ∨ 65 ≤ c.toNat ∧ c.toNat ≤ 90
    · rw [if_pos h1, toNat_ofNat (by omega), if_neg (by omega), if_neg (by omega)]
    · rw [if_neg h1]
      by_cases h2 : c.toNat = 1025
      · rw [if_pos h2, toNat_ofNat (by omega)]; rfl
      · rw [if_neg h2, if_neg h1, if_neg h2]
  · rw [low_of_not hc, low_of_not hc]

theorem beq_low {c d : Char} (hd : ¬ cased d) : (low c == d) = (c == d) := by
  rw [Bool.eq_iff_iff, beq_iff_eq, beq_iff_eq]; exact low_eq_iff hd

section
variable [Letters]

theorem isL_cased {c : Char} (h : cased c) : Letters.isL c = true := by
  unfold cased at h
  rcases h with h | h | h | h | h
  · rw [Letters.ascii c (by omega)]
    simp [Char.isAlpha, Char.isUpper, Char.isLower]
    left
    exact ⟨UInt32.le_iff_toNat_le.2 h.1, UInt32.le_iff_toNat_le.2 h.2⟩
  · rw [Letters.ascii c (by omega)]
    simp [Char.isAlpha, Char.isUpper, Char.isLower]
    right
    exact ⟨UInt32.le_iff_toNat_le.2 h.1, UInt32.le_iff_toNat_le.2 h.2⟩
  · exact Letters.rus c (.inl h)
  · exact Letters.rus c (.inr (.inl h))
  · exact Letters.rus c (.inr (.inr h))

theorem isLetter_low (c : Char) : isLetter (low c) = isLetter c := by
  by_cases hc : cased c
  · rw [isLetter, isLetter, isL_cased hc, isL_cased (low_cased hc)]; rfl
  · rw [low_of_not hc]

theorem not_cased {c : Char} (h : ¬ isLetter c = true) : ¬ cased c := by
  intro hc
  exact h (by rw [isLetter, isL_cased hc]; rfl)
end

theorem isDigit_low (c : Char) : isDigit (low c) = isDigit c := by
  by_cases hc : cased c
  · have : ∀ c, cased c → isDigit c = false := by
      intro c hc
      unfold cased at hc
      unfold isDigit
      rw [Bool.and_eq_false_iff]
      right
      rw [decide_eq_false_iff_not]
      intro h
      have : c.toNat ≤ 57 := UInt32.le_iff_toNat_le.1 h
      omega
    rw [this _ hc, this _ (low_cased hc)]
  · rw [low_of_not hc]

theorem isDigit_not_cased {c : Char} (h : isDigit c = true) : ¬ cased c := by
  intro hc
  unfold cased at hc
  unfold isDigit at h
  rw [Bool.and_eq_true, decide_eq_true_eq, decide_eq_true_eq] at h
  have : c.toNat ≤ 57 := UInt32.le_iff_toNat_le.1 h.2
  omega

theorem isSpace_low (c : Char) : isSpace (low c) = isSpace c := by
  unfold isSpace
  rw [beq_low (by decide), beq_low (by decide), beq_low (by decide), beq_low (by decide)]

theorem isPunct_low (c : Char) : isPunct (low c) = isPunct c := by
  unfold isPunct
  simp only [beq_low (d := '/') (by decide), beq_low (d := ';') (by decide), beq_low (d := '(') (by decide), beq_low (d := ')') (by decide),
    beq_low (d := ',') (by decide), beq_low (d := '-') (by decide), beq_low (d := '+') (by decide), beq_low (d := '*') (by decide),
    beq_low (d := '?') (by decide), beq_low (d := '[') (by decide), beq_low (d := ']') (by decide), beq_low (d := ':') (by decide),
    beq_low (d := '%') (by decide)]

/-- The text in lower case. -/
abbrev lows (s : List Char) : List Char := s.map low

theorem lows_lows (s : List Char) : lows (lows s) = lows s := by
  unfold lows
  rw [List.map_map]
  exact List.map_congr_left fun c _ => low_low c

theorem lows_eq {s : List Char} (h : ∀ c ∈ s, ¬ cased c) : lows s = s := by
  have e : lows s = s.map id := List.map_congr_left fun c hc => low_of_not (h c hc)
  rw [e, List.map_id]

/-! ## Skips -/

theorem skipSpace_low : ∀ s, skipSpace (lows s) = lows (skipSpace s)
  | [] => rfl
  | c :: r => by
    show (if isSpace (low c) then skipSpace (lows r) else low c :: lows r) = lows (if isSpace c then skipSpace r else c :: r)
    rw [isSpace_low]
    split
    · exact skipSpace_low r
    · rfl

theorem skipLine_low : ∀ s, skipLine (lows s) = lows (skipLine s)
  | [] => rfl
  | c :: r => by
    show (if low c = '\n' then low c :: lows r else skipLine (lows r)) = lows (if c = '\n' then c :: r else skipLine r)
    by_cases h : c = '\n'
    · rw [if_pos h, if_pos ((low_eq_iff (by decide)).2 h)]; rfl
    · rw [if_neg h, if_neg (mt (low_eq_iff (by decide)).1 h)]; exact skipLine_low r


theorem head_low {s : List Char} {d : Char} (hd : ¬ cased d) : (∃ r, lows s = d :: r) ↔ ∃ r, s = d :: r := by
  cases s with
  | nil => simp [lows]
  | cons c r =>
    constructor
    · rintro ⟨r', h⟩
      injection h with h _
      exact ⟨r, by rw [(low_eq_iff hd).1 h]⟩
    · rintro ⟨r', h⟩
      injection h with h _
      exact ⟨lows r, by rw [h]; show low d :: _ = _; rw [low_of_not hd]⟩

theorem head?_low {s : List Char} {d : Char} (hd : ¬ cased d) : (lows s).head? = some d ↔ s.head? = some d := by
  cases s with
  | nil => simp [lows]
  | cons c r =>
    show some (low c) = some d ↔ some c = some d
    rw [Option.some_inj, Option.some_inj]; exact low_eq_iff hd

theorem skipF_low (n : Nat) : ∀ s, skipCommentF n (lows s) = lows (skipCommentF n s) ∧
    skipRegionsF n (lows s) = lows (skipRegionsF n s) := by
  induction n with
  | zero => intro s; constructor <;> simp [skipCommentF, skipRegionsF]
  | succ n ih =>
    have hd : ∀ s, dispatchF n (lows s) = lows (dispatchF n s) := by
      intro s
      cases s with
      | nil => rfl
      | cons c r =>
        by_cases h1 : c = '/'
        · subst h1; exact (ih ('/' :: r)).1
        · by_cases h2 : c = '#'
          · subst h2; exact (ih ('#' :: r)).2
          · have h1' := mt (low_eq_iff (c := c) (d := '/') (by decide)).1 h1
            have h2' := mt (low_eq_iff (c := c) (d := '#') (by decide)).1 h2
            have e : ∀ (c : Char) r, c ≠ '/' → c ≠ '#' → dispatchF n (c :: r) = c :: r := by
              intro c r h1 h2
              unfold dispatchF
              split
              · rename_i h; injection h with h _; exact absurd h h1
              · rename_i h; injection h with h _; exact absurd h h2
              · rfl
            rw [e c r h1 h2]
            exact e _ _ h1' h2'
    intro s
    constructor
    · by_cases h : ∃ r, s = '/' :: '/' :: r
      · obtain ⟨r, rfl⟩ := h
        rw [skipCommentF_slash]
        show skipCommentF (n + 1) ('/' :: '/' :: lows r) = _
        rw [skipCommentF_slash, skipLine_low, skipSpace_low, hd]
      · rw [skipCommentF_other _ (fun r e => h ⟨r, e⟩), skipCommentF_other]
        intro r e
        apply h
        cases s with
        | nil => cases e
        | cons c s =>
          cases s with
          | nil => injection e with _ e; cases e
          | cons d s =>
            injection e with e1 e
            injection e with e2 e
            exact ⟨s, by rw [(low_eq_iff (by decide)).1 e1, (low_eq_iff (by decide)).1 e2]⟩
    · by_cases h : ∃ r, s = '#' :: r
      · obtain ⟨r, rfl⟩ := h
        rw [skipRegionsF_hash]
        show skipRegionsF (n + 1) ('#' :: lows r) = _
        rw [skipRegionsF_hash, skipLine_low, skipSpace_low, hd]
      · rw [skipRegionsF_other _ (fun r e => h ⟨r, e⟩), skipRegionsF_other, hd]
        intro r e
        exact h ((head_low (by decide)).1 ⟨r, e⟩)

theorem skipComment_low (s : List Char) : skipComment (lows s) = lows (skipComment s) := by
  unfold skipComment
  rw [(skipF_low _ s).1, List.length_map]

theorem skipRegions_low (s : List Char) : skipRegions (lows s) = lows (skipRegions s) := by
  unfold skipRegions
  rw [(skipF_low _ s).2, List.length_map]

theorem skipTrivia_low (s : List Char) : skipTrivia (lows s) = lows (skipTrivia s) := by
  unfold skipTrivia
  rw [skipSpace_low, skipComment_low, skipRegions_low]

/-! ## Scans -/

theorem takeWhile_low {p : Char → Bool} (hp : ∀ c, p (low c) = p c) (s : List Char) :
    (lows s).takeWhile p = lows (s.takeWhile p) := by
  rw [List.takeWhile_map]
  congr 1
  congr 1
  funext c
  exact hp c

theorem dropWhile_low {p : Char → Bool} (hp : ∀ c, p (low c) = p c) (s : List Char) :
    (lows s).dropWhile p = lows (s.dropWhile p) := by
  rw [List.dropWhile_map]
  congr 1
  congr 1
  funext c
  exact hp c

/-- A scan in lower case. -/
def lowR (x : Except LexErr (List Char) × List Char) : Except LexErr (List Char) × List Char := (x.1.map lows, lows x.2)

theorem addLit_low (p : List Char) (x : Except LexErr (List Char) × List Char) : addLit (lows p) (lowR x) = lowR (addLit p x) := by
  obtain ⟨e | l, r⟩ := x
  · rfl
  · show (Except.ok (lows p ++ lows l), _) = (Except.ok (lows (p ++ l)), _)
    rw [show lows (p ++ l) = lows p ++ lows l from List.map_append]
    rfl

theorem scanStringF_low {q : Char} (hq : ¬ cased q) (n : Nat) : ∀ s, scanStringF q n (lows s) = lowR (scanStringF q n s) := by
  induction n with
  | zero => intro s; rfl
  | succ n ih =>
    intro s
    have et : (lows s).tail = lows s.tail := by cases s <;> rfl
    unfold scanStringF
    rw [et]
    cases s.tail with
    | nil => rfl
    | cons c r =>
      dsimp only
      show (if low c = '\n' then _ else if low c = q then _ else addLit [low c] (scanStringF q n (lows (c :: r)))) = _
      by_cases h1 : c = '\n'
      · rw [if_pos ((low_eq_iff (by decide)).2 h1), if_pos h1, skipSpace_low, skipComment_low]
        cases skipComment (skipSpace r) with
        | nil => rfl
        | cons d r' =>
          show (if low d ≠ '|' ∧ (!isSpace (low d)) = true then _ else addLit ['\n', low d] (scanStringF q n (lows (d :: r')))) = _
          rw [isSpace_low]
          by_cases h2 : d ≠ '|' ∧ (!isSpace d) = true
          · rw [if_pos ⟨mt (low_eq_iff (by decide)).1 h2.1, h2.2⟩]
            dsimp only
            rw [if_pos h2]; rfl
          · rw [if_neg (by rintro ⟨a, b⟩; exact h2 ⟨mt (low_eq_iff (by decide)).2 a, b⟩)]
            dsimp only
            rw [if_neg h2, ih]
            exact addLit_low ['\n', d] _
      · rw [if_neg (mt (low_eq_iff (by decide)).1 h1), if_neg h1]
        by_cases h2 : c = q
        · rw [if_pos ((low_eq_iff hq).2 h2), if_pos h2]
          by_cases h3 : r.head? = some '"'
          · rw [if_pos ((head?_low (by decide)).2 h3), if_pos h3, ih]
            exact addLit_low ['"', '"'] _
          · rw [if_neg (mt (head?_low (by decide)).1 h3), if_neg h3]
            rw [skipSpace_low]
            by_cases h4 : (skipSpace r).head? = some '"'
            · rw [if_pos ((head?_low (by decide)).2 h4), if_pos h4, ih]
            · rw [if_neg (mt (head?_low (by decide)).1 h4), if_neg h4]; rfl
        · rw [if_neg (mt (low_eq_iff hq).1 h2), if_neg h2, ih]
          exact addLit_low [c] _

theorem scanString_low {q : Char} (hq : ¬ cased q) (s : List Char) : scanString q (lows s) = lowR (scanString q s) := by
  unfold scanString
  rw [scanStringF_low hq, List.length_map]

theorem extractDigits_low (s : List Char) : extractDigits (lows s) = extractDigits s := by
  unfold extractDigits
  induction s with
  | nil => rfl
  | cons c s ih =>
    show List.filter isDigit (low c :: lows s) = _
    by_cases h : isDigit c = true
    · rw [List.filter_cons_of_pos (by rw [isDigit_low]; exact h), List.filter_cons_of_pos h, ih, low_of_not (isDigit_not_cased h)]
    · rw [List.filter_cons_of_neg (by rw [isDigit_low]; exact h), List.filter_cons_of_neg h, ih]

theorem numChar_low (c : Char) : (isDigit (low c) || low c == '.') = (isDigit c || c == '.') := by
  rw [isDigit_low, beq_low (by decide)]

theorem numChar_not_cased {c : Char} (h : (isDigit c || c == '.') = true) : ¬ cased c := by
  rw [Bool.or_eq_true, beq_iff_eq] at h
  rcases h with h | rfl
  · exact isDigit_not_cased h
  · decide

theorem lower_lows (s : List Char) : lower (lows s) = lower s := lows_lows s

section
variable [Letters]

theorem isWordChar_low (c : Char) : isWordChar (low c) = isWordChar c := by
  unfold isWordChar
  rw [isLetter_low, isDigit_low]

theorem scanIdentifier_low (s : List Char) :
    scanIdentifier (lows s) = (lows (scanIdentifier s).1, lows (scanIdentifier s).2) := by
  unfold scanIdentifier
  rw [takeWhile_low isWordChar_low, dropWhile_low isWordChar_low]

theorem scanNumber_low (s : List Char) : scanNumber (lows s) = ((scanNumber s).1, lows (scanNumber s).2) := by
  have ht : lows (s.takeWhile fun c => isDigit c || c == '.') = s.takeWhile fun c => isDigit c || c == '.' :=
    lows_eq fun c hc => numChar_not_cased (List.all_eq_true.1 List.all_takeWhile c hc)
  unfold scanNumber
  dsimp only
  rw [takeWhile_low (p := fun c => isDigit c || c == '.') numChar_low, dropWhile_low (p := fun c => isDigit c || c == '.') numChar_low, ht]
  cases List.dropWhile (fun c => isDigit c || c == '.') s with
  | nil => rfl
  | cons c r =>
    show (if isLetter (low c) = true then _ else _) = _
    rw [isLetter_low]
    dsimp only
    split <;> rfl

/-- A token in lower case. -/
def lowRaw (x : Raw) : Raw := ⟨x.res, lows x.literal, lows x.rest⟩

theorem lexWord_low (d : Bool) (s : List Char) : lexWord d (lows s) = lowRaw (lexWord d s) := by
  unfold lexWord
  dsimp only
  rw [scanIdentifier_low, lower_lows]
  rfl

theorem lexNumber_low (s : List Char) : lexNumber (lows s) = lowRaw (lexNumber s) ∧
    ((lexNumber s).res = .ok (some tNumber) → lows (lexNumber s).literal = (lexNumber s).literal) := by
  have ht : lows (s.takeWhile fun c => isDigit c || c == '.') = s.takeWhile fun c => isDigit c || c == '.' :=
    lows_eq fun c hc => numChar_not_cased (List.all_eq_true.1 List.all_takeWhile c hc)
  have hl : ∀ l r, scanNumber s = (.ok l, r) → lows l = l := by
    intro l r h
    unfold scanNumber at h
    dsimp only at h
    split at h
    · split at h
      · cases h
      · injection h with h _; injection h with h; rw [← h]; exact ht
    · injection h with h _; injection h with h; rw [← h]; exact ht
  unfold lexNumber
  rw [scanNumber_low]
  revert hl
  generalize scanNumber s = x
  intro hl
  obtain ⟨e | l, r⟩ := x
  · exact ⟨rfl, fun h => nomatch h⟩
  · have := hl l r rfl
    refine ⟨?_, fun _ => this⟩
    show Raw.mk _ l (lows r) = Raw.mk _ (lows l) (lows r)
    rw [this]

omit [Letters] in
theorem lexDate_low (s : List Char) : lexDate (lows s) = lowRaw (lexDate s) ∧
    ((lexDate s).res = .ok (some tDate) → lows (lexDate s).literal = (lexDate s).literal) := by
  unfold lexDate
  rw [scanString_low (by decide)]
  generalize scanString '\'' s = x
  obtain ⟨e | l, r⟩ := x
  · exact ⟨rfl, fun h => nomatch h⟩
  · have hx : lows (extractDigits l) = extractDigits l := by
      refine lows_eq fun c hc => isDigit_not_cased ?_
      exact (List.mem_filter.1 hc).2
    show (if extractDigits (lows l) = [] then _ else _) = _ ∧ _
    rw [extractDigits_low]
    dsimp only
    by_cases h : extractDigits l = []
    · rw [if_pos h, if_pos h]; exact ⟨rfl, fun h => nomatch h⟩
    · rw [if_neg h, if_neg h]
      refine ⟨?_, fun _ => hx⟩
      show Raw.mk _ _ _ = Raw.mk _ (lows (extractDigits l)) _
      rw [hx]

omit [Letters] in
theorem lexString_low (s : List Char) : lexString (lows s) = lowRaw (lexString s) := by
  unfold lexString
  rw [scanString_low (by decide)]
  generalize scanString '"' s = x
  obtain ⟨e | l, r⟩ := x <;> rfl

omit [Letters] in
theorem lexLess_low (s : List Char) : lexLess (lows s) = lowRaw (lexLess s) := by
  have e : ∀ s, (∀ r, s ≠ '>' :: r) → (∀ r, s ≠ '=' :: r) → lexLess s = ⟨.ok (some '<'.toNat), ['<'], s⟩ := by
    intro s h1 h2
    unfold lexLess
    split
    · exact absurd rfl (h1 _)
    · exact absurd rfl (h2 _)
    · rfl
  by_cases h1 : ∃ r, s = '>' :: r
  · obtain ⟨r, rfl⟩ := h1; rfl
  · by_cases h2 : ∃ r, s = '=' :: r
    · obtain ⟨r, rfl⟩ := h2; rfl
    · rw [e s (fun r h => h1 ⟨r, h⟩) (fun r h => h2 ⟨r, h⟩),
        e (lows s) (fun r h => h1 ((head_low (by decide)).1 ⟨r, h⟩)) (fun r h => h2 ((head_low (by decide)).1 ⟨r, h⟩))]
      rfl

omit [Letters] in
theorem lexGreater_low (s : List Char) : lexGreater (lows s) = lowRaw (lexGreater s) := by
  have e : ∀ s, (∀ r, s ≠ '=' :: r) → lexGreater s = ⟨.ok (some '>'.toNat), ['>'], s⟩ := by
    intro s h2
    unfold lexGreater
    split
    · exact absurd rfl (h2 _)
    · rfl
  by_cases h2 : ∃ r, s = '=' :: r
  · obtain ⟨r, rfl⟩ := h2; rfl
  · rw [e s (fun r h => h2 ⟨r, h⟩), e (lows s) (fun r h => h2 ((head_low (by decide)).1 ⟨r, h⟩))]
    rfl

theorem lexDirective_low (s : List Char) : lexDirective (lows s) = lowRaw (lexDirective s) := by
  unfold lexDirective
  dsimp only
  rw [scanIdentifier_low]
  have e : lower ('&' :: lows (scanIdentifier s).1) = lower ('&' :: (scanIdentifier s).1) := lower_lows ('&' :: (scanIdentifier s).1)
  rw [e]
  cases directives.lookup (lower ('&' :: (scanIdentifier s).1)) <;> rfl

theorem lexLabel_low (s : List Char) : lexLabel (lows s) = lowRaw (lexLabel s) := by
  unfold lexLabel
  rw [scanIdentifier_low]
  rfl

theorem nextRaw_low (d : Bool) (s : List Char) : nextRaw d (lows s) = lowRaw (nextRaw d s) := by
  cases s with
  | nil => rfl
  | cons c r =>
    unfold nextRaw
    show (if isLetter (low c) = true then lexWord d (lows (c :: r))
      else if low c = '.' then ⟨.ok (some '.'.toNat), ['.'], lows r⟩
      else if isDigit (low c) = true then lexNumber (lows (c :: r))
      else if low c = '\'' then lexDate (lows (c :: r))
      else if isPunct (low c) = true then ⟨.ok (some (low c).toNat), [low c], lows r⟩
      else if low c = '=' then ⟨.ok (some tEQUAL), [low c], lows r⟩
      else if low c = '"' then lexString (lows (c :: r))
      else if low c = '<' then lexLess (lows r)
      else if low c = '>' then lexGreater (lows r)
      else if low c = '&' then lexDirective (lows r)
      else if low c = '~' then lexLabel (lows r)
      else ⟨.error (.badChar (low c)), [low c], lows r⟩) = _
    by_cases h1 : isLetter c = true
    · rw [if_pos (by rw [isLetter_low]; exact h1), lexWord_low]
      dsimp only
      rw [if_pos h1]
    · have ec : low c = c := low_of_not (not_cased h1)
      rw [lexNumber_low _ |>.1, lexDate_low _ |>.1, lexString_low, lexLess_low, lexGreater_low, lexDirective_low, lexLabel_low, ec]
      dsimp only
      rw [if_neg h1, if_neg h1]
      repeat' (split; · first | rfl | (show Raw.mk _ [c] _ = Raw.mk _ [low c] _; rw [ec]))
      show Raw.mk _ [c] _ = Raw.mk _ [low c] _
      rw [ec]

theorem nextRaw_number {d : Bool} {s : List Char} {k : Nat} (h : (nextRaw d s).res = .ok (some k)) (hk : k = tNumber ∨ k = tDate) :
    lows (nextRaw d s).literal = (nextRaw d s).literal := by
  rcases hk with rfl | rfl
  · exact lows_eq fun c hc => numChar_not_cased (List.all_eq_true.1 (ByteLexer.number_literal h) c hc)
  · cases s with
    | nil => cases h
    | cons c r =>
      obtain rfl := nextRaw_date_kind h
      have e : nextRaw d ('\'' :: r) = lexDate ('\'' :: r) := by
        unfold nextRaw
        dsimp only
        rw [if_neg, if_neg (by decide), if_neg (by decide), if_pos rfl]
        rw [isLetter_ascii_false (by decide) (by decide) (by decide)]
        decide
      rw [e] at h ⊢
      exact (lexDate_low _).2 h

/-- A value in lower case. -/
def lowV : Val → Val
  | .str s => .str (lows s)
  | v => v

/-- A token state in lower case. -/
def lowT (t : Tok) : Tok := ⟨lows t.literal, lowV t.value, lows t.rest, t.prevDot⟩

omit [Letters] in
theorem valueOf_low {k : Nat} {l : List Char} (old : Val) (h : k = tNumber ∨ k = tDate → lows l = l) :
    valueOf k (lows l) (lowV old) = (valueOf k l old).map lowV := by
  unfold valueOf
  by_cases h1 : k = tNumber
  · rw [if_pos h1, if_pos h1, h (.inl h1)]
    cases F64.parseFloat l <;> rfl
  · rw [if_neg h1, if_neg h1]
    by_cases h2 : k = tString
    · rw [if_pos h2, if_pos h2]; rfl
    · rw [if_neg h2, if_neg h2]
      by_cases h3 : k = tDate
      · rw [if_pos h3, if_pos h3, h (.inr h3)]
        split
        · rfl
        · repeat' (split; · rfl)
          rfl
      · rw [if_neg h3, if_neg h3]
        repeat' (split; · rfl)
        rfl

omit [Letters] in
theorem failed_low {e : LexErr} (old : Val) (h : ∀ c, e = .badChar c → low c = c) :
    failed (lowV old) e = (lowV (failed old e).1, (failed old e).2) := by
  cases e with
  | badChar c =>
    have ec := h c rfl
    unfold failed
    dsimp only
    have := valueOf_low (k := c.toNat) (l := [c]) old (fun _ => by show [low c] = [c]; rw [ec])
    rw [show lows [c] = [c] by show [low c] = [c]; rw [ec]] at this
    rw [this]
    split
    · rfl
    · cases valueOf c.toNat [c] old <;> rfl
  | _ => rfl

theorem nextRaw_bad {d : Bool} {s : List Char} {c : Char} (h : (nextRaw d s).res = .error (.badChar c)) : low c = c := by
  cases s with
  | nil => cases h
  | cons x r =>
    unfold nextRaw at h
    dsimp only at h
    by_cases h1 : isLetter x = true
    · rw [if_pos h1] at h; cases h
    rw [if_neg h1] at h
    split at h; · cases h
    split at h
    · unfold lexNumber scanNumber at h
      dsimp only at h
      split at h
      · rename_i h2
        split at h2
        · split at h2
          · cases h2; cases h
          · cases h2
        · cases h2
      · cases h
    split at h
    · unfold lexDate at h
      split at h
      · rename_i h2
        injection h with h
        exact absurd h (ByteLexer.scanString_not_bad (by rw [h2]) c)
      · split at h <;> cases h
    split at h; · cases h
    split at h; · cases h
    split at h
    · unfold lexString at h
      split at h
      · rename_i h2
        injection h with h
        exact absurd h (ByteLexer.scanString_not_bad (by rw [h2]) c)
      · cases h
    split at h
    · unfold lexLess at h; split at h <;> cases h
    split at h
    · unfold lexGreater at h; split at h <;> cases h
    split at h
    · unfold lexDirective at h
      dsimp only at h
      split at h
      · cases h
      · injection h with h; injection h with h; rw [← h]; decide
    split at h; · cases h
    injection h with h; injection h with h
    rw [← h]
    exact low_of_not (not_cased h1)

theorem lexNext_low (t : Tok) : lexNext (lowT t) = (lowT (lexNext t).1, (lexNext t).2) := by
  have hn := @nextRaw_number _ t.prevDot (skipTrivia t.rest)
  have hb := @nextRaw_bad _ t.prevDot (skipTrivia t.rest)
  unfold lexNext
  dsimp only
  show finish (lowT t) (!t.prevDot && (skipTrivia (lows t.rest)).head? == some '.') (nextRaw t.prevDot (skipTrivia (lows t.rest))) = _
  rw [skipTrivia_low, nextRaw_low]
  have ed : ((lows (skipTrivia t.rest)).head? == some '.') = ((skipTrivia t.rest).head? == some '.') := by
    rw [Bool.eq_iff_iff, beq_iff_eq, beq_iff_eq]; exact head?_low (by decide)
  rw [ed]
  generalize (!t.prevDot && (skipTrivia t.rest).head? == some '.') = dot
  revert hn hb
  generalize nextRaw t.prevDot (skipTrivia t.rest) = raw
  intro hn hb
  obtain ⟨res, lit, rest⟩ := raw
  dsimp only at hn hb
  unfold finish lowRaw
  dsimp only
  cases res with
  | error e =>
    have := failed_low t.value (e := e) (fun c hc => hb (by rw [hc]))
    dsimp only
    rw [show (lowT t).value = lowV t.value from rfl, this]
    rfl
  | ok k =>
    cases k with
    | none => rfl
    | some k =>
      have := valueOf_low (k := k) (l := lit) t.value (fun h => hn rfl h)
      dsimp only
      rw [show (lowT t).value = lowV t.value from rfl, this]
      cases valueOf k lit t.value <;> rfl

theorem afterCalls_low (n : Nat) : ∀ t : Tok, Spec.afterCalls n (lowT t) = lowT (Spec.afterCalls n t) := by
  induction n with
  | zero => intro t; rfl
  | succ n ih =>
    intro t
    show Spec.afterCalls n (lexNext (lowT t)).1 = lowT (Spec.afterCalls n (lexNext t).1)
    rw [lexNext_low, ih]

end

/-! ## One keyword -/

open Spec LR

theorem sameButCase_iff {s s' : List Char} : SameButCase s s' ↔ lows s = lows s' := by
  unfold SameButCase lows
  have e : (fun c => low c) = lowerChar := funext lowerRune_eq
  have : ∀ s : List Char, s.map low = s.map lowerChar := fun s => by rw [← e]
  rw [this, this]

theorem _root_.Verif.Spec.SameButCase.refl (s : List Char) : SameButCase s s := rfl

theorem _root_.Verif.Spec.SameButCase.symm {s s' : List Char} (h : SameButCase s s') : SameButCase s' s := Eq.symm h

theorem _root_.Verif.Spec.SameButCase.append {s s' r r' : List Char} (h : SameButCase s s') (h' : SameButCase r r') : SameButCase (s ++ r) (s' ++ r') := by
  unfold SameButCase at *
  rw [List.map_append, List.map_append, h, h']

theorem _root_.Verif.Spec.SameButCase.cons_inv {c : Char} {r s : List Char} (h : SameButCase (c :: r) s) :
    ∃ d r', s = d :: r' ∧ low c = low d ∧ SameButCase r r' := by
  rw [sameButCase_iff] at h
  cases s with
  | nil => cases h
  | cons d r' =>
    injection h with h1 h2
    exact ⟨d, r', rfl, h1, sameButCase_iff.2 h2⟩

theorem low_fixed {c d : Char} (h : low c = low d) (hd : ¬ cased d) : c = d := by
  rw [low_of_not hd] at h
  exact (low_eq_iff hd).1 h

section
variable [Letters]

theorem isLetter_same {c d : Char} (h : low c = low d) : isLetter c = isLetter d := by
  rw [← isLetter_low c, h, isLetter_low]

theorem wordStart_same {c d : Char} (h : low c = low d) : WordStart c ↔ WordStart d := by
  rw [← isLetter_iff, ← isLetter_iff, isLetter_same h]

omit [Letters] in
theorem digit_same {c d : Char} (h : low c = low d) : Digit c ↔ Digit d := by
  rw [← isDigit_iff, ← isDigit_iff, ← isDigit_low c, h, isDigit_low]

theorem wordPart_same {c d : Char} (h : low c = low d) : WordPart c ↔ WordPart d := by
  unfold WordPart
  rw [wordStart_same h, digit_same h]

theorem word_same {w w' : List Char} (h : SameButCase w w') (hw : Word w) : Word w' := by
  cases hw with
  | @mk c w h1 h2 =>
    obtain ⟨d, r', rfl, hc, hr⟩ := h.cons_inv
    refine .mk ((wordStart_same hc).1 h1) ?_
    clear h h1 hc
    induction w generalizing r' with
    | nil =>
      cases r' with
      | nil => intro d hd; cases hd
      | cons _ _ => cases hr
    | cons x w ih =>
      obtain ⟨y, r2, rfl, hy, hr2⟩ := hr.cons_inv
      intro e he
      rcases List.mem_cons.1 he with rfl | he
      · exact (wordPart_same hy).1 (h2 x (by simp))
      · exact ih (fun d hd => h2 d (by simp [hd])) _ hr2 e he

omit [Letters] in
theorem kindOf_same {w w' : List Char} (h : SameButCase w w') {k : Nat} (hk : KindOf w k) : KindOf w' k := by
  cases hk with
  | keyword hk => exact .keyword (by rw [← show w.map lowerChar = w'.map lowerChar from h]; exact hk)
  | ident hk => exact .ident (by rw [← show w.map lowerChar = w'.map lowerChar from h]; exact hk)

theorem wordEnds_same {r r' : List Char} (h : SameButCase r r') (hr : WordEnds r) : WordEnds r' := by
  rintro c s rfl
  obtain ⟨d, s', rfl, hc, -⟩ := h.symm.cons_inv
  exact mt (wordPart_same hc).1 (hr d s' rfl)

theorem numberEnds_same {r r' : List Char} (h : SameButCase r r') (hr : NumberEnds r) : NumberEnds r' := by
  rintro c s rfl
  obtain ⟨d, s', rfl, hc, -⟩ := h.symm.cons_inv
  have := hr d s' rfl
  rintro (h1 | h1 | h1)
  · exact this (.inl ((digit_same hc).1 h1))
  · exact this (.inr (.inl (low_fixed hc.symm (by rw [h1]; decide) |>.trans h1)))
  · exact this (.inr (.inr ((wordStart_same hc).1 h1)))

omit [Letters] in
theorem notNext_same {x : Char} (hx : ¬ cased x) {r r' : List Char} (h : SameButCase r r') (hr : NotNext x r) : NotNext x r' := by
  rintro s rfl
  obtain ⟨d, s', rfl, hc, -⟩ := h.symm.cons_inv
  exact hr s' (by rw [low_fixed hc.symm hx])

omit [Letters] in
theorem blank_same {c d : Char} (h : low c = low d) (hc : Blank c) : d = c := by
  refine low_fixed h.symm ?_
  rcases hc with rfl | rfl | rfl | rfl <;> decide

omit [Letters] in
theorem noQuote_same {r r' : List Char} (h : SameButCase r r') (hr : NoQuoteNext r) : NoQuoteNext r' := by
  rintro b s rfl hb s' rfl
  induction b generalizing r with
  | nil =>
    obtain ⟨d, s2, rfl, hc, -⟩ := h.symm.cons_inv
    exact hr [] _ rfl (by simp) s2 (by rw [low_fixed hc.symm (by decide)])
  | cons x b ih =>
    obtain ⟨d, s2, rfl, hc, h2⟩ := h.symm.cons_inv
    obtain rfl := blank_same hc (hb x (by simp))
    refine ih (fun b' s3 e hb' s4 e4 => ?_) (fun c hc => hb c (List.mem_cons_of_mem _ hc)) h2.symm
    exact hr (d :: b') s3 (by rw [e]; rfl) (by
      intro c hc
      rcases List.mem_cons.1 hc with rfl | hc
      · exact hb _ (by simp)
      · exact hb' c hc) s4 e4

/-- What must follow a token does not depend on letter case. -/
theorem follow_same {dot : Bool} {w : List Char} {k : Key} {F : List Char → Prop} (hw : Lexeme dot w k F) {r r' : List Char}
    (h : SameButCase r r') (hr : F r) : F r' := by
  cases hw with
  | name | keyword | tru | fls | exec | directive | label => exact wordEnds_same h hr
  | mark _ => intro e; exact notNext_same (by decide) h (hr e)
  | ne | le | ge => trivial
  | lt => exact ⟨notNext_same (by decide) h hr.1, notNext_same (by decide) h hr.2⟩
  | gt => exact notNext_same (by decide) h hr
  | number _ _ => exact numberEnds_same h hr
  | string _ => exact noQuote_same h hr
  | date _ _ => exact noQuote_same h hr

omit [Letters] in
theorem plainKeyword_ne {k : Nat} (h : PlainKeyword k) :
    k ≠ identNumber ∧ k ∉ [Terminal.kExecute, .kNeEQ, .kLE, .kGE, .lt, .gt, .kNumber, .kString, .kDate, .kDirective, .kGoToLabel].map Terminal.kind ∧
      ∀ m ∈ marks, k ≠ m.2.kind := by
  have hall : ∀ p ∈ keywordTable, p.2 = 57390 ∨ (p.2 ≠ identNumber ∧
      p.2 ∉ [Terminal.kExecute, .kNeEQ, .kLE, .kGE, .lt, .gt, .kNumber, .kString, .kDate, .kDirective, .kGoToLabel].map Terminal.kind ∧
      ∀ m ∈ marks, p.2 ≠ m.2.kind) := by decide +kernel
  obtain ⟨⟨w, hw⟩, hx⟩ := h
  rcases hall _ hw with h | h
  · dsimp only at h
    exact absurd (by rw [h]; decide) hx
  · exact h

/-- A keyword in another case is the same token. -/
theorem keyword_lexeme {dot : Bool} {w w' : List Char} {K : Key} {F : List Char → Prop} (h : Lexeme dot w K F) (hk : PlainKeyword K.kind)
    (hw' : Word w') (hkind : KindOf w' K.kind) : Lexeme dot w' K WordEnds := by
  obtain ⟨h1, h2, h3⟩ := plainKeyword_ne hk
  cases h with
  | name _ _ => exact absurd rfl h1
  | keyword _ _ ht => exact .keyword hw' hkind ht
  | tru _ _ => exact .tru hw' hkind
  | fls _ _ => exact .fls hw' hkind
  | exec | directive | label | number _ _ | string _ | date _ _ | ne | le | ge | lt | gt => exact absurd (by simp [named, literal, word]) h2
  | mark hm => exact absurd rfl (h3 _ hm)

theorem afterCalls_rest (n : Nat) : ∀ t : Tok, (afterCalls n t).rest <:+ t.rest := by
  induction n with
  | zero => intro t; exact List.suffix_refl _
  | succ n ih => intro t; exact (ih _).trans (lexNext_suffix t)

/-- One keyword in another case: the text has the same tokens. -/
theorem recase_one {n : Nat} {t : Tok} {l : List (Nat × Tok)} (ht : Tokens t l) {k : Nat} {t' : Tok}
    (hn : lexNext (afterCalls n t) = (t', .ok (some k))) (hk : PlainKeyword k) {p w' : List Char}
    (hp : t.rest = p ++ (t'.literal ++ t'.rest)) (hw : SameButCase t'.literal w') :
    Written t.prevDot (p ++ (w' ++ t'.rest)) (l.map key) := by
  induction n generalizing t l p with
  | zero =>
    change lexNext t = (t', .ok (some k)) at hn
    cases ht with
    | eof h => rw [hn] at h; cases h
    | @next _ t1 k1 l1 h1 h2 =>
      rw [hn] at h1
      injection h1 with e1 e2
      injection e2 with e2
      injection e2 with e2
      subst e1 e2
      obtain ⟨v, hv⟩ := hk.1
      obtain ⟨l0, w, r, g1, g2, g3, g4⟩ := lexNext_word_inv (by rw [hn]) (.inr ⟨v, hv⟩)
      obtain ⟨g5, g6, g7, -⟩ := lexNext_word t g2 g3 g4 g1
      rw [hn] at g5 g6 g7
      dsimp only at g5 g6 g7
      subst g6 g7
      obtain ⟨⟨w0, F, hF⟩, hd⟩ := key_lexeme hn
      have hpl : p = l0 := by
        rw [g1, List.append_assoc] at hp
        exact (List.append_cancel_right hp).symm
      subst hpl
      have hlex : Lexeme t.prevDot w' (key (k, t')) WordEnds := by
        refine keyword_lexeme hF (by rw [key_kind]; exact hk) (word_same hw g3) (kindOf_same hw ?_)
        rw [key_kind]
        injection g5 with g5
        injection g5 with g5
        cases hdot : t.prevDot with
        | true =>
          rw [hdot, wordKind_true] at g5
          exact absurd g5 (plainKeyword_ne hk).1
        | false =>
          rw [hdot] at g5
          show KindOf _ k
          rw [g5]
          exact wordKind_spec _
      refine .next g2 hlex ?_ (hd ▸ tokens_written h2)
      exact g4
  | succ n ih =>
    cases ht with
    | eof h =>
      have hr : (lexNext t).1.rest = [] := by rw [lexNext_rest, (lexNext_eof_iff t).1 h]; rfl
      have h0 : (afterCalls (n + 1) t).rest = [] := by
        have := afterCalls_rest n (lexNext t).1
        rw [hr] at this
        exact List.suffix_nil.1 this
      obtain ⟨v, hv⟩ := hk.1
      obtain ⟨l0, w, r, g1, g2, g3, g4⟩ := lexNext_word_inv (t := afterCalls (n + 1) t) (by rw [hn]) (.inr ⟨v, hv⟩)
      rw [h0] at g1
      cases g3
      simp at g1
    | @next _ t1 k1 l1 h1 h2 =>
      obtain ⟨l3, w3, r3, b3, F3, q1, q2, q3, q4, q5, q6⟩ := lexNext_split h1
      obtain ⟨-, hd⟩ := key_lexeme h1
      have hn1 : lexNext (afterCalls n t1) = (t', .ok (some k)) := by
        have : afterCalls (n + 1) t = afterCalls n t1 := by show afterCalls n (lexNext t).1 = _; rw [h1]
        rwa [this] at hn
      obtain ⟨p0, hp0⟩ := afterCalls_rest n t1
      obtain ⟨v, hv⟩ := hk.1
      obtain ⟨l0, w, r, g1, g2, g3, g4⟩ := lexNext_word_inv (t := afterCalls n t1) (by rw [hn1]) (.inr ⟨v, hv⟩)
      obtain ⟨g5, g6, g7, -⟩ := lexNext_word _ g2 g3 g4 g1
      rw [hn1] at g6 g7
      dsimp only at g6 g7
      have e1 : t1.rest = (p0 ++ l0) ++ (t'.literal ++ t'.rest) := by
        rw [← hp0, g1, g6, g7]; simp only [List.append_assoc]
      have := ih h2 hn1 e1
      have ep : p = l3 ++ (w3 ++ (b3 ++ (p0 ++ l0))) := by
        rw [q1, q5, e1] at hp
        simp only [← List.append_assoc] at hp
        have h3 := List.append_cancel_right (List.append_cancel_right hp)
        rw [← h3]; simp only [List.append_assoc]
      have es : p ++ (w' ++ t'.rest) = l3 ++ (w3 ++ (b3 ++ ((p0 ++ l0) ++ (w' ++ t'.rest)))) := by
        rw [ep]; simp only [List.append_assoc]
      rw [es]
      refine .next q2 q3 (follow_same q3 ?_ q4) ?_
      · rw [q5, e1]
        exact (SameButCase.refl _).append ((SameButCase.refl _).append (hw.append (SameButCase.refl _)))
      · rw [← hd]; exact written_blanks q6 this

end

/-! ## Nothing renamed -/

section
mutual
theorem rename_none : ∀ s : Stm, s.rename .none = s
  | .nil | .num _ | .str _ | .bool _ | .date _ | .undef | .var _ _ _ | .brk | .cont | .goto _ | .label _ => rfl
  | .chain a b _ _ => by rw [Stm.rename, rename_none a, rename_none b]
  | .method _ ps _ => by rw [Stm.rename, renameL_none ps]; rfl
  | .item i o => by rw [Stm.rename, rename_none i, rename_none o]
  | .ternary c t e => by rw [Stm.rename, rename_none c, rename_none t, rename_none e]
  | .new _ ps => by rw [Stm.rename, renameL_none ps]; rfl
  | .assign v es => by rw [Stm.rename, rename_none v, renameL_none es]
  | .bin _ l r _ _ => by rw [Stm.rename, rename_none l, rename_none r]
  | .exprs l _ => by rw [Stm.rename, renameL_none l]
  | .ifS c t ei e => by rw [Stm.rename, rename_none c, renameL_none t, renameL_none ei, renameL_none e]
  | .tryS b c => by rw [Stm.rename, renameL_none b, renameL_none c]
  | .throw p => by rw [Stm.rename, rename_none p]
  | .ret p => by rw [Stm.rename, rename_none p]
  | .loop f t i w b => by
    rw [Stm.rename, rename_none f, rename_none t, rename_none i, rename_none w, renameL_none b]
    have : Renaming.none.loopVar f f i = f := by
      unfold Renaming.loopVar
      split <;> rfl
    rw [this]
theorem renameL_none : ∀ l : List Stm, Stm.renameL .none l = l
  | [] => rfl
  | s :: l => by rw [Stm.renameL, rename_none s, renameL_none l]
end

theorem module_rename_none (m : Module) : m.rename .none = m := by
  have hm : ∀ {α} (f : α → α) (l : List α), (∀ x, f x = x) → l.map f = l := by
    intro α f l h
    rw [show f = id from funext h, List.map_id]
  obtain ⟨gs, body⟩ := m
  unfold Module.rename
  congr 1
  · exact hm _ _ fun g => rfl
  · refine hm _ _ fun i => ?_
    cases i with
    | stm s => show Item.stm (s.rename .none) = _; rw [rename_none]
    | func f =>
      show Item.func (f.rename .none) = _
      congr 1
      obtain ⟨vars, _, _, body, params, _, _⟩ := f
      unfold FuncDecl.rename
      dsimp only
      rw [hm _ body rename_none, hm _ params (fun p => by obtain ⟨d, _, _⟩ := p; show Param.mk _ _ _ = _; rw [rename_none]; rfl)]
      have hv : vars.map (List.map Renaming.none.name) = vars := by
        cases vars with
        | none => rfl
        | some vs => exact congrArg some (hm _ vs fun _ => rfl)
      rw [hv]
      rfl

theorem key_none (k : Key) : Renaming.none.key k = k := by
  unfold Renaming.key
  split; · rfl
  split; · rfl
  split; · rfl
  obtain ⟨_, _, v⟩ := k
  cases v <;> rfl

theorem none_ok : Renaming.none.Ok := ⟨fun _ _ h => h, rfl, rfl, fun _ => rfl⟩

end

end Recase
end Verif
