import Verif.Lexer
import Verif.Proofs.LexBasic
import Verif.Proofs.LexScan
import Verif.Proofs.ByteLexer
import Verif.Proofs.TextInv
import Verif.Proofs.TextMap
import Verif.Proofs.Recase
import Verif.Spec.LineEnds
import Verif.Spec.Program
/-!
# The tokeniser on a text with other line ends
-/
namespace Verif
namespace LineEnds
open Lexer Spec

local notation "cr" => Spec.withCR

theorem cr_lf (r : List Char) : cr ('\n' :: r) = '\r' :: '\n' :: cr r := rfl

theorem cr_cons {c : Char} (h : c ≠ '\n') (r : List Char) : cr (c :: r) = c :: cr r := by
  show (if c = '\n' then _ else _) = _
  rw [if_neg h]

theorem cr_append (a b : List Char) : cr (a ++ b) = cr a ++ cr b := by
  induction a with
  | nil => rfl
  | cons c a ih =>
    by_cases h : c = '\n'
    · subst h; rw [List.cons_append, cr_lf, cr_lf, ih]; rfl
    · rw [List.cons_append, cr_cons h, cr_cons h, ih]; rfl

theorem cr_id {l : List Char} (h : '\n' ∉ l) : cr l = l := by
  induction l with
  | nil => rfl
  | cons c l ih =>
    rw [List.mem_cons, not_or] at h
    rw [cr_cons (Ne.symm h.1), ih h.2]

theorem cr_ne_lf (l r : List Char) : cr l ≠ '\n' :: r := by
  cases l with
  | nil => intro h; cases h
  | cons c l =>
    by_cases h : c = '\n'
    · subst h; rw [cr_lf]; intro h; injection h with h; exact absurd h (by decide)
    · rw [cr_cons h]; intro e; injection e with e; exact h e

theorem cr_inj : Function.Injective (Spec.withCR) := by
  intro a
  induction a with
  | nil =>
    intro b h
    cases b with
    | nil => rfl
    | cons c b =>
      by_cases hc : c = '\n'
      · subst hc; cases h
      · rw [cr_cons hc] at h; cases h
  | cons c a ih =>
    intro b h
    cases b with
    | nil =>
      by_cases hc : c = '\n'
      · subst hc; cases h
      · rw [cr_cons hc] at h; cases h
    | cons d b =>
      by_cases hc : c = '\n'
      · subst hc
        rw [cr_lf] at h
        by_cases hd : d = '\n'
        · subst hd
          rw [cr_lf] at h
          injection h with _ h; injection h with _ h
          rw [ih h]
        · rw [cr_cons hd] at h
          injection h with _ h
          exact absurd h.symm (cr_ne_lf _ _)
      · rw [cr_cons hc] at h
        by_cases hd : d = '\n'
        · subst hd
          rw [cr_lf] at h
          injection h with _ h
          exact absurd h (cr_ne_lf _ _)
        · rw [cr_cons hd] at h
          injection h with h1 h2
          rw [h1, ih h2]

theorem cr_length (l : List Char) : (cr l).length = l.length + l.count '\n' := by
  induction l with
  | nil => rfl
  | cons c l ih =>
    by_cases hc : c = '\n'
    · subst hc
      rw [cr_lf, List.length_cons, List.length_cons, List.length_cons, ih, List.count_cons_self]; omega
    · rw [cr_cons hc, List.length_cons, List.length_cons, ih, List.count_cons_of_ne hc]; omega

theorem cr_count (l : List Char) : (cr l).count '\n' = l.count '\n' := by
  induction l with
  | nil => rfl
  | cons c l ih =>
    by_cases hc : c = '\n'
    · subst hc
      rw [cr_lf, List.count_cons_of_ne (by decide), List.count_cons_self, List.count_cons_self, ih]
    · rw [cr_cons hc, List.count_cons_of_ne hc, List.count_cons_of_ne hc, ih]

theorem cr_column (l : List Char) : ((cr l).reverse.takeWhile (· ≠ '\n')).length = (l.reverse.takeWhile (· ≠ '\n')).length := by
  induction l using List.reverseRecOn with
  | nil => rfl
  | append_singleton l c ih =>
    rw [cr_append, List.reverse_append, List.reverse_append]
    by_cases hc : c = '\n'
    · subst hc; rfl
    · rw [cr_id (l := [c]) (by simp; exact Ne.symm hc)]
      show (List.takeWhile _ (c :: _)).length = (List.takeWhile _ (c :: _)).length
      rw [List.takeWhile_cons_of_pos (by simpa using hc), List.takeWhile_cons_of_pos (by simpa using hc), List.length_cons,
        List.length_cons]
      exact congrArg (· + 1) ih

theorem position_cr {code rest : List Char} (h : rest <:+ code) : getPosition (cr code) (cr rest) = getPosition code rest := by
  obtain ⟨pre, rfl⟩ := h
  unfold getPosition
  have e : ∀ a b : List Char, (a ++ b).take ((a ++ b).length - b.length) = a := by
    intro a b
    rw [List.length_append, Nat.add_sub_cancel, List.take_left]
  rw [cr_append, e, e]
  dsimp only
  rw [cr_count, cr_column]

/-! ## Skips -/

theorem skipSpace_cr : ∀ s, skipSpace (cr s) = cr (skipSpace s)
  | [] => rfl
  | c :: r => by
    by_cases h : c = '\n'
    · subst h; exact skipSpace_cr r
    · rw [cr_cons h]
      show (if isSpace c then skipSpace (cr r) else c :: cr r) = cr (if isSpace c then skipSpace r else c :: r)
      split
      · exact skipSpace_cr r
      · rw [cr_cons h]

theorem skipLine_cr : ∀ s, skipSpace (skipLine (cr s)) = cr (skipSpace (skipLine s))
  | [] => rfl
  | c :: r => by
    by_cases h : c = '\n'
    · subst h; exact skipSpace_cr r
    · rw [cr_cons h]
      show skipSpace (if c = '\n' then _ else skipLine (cr r)) = cr (skipSpace (if c = '\n' then _ else skipLine r))
      rw [if_neg h, if_neg h]
      exact skipLine_cr r

theorem head_cr {s : List Char} {d : Char} (h1 : d ≠ '\r') : (∃ r, cr s = d :: r) → ∃ r, s = d :: r := by
  cases s with
  | nil => rintro ⟨r, h⟩; cases h
  | cons c r =>
    rintro ⟨r', h⟩
    by_cases hc : c = '\n'
    · subst hc; injection h with h _; exact absurd h.symm h1
    · rw [cr_cons hc] at h
      injection h with h _
      exact ⟨r, by rw [h]⟩

theorem head?_cr {s : List Char} {d : Char} (h1 : d ≠ '\r') (h2 : d ≠ '\n') : (cr s).head? = some d ↔ s.head? = some d := by
  cases s with
  | nil => exact Iff.rfl
  | cons c r =>
    by_cases hc : c = '\n'
    · subst hc
      show some '\r' = some d ↔ some '\n' = some d
      rw [Option.some_inj, Option.some_inj]
      exact ⟨fun h => absurd h.symm h1, fun h => absurd h.symm h2⟩
    · rw [cr_cons hc]; exact Iff.rfl

theorem skipF_cr (n : Nat) : ∀ s, skipCommentF n (cr s) = cr (skipCommentF n s) ∧
    skipRegionsF n (cr s) = cr (skipRegionsF n s) := by
  induction n with
  | zero => intro s; constructor <;> simp [skipCommentF, skipRegionsF]
  | succ n ih =>
    have e : ∀ s, (∀ r, s ≠ '/' :: r) → (∀ r, s ≠ '#' :: r) → dispatchF n s = s := by
      intro s h1 h2
      unfold dispatchF
      split
      · exact absurd rfl (h1 _)
      · exact absurd rfl (h2 _)
      · rfl
    have hd : ∀ s, dispatchF n (cr s) = cr (dispatchF n s) := by
      intro s
      by_cases h1 : ∃ r, s = '/' :: r
      · obtain ⟨r, rfl⟩ := h1; exact (ih ('/' :: r)).1
      · by_cases h2 : ∃ r, s = '#' :: r
        · obtain ⟨r, rfl⟩ := h2; exact (ih ('#' :: r)).2
        · rw [e s (fun r h => h1 ⟨r, h⟩) (fun r h => h2 ⟨r, h⟩),
            e _ (fun r h => h1 (head_cr (by decide) ⟨r, h⟩)) (fun r h => h2 (head_cr (by decide) ⟨r, h⟩))]
    intro s
    constructor
    · by_cases h : ∃ r, s = '/' :: '/' :: r
      · obtain ⟨r, rfl⟩ := h
        rw [skipCommentF_slash]
        show skipCommentF (n + 1) ('/' :: '/' :: cr r) = _
        rw [skipCommentF_slash, skipLine_cr, hd]
      · rw [skipCommentF_other _ (fun r e => h ⟨r, e⟩), skipCommentF_other]
        intro r e
        obtain ⟨r1, rfl⟩ := head_cr (by decide) ⟨_, e⟩
        rw [cr_cons (by decide)] at e
        injection e with _ e
        obtain ⟨r2, rfl⟩ := head_cr (by decide) ⟨_, e⟩
        exact h ⟨r2, rfl⟩
    · by_cases h : ∃ r, s = '#' :: r
      · obtain ⟨r, rfl⟩ := h
        rw [skipRegionsF_hash]
        show skipRegionsF (n + 1) ('#' :: cr r) = _
        rw [skipRegionsF_hash, skipLine_cr, hd]
      · rw [skipRegionsF_other _ (fun r e => h ⟨r, e⟩), skipRegionsF_other, hd]
        intro r e
        exact h (head_cr (by decide) ⟨r, e⟩)

theorem len_le (s : List Char) : s.length ≤ (cr s).length := by rw [cr_length]; omega

theorem skipComment_cr (s : List Char) : skipComment (cr s) = cr (skipComment s) := by
  unfold skipComment
  rw [(skipF_cr _ s).1, (skipF_fuel _ s).1 (2 * s.length + 2) (by have := len_le s; omega) (by omega)]

theorem skipRegions_cr (s : List Char) : skipRegions (cr s) = cr (skipRegions s) := by
  unfold skipRegions
  rw [(skipF_cr _ s).2, (skipF_fuel _ s).2 (2 * s.length + 2) (by have := len_le s; omega) (by omega)]

theorem skipTrivia_cr (s : List Char) : skipTrivia (cr s) = cr (skipTrivia s) := by
  unfold skipTrivia
  rw [skipSpace_cr, skipComment_cr, skipRegions_cr]

/-- The text does not begin with white space. -/
def NoSpace (s : List Char) : Prop := ∀ c r, s = c :: r → isSpace c = false

theorem skipSpace_noSpace : ∀ s, NoSpace (skipSpace s)
  | [] => by intro c r h; cases h
  | c :: r => by
    show NoSpace (if isSpace c then skipSpace r else c :: r)
    by_cases h : isSpace c = true
    · rw [if_pos h]; exact skipSpace_noSpace r
    · rw [if_neg h]
      intro c' r' e
      injection e with e _
      rw [← e]; exact Bool.not_eq_true _ ▸ h

theorem skipF_noSpace (n : Nat) : ∀ s, NoSpace s → NoSpace (skipCommentF n s) ∧ NoSpace (skipRegionsF n s) := by
  induction n with
  | zero => intro s h; exact ⟨by simpa [skipCommentF] using h, by simpa [skipRegionsF] using h⟩
  | succ n ih =>
    have hd : ∀ s, NoSpace s → NoSpace (dispatchF n s) := by
      intro s h
      unfold dispatchF
      split
      · exact (ih _ h).1
      · exact (ih _ h).2
      · exact h
    intro s hs
    constructor
    · by_cases h : ∃ r, s = '/' :: '/' :: r
      · obtain ⟨r, rfl⟩ := h
        rw [skipCommentF_slash]
        exact hd _ (skipSpace_noSpace _)
      · rw [skipCommentF_other _ (fun r e => h ⟨r, e⟩)]; exact hs
    · by_cases h : ∃ r, s = '#' :: r
      · obtain ⟨r, rfl⟩ := h
        rw [skipRegionsF_hash]
        exact hd _ (skipSpace_noSpace _)
      · rw [skipRegionsF_other _ (fun r e => h ⟨r, e⟩)]; exact hd _ hs

theorem skipComment_noSpace {s : List Char} (h : NoSpace s) : NoSpace (skipComment s) := (skipF_noSpace _ s h).1

theorem skipTrivia_noSpace (s : List Char) : NoSpace (skipTrivia s) :=
  (skipF_noSpace _ _ (skipComment_noSpace (skipSpace_noSpace s))).2

/-! ## Scans -/

theorem takeWhile_cr {p : Char → Bool} (h1 : p '\n' = false) (h2 : p '\r' = false) :
    ∀ s, (cr s).takeWhile p = s.takeWhile p
  | [] => rfl
  | c :: r => by
    by_cases h : c = '\n'
    · subst h
      rw [cr_lf, List.takeWhile_cons_of_neg (by rw [h2]; decide), List.takeWhile_cons_of_neg (by rw [h1]; decide)]
    · rw [cr_cons h, List.takeWhile_cons, List.takeWhile_cons, takeWhile_cr h1 h2 r]

theorem dropWhile_cr {p : Char → Bool} (h1 : p '\n' = false) (h2 : p '\r' = false) :
    ∀ s, (cr s).dropWhile p = cr (s.dropWhile p)
  | [] => rfl
  | c :: r => by
    by_cases h : c = '\n'
    · subst h
      rw [cr_lf, List.dropWhile_cons_of_neg (by rw [h2]; decide), List.dropWhile_cons_of_neg (by rw [h1]; decide), cr_lf]
    · rw [cr_cons h, List.dropWhile_cons, List.dropWhile_cons, dropWhile_cr h1 h2 r]
      split
      · rfl
      · rw [cr_cons h]

theorem cr_takeWhile {p : Char → Bool} (h1 : p '\n' = false) (s : List Char) : cr (s.takeWhile p) = s.takeWhile p := by
  refine cr_id fun h => ?_
  have := List.all_eq_true.1 List.all_takeWhile _ h
  rw [h1] at this
  cases this

/-- A scan of the changed text. -/
def crR (x : Except LexErr (List Char) × List Char) : Except LexErr (List Char) × List Char := (x.1.map Spec.withCR, cr x.2)

theorem addLit_cr (p : List Char) (x : Except LexErr (List Char) × List Char) : addLit (cr p) (crR x) = crR (addLit p x) := by
  obtain ⟨e | l, r⟩ := x
  · rfl
  · show (Except.ok (cr p ++ cr l), _) = (Except.ok (cr (p ++ l)), _)
    rw [cr_append]
    rfl

theorem addLit_addLit (p q : List Char) (x : Except LexErr (List Char) × List Char) : addLit p (addLit q x) = addLit (p ++ q) x := by
  obtain ⟨e | l, r⟩ := x
  · rfl
  · show (Except.ok (p ++ (q ++ l)), _) = (Except.ok (p ++ q ++ l), _)
    rw [List.append_assoc]

theorem scanString_cr {q : Char} (h1 : q ≠ '\r') (n : Nat) :
    ∀ (c : Char) (r : List Char), c ≠ '\n' → r.length ≤ n → scanString q (c :: cr r) = crR (scanString q (c :: r)) := by
  induction n using Nat.strong_induction_on with
  | _ n ih =>
    intro c r hc hn
    cases r with
    | nil => rw [scanString_eq, scanString_eq]; rfl
    | cons x r =>
      have hlen : r.length < n := by simp only [List.length_cons] at hn; omega
      by_cases hx : x = '\n'
      · subst hx
        rw [cr_lf, scanString_eq]
        show (if '\r' = '\n' then _ else if '\r' = q then _ else addLit ['\r'] (scanString q ('\r' :: '\n' :: cr r))) = _
        rw [if_neg (by decide), if_neg (Ne.symm h1), scanString_eq q ('\r' :: '\n' :: cr r), scanString_eq q (c :: '\n' :: r)]
        dsimp only [List.tail_cons]
        rw [if_pos rfl, if_pos rfl, skipSpace_cr, skipComment_cr]
        have hns := skipComment_noSpace (skipSpace_noSpace r)
        have hl : (skipComment (skipSpace r)).length ≤ r.length :=
          ((skipComment_suffix _).trans (skipSpace_suffix r)).length_le
        cases hd : skipComment (skipSpace r) with
        | nil => rfl
        | cons d r' =>
          rw [hd] at hns hl
          have hsp := hns d r' rfl
          have hd' : d ≠ '\n' := by rintro rfl; exact absurd hsp (by decide)
          rw [cr_cons hd']
          dsimp only
          by_cases h2 : d ≠ '|' ∧ (!isSpace d) = true
          · rw [if_pos h2, if_pos h2]
            show (Except.error _, _) = (Except.error _, cr (d :: r'))
            rw [cr_cons hd']
          · rw [if_neg h2, if_neg h2, addLit_addLit, ih r'.length (by simp only [List.length_cons] at hl; omega) d r' hd' (Nat.le_refl _),
              ← addLit_cr]
            rw [show cr ['\n', d] = ['\r'] ++ ['\n', d] by rw [cr_lf, cr_cons hd']; rfl]
      · rw [cr_cons hx, scanString_eq q (c :: x :: cr r), scanString_eq q (c :: x :: r)]
        dsimp only [List.tail_cons]
        rw [if_neg hx, if_neg hx]
        by_cases h2 : x = q
        · rw [if_pos h2, if_pos h2]
          have hq : ∀ s : List Char, s.head? = some '"' → s.length ≤ r.length → scanString q (cr s) = crR (scanString q s) := by
            intro s hs hl
            cases s with
            | nil => cases hs
            | cons d s =>
              injection hs with hs
              subst hs
              rw [cr_cons (by decide)]
              exact ih s.length (by simp only [List.length_cons] at hl; omega) '"' s (by decide) (Nat.le_refl _)
          by_cases h3 : r.head? = some '"'
          · rw [if_pos ((head?_cr (by decide) (by decide)).2 h3), if_pos h3, hq r h3 (Nat.le_refl _), ← addLit_cr]
            rfl
          · rw [if_neg (mt (head?_cr (by decide) (by decide)).1 h3), if_neg h3, skipSpace_cr]
            by_cases h4 : (skipSpace r).head? = some '"'
            · rw [if_pos ((head?_cr (by decide) (by decide)).2 h4), if_pos h4, hq _ h4 (skipSpace_len r)]
            · rw [if_neg (mt (head?_cr (by decide) (by decide)).1 h4), if_neg h4]; rfl
        · rw [if_neg h2, if_neg h2, ih r.length hlen x r hx (Nat.le_refl _), ← addLit_cr]
          rw [cr_cons hx]
          rfl

theorem extractDigits_cr : ∀ s : List Char, extractDigits (cr s) = extractDigits s
  | [] => rfl
  | c :: r => by
    by_cases h : c = '\n'
    · subst h
      show List.filter isDigit ('\r' :: '\n' :: cr r) = List.filter isDigit ('\n' :: r)
      rw [List.filter_cons_of_neg (by decide), List.filter_cons_of_neg (by decide), List.filter_cons_of_neg (by decide)]
      exact extractDigits_cr r
    · rw [cr_cons h]
      show List.filter isDigit (c :: cr r) = List.filter isDigit (c :: r)
      rw [List.filter_cons, List.filter_cons, show List.filter isDigit (cr r) = List.filter isDigit r from extractDigits_cr r]

/-! ## Tokens -/

section
variable [Letters]

theorem isLetter_lf : isLetter '\n' = false := isLetter_ascii_false (by decide) (by decide) (by decide)
theorem isLetter_cr : isLetter '\r' = false := isLetter_ascii_false (by decide) (by decide) (by decide)

theorem isWordChar_lf : isWordChar '\n' = false := by unfold isWordChar; rw [isLetter_lf]; decide
theorem isWordChar_cr : isWordChar '\r' = false := by unfold isWordChar; rw [isLetter_cr]; decide

theorem scanIdentifier_cr (s : List Char) : scanIdentifier (cr s) = ((scanIdentifier s).1, cr (scanIdentifier s).2) := by
  unfold scanIdentifier
  rw [takeWhile_cr isWordChar_lf isWordChar_cr, dropWhile_cr isWordChar_lf isWordChar_cr]

theorem cr_word (s : List Char) : cr (scanIdentifier s).1 = (scanIdentifier s).1 := cr_takeWhile isWordChar_lf s

theorem scanNumber_cr (s : List Char) : scanNumber (cr s) = ((scanNumber s).1, cr (scanNumber s).2) := by
  unfold scanNumber
  dsimp only
  rw [takeWhile_cr (p := fun c => isDigit c || c == '.') (by decide) (by decide),
    dropWhile_cr (p := fun c => isDigit c || c == '.') (by decide) (by decide)]
  cases List.dropWhile (fun c => isDigit c || c == '.') s with
  | nil => rfl
  | cons c r =>
    by_cases hc : c = '\n'
    · subst hc
      rw [cr_lf]
      dsimp only
      rw [if_neg (by rw [isLetter_cr]; decide), if_neg (by rw [isLetter_lf]; decide)]
      rfl
    · rw [cr_cons hc]
      dsimp only
      split <;> (show (_, _) = (_, cr (c :: r)); rw [cr_cons hc])

theorem scanNumber_lit {s l r : List Char} (h : scanNumber s = (.ok l, r)) : cr l = l := by
  have ht := cr_takeWhile (p := fun c => isDigit c || c == '.') (by decide) s
  unfold scanNumber at h
  dsimp only at h
  split at h
  · split at h
    · cases h
    · injection h with h _; injection h with h; rw [← h]; exact ht
  · injection h with h _; injection h with h; rw [← h]; exact ht

/-- A token of the changed text. -/
def crRaw (x : Raw) : Raw := ⟨x.res, cr x.literal, cr x.rest⟩

theorem lexWord_cr (d : Bool) (s : List Char) : lexWord d (cr s) = crRaw (lexWord d s) := by
  unfold lexWord
  dsimp only
  rw [scanIdentifier_cr]
  show Raw.mk _ _ _ = Raw.mk _ (cr (scanIdentifier s).1) _
  rw [cr_word]

theorem lexNumber_cr (s : List Char) : lexNumber (cr s) = crRaw (lexNumber s) := by
  unfold lexNumber
  rw [scanNumber_cr]
  cases h : scanNumber s with
  | mk x r =>
    cases x with
    | error e => rfl
    | ok l =>
      show Raw.mk _ l (cr r) = Raw.mk _ (cr l) (cr r)
      rw [scanNumber_lit h]

omit [Letters] in
theorem lexDate_cr {c : Char} (hc : c ≠ '\n') (r : List Char) : lexDate (c :: cr r) = crRaw (lexDate (c :: r)) := by
  unfold lexDate
  rw [scanString_cr (by decide) r.length c r hc (Nat.le_refl _)]
  generalize scanString '\'' (c :: r) = x
  obtain ⟨e | l, r⟩ := x
  · rfl
  · have hx : cr (extractDigits l) = extractDigits l := by
      refine cr_id fun h => ?_
      exact absurd (List.mem_filter.1 h).2 (by decide)
    show (if extractDigits (cr l) = [] then _ else _) = _
    rw [extractDigits_cr]
    dsimp only
    by_cases h : extractDigits l = []
    · rw [if_pos h, if_pos h]; rfl
    · rw [if_neg h, if_neg h]
      show Raw.mk _ _ _ = Raw.mk _ (cr (extractDigits l)) _
      rw [hx]

omit [Letters] in
theorem lexString_cr {c : Char} (hc : c ≠ '\n') (r : List Char) : lexString (c :: cr r) = crRaw (lexString (c :: r)) := by
  unfold lexString
  rw [scanString_cr (by decide) r.length c r hc (Nat.le_refl _)]
  generalize scanString '"' (c :: r) = x
  obtain ⟨e | l, r⟩ := x <;> rfl

omit [Letters] in
theorem lexLess_cr (s : List Char) : lexLess (cr s) = crRaw (lexLess s) := by
  have e : ∀ s, (∀ r, s ≠ '>' :: r) → (∀ r, s ≠ '=' :: r) → lexLess s = ⟨.ok (some '<'.toNat), ['<'], s⟩ := by
    intro s h1 h2
    unfold lexLess
    split
    · exact absurd rfl (h1 _)
    · exact absurd rfl (h2 _)
    · rfl
  by_cases h1 : ∃ r, s = '>' :: r
  · obtain ⟨r, rfl⟩ := h1; rfl
  · by_cases h2 : ∃ r, s = '=' :: r
    · obtain ⟨r, rfl⟩ := h2; rfl
    · rw [e s (fun r h => h1 ⟨r, h⟩) (fun r h => h2 ⟨r, h⟩),
        e (cr s) (fun r h => h1 (head_cr (by decide) ⟨r, h⟩)) (fun r h => h2 (head_cr (by decide) ⟨r, h⟩))]
      rfl

omit [Letters] in
theorem lexGreater_cr (s : List Char) : lexGreater (cr s) = crRaw (lexGreater s) := by
  have e : ∀ s, (∀ r, s ≠ '=' :: r) → lexGreater s = ⟨.ok (some '>'.toNat), ['>'], s⟩ := by
    intro s h2
    unfold lexGreater
    split
    · exact absurd rfl (h2 _)
    · rfl
  by_cases h2 : ∃ r, s = '=' :: r
  · obtain ⟨r, rfl⟩ := h2; rfl
  · rw [e s (fun r h => h2 ⟨r, h⟩), e (cr s) (fun r h => h2 (head_cr (by decide) ⟨r, h⟩))]
    rfl

theorem lexDirective_cr (s : List Char) : lexDirective (cr s) = crRaw (lexDirective s) := by
  unfold lexDirective
  dsimp only
  rw [scanIdentifier_cr]
  cases directives.lookup (lower ('&' :: (scanIdentifier s).1)) with
  | none => rfl
  | some k =>
    show Raw.mk _ _ _ = Raw.mk _ (cr ('&' :: (scanIdentifier s).1)) _
    rw [cr_cons (by decide), cr_word]

theorem lexLabel_cr (s : List Char) : lexLabel (cr s) = crRaw (lexLabel s) := by
  unfold lexLabel
  rw [scanIdentifier_cr]
  show Raw.mk _ _ _ = Raw.mk _ (cr (scanIdentifier s).1) _
  rw [cr_word]

theorem nextRaw_cr (d : Bool) {s : List Char} (hs : NoSpace s) : nextRaw d (cr s) = crRaw (nextRaw d s) := by
  cases s with
  | nil => rfl
  | cons c r =>
    have hc : c ≠ '\n' := by rintro rfl; exact absurd (hs _ _ rfl) (by decide)
    have e1 : cr [c] = [c] := by rw [cr_cons hc]; rfl
    have ew := lexWord_cr d (c :: r)
    have en := lexNumber_cr (c :: r)
    rw [cr_cons hc] at ew en ⊢
    unfold nextRaw
    dsimp only
    rw [ew, en, lexDate_cr hc, lexString_cr hc, lexLess_cr, lexGreater_cr, lexDirective_cr, lexLabel_cr]
    have ite_cr : ∀ {P : Prop} [Decidable P] {a a' b b' : Raw}, a' = crRaw a → b' = crRaw b →
        (if P then a' else b') = crRaw (if P then a else b) := by
      intro P _ a a' b b' h1 h2
      split <;> assumption
    have hp : ∀ {x : Except LexErr (Option Nat)}, (⟨x, [c], cr r⟩ : Raw) = crRaw ⟨x, [c], r⟩ := by
      intro x
      show _ = Raw.mk _ (cr [c]) _
      rw [e1]
    exact ite_cr rfl <| ite_cr rfl <| ite_cr rfl <| ite_cr rfl <| ite_cr hp <| ite_cr hp <| ite_cr rfl <| ite_cr rfl <|
      ite_cr rfl <| ite_cr rfl <| ite_cr rfl hp

theorem nextRaw_number {d : Bool} {s : List Char} {k : Nat} (h : (nextRaw d s).res = .ok (some k)) (hk : k = tNumber ∨ k = tDate) :
    cr (nextRaw d s).literal = (nextRaw d s).literal := by
  rcases hk with rfl | rfl
  · refine cr_id fun hm => ?_
    exact absurd (List.all_eq_true.1 (ByteLexer.number_literal h) _ hm) (by decide)
  · cases s with
    | nil => cases h
    | cons c r =>
      obtain rfl := nextRaw_date_kind h
      have e : nextRaw d ('\'' :: r) = lexDate ('\'' :: r) := by
        unfold nextRaw
        dsimp only
        rw [if_neg, if_neg (by decide), if_neg (by decide), if_pos rfl]
        rw [isLetter_ascii_false (by decide) (by decide) (by decide)]
        decide
      rw [e] at h ⊢
      unfold lexDate at h ⊢
      split at h
      · cases h
      · split
        · rfl
        · refine cr_id fun hm => ?_
          exact absurd (List.mem_filter.1 hm).2 (by decide)

/-- A value of the changed text. -/
abbrev crV : Val → Val := (TextMap.rho Spec.withCR).val

omit [Letters] in
theorem valueOf_cr {k : Nat} {l : List Char} (old : Val) (h : k = tNumber ∨ k = tDate → cr l = l) :
    valueOf k (cr l) (crV old) = (valueOf k l old).map crV := by
  unfold valueOf
  by_cases h1 : k = tNumber
  · rw [if_pos h1, if_pos h1, h (.inl h1)]
    cases F64.parseFloat l <;> rfl
  · rw [if_neg h1, if_neg h1]
    by_cases h2 : k = tString
    · rw [if_pos h2, if_pos h2]; rfl
    · rw [if_neg h2, if_neg h2]
      by_cases h3 : k = tDate
      · rw [if_pos h3, if_pos h3, h (.inr h3)]
        split
        · rfl
        · repeat' (split; · rfl)
          rfl
      · rw [if_neg h3, if_neg h3]
        repeat' (split; · rfl)
        rfl

omit [Letters] in
theorem failed_cr {e : LexErr} (old : Val) (h : ∀ c, e = .badChar c → c ≠ '\n') :
    failed (crV old) e = (crV (failed old e).1, (failed old e).2) := by
  cases e with
  | badChar c =>
    have ec : cr [c] = [c] := by rw [cr_cons (h c rfl)]; rfl
    unfold failed
    dsimp only
    have := valueOf_cr (k := c.toNat) (l := [c]) old (fun _ => ec)
    rw [ec] at this
    rw [this]
    split
    · rfl
    · cases valueOf c.toNat [c] old <;> rfl
  | _ => rfl

theorem nextRaw_bad {d : Bool} {s : List Char} (hs : NoSpace s) {c : Char} (h : (nextRaw d s).res = .error (.badChar c)) : c ≠ '\n' := by
  cases s with
  | nil => cases h
  | cons x r =>
    have hx : x ≠ '\n' := by rintro rfl; exact absurd (hs _ _ rfl) (by decide)
    unfold nextRaw at h
    dsimp only at h
    by_cases h1 : isLetter x = true
    · rw [if_pos h1] at h; cases h
    rw [if_neg h1] at h
    split at h; · cases h
    split at h
    · unfold lexNumber scanNumber at h
      dsimp only at h
      split at h
      · rename_i h2
        split at h2
        · split at h2
          · cases h2; cases h
          · cases h2
        · cases h2
      · cases h
    split at h
    · unfold lexDate at h
      split at h
      · rename_i h2
        injection h with h
        exact absurd h (ByteLexer.scanString_not_bad (by rw [h2]) c)
      · split at h <;> cases h
    split at h; · cases h
    split at h; · cases h
    split at h
    · unfold lexString at h
      split at h
      · rename_i h2
        injection h with h
        exact absurd h (ByteLexer.scanString_not_bad (by rw [h2]) c)
      · cases h
    split at h
    · unfold lexLess at h; split at h <;> cases h
    split at h
    · unfold lexGreater at h; split at h <;> cases h
    split at h
    · unfold lexDirective at h
      dsimp only at h
      split at h
      · cases h
      · injection h with h; injection h with h; rw [← h]; decide
    split at h; · cases h
    injection h with h; injection h with h
    rw [← h]
    exact hx

theorem lexNext_cr (t : Tok) : lexNext (TextMap.mT Spec.withCR t) = (TextMap.mT Spec.withCR (lexNext t).1, (lexNext t).2) := by
  have hns := skipTrivia_noSpace t.rest
  have hn := @nextRaw_number _ t.prevDot (skipTrivia t.rest)
  have hb := @nextRaw_bad _ t.prevDot (skipTrivia t.rest) hns
  unfold lexNext
  dsimp only
  show finish (TextMap.mT Spec.withCR t) (!t.prevDot && (skipTrivia (cr t.rest)).head? == some '.') (nextRaw t.prevDot (skipTrivia (cr t.rest))) = _
  rw [skipTrivia_cr, nextRaw_cr _ hns]
  have ed : ((cr (skipTrivia t.rest)).head? == some '.') = ((skipTrivia t.rest).head? == some '.') := by
    rw [Bool.eq_iff_iff, beq_iff_eq, beq_iff_eq]; exact head?_cr (by decide) (by decide)
  rw [ed]
  generalize (!t.prevDot && (skipTrivia t.rest).head? == some '.') = dot
  revert hn hb
  generalize nextRaw t.prevDot (skipTrivia t.rest) = raw
  intro hn hb
  obtain ⟨res, lit, rest⟩ := raw
  dsimp only at hn hb
  unfold finish crRaw
  dsimp only
  cases res with
  | error e =>
    have := failed_cr t.value (e := e) (fun c hc => hb (by rw [hc]))
    dsimp only
    rw [show (TextMap.mT Spec.withCR t).value = crV t.value from rfl, this]
    rfl
  | ok k =>
    cases k with
    | none => rfl
    | some k =>
      have := valueOf_cr (k := k) (l := lit) t.value (fun h => hn rfl h)
      dsimp only
      rw [show (TextMap.mT Spec.withCR t).value = crV t.value from rfl, this]
      cases valueOf k lit t.value <;> rfl

/-- Only string constants contain line ends. -/
theorem nextRaw_lit {d : Bool} {s : List Char} (hs : NoSpace s) {k : Nat} (h : (nextRaw d s).res = .ok (some k)) (hk : k ≠ tString) :
    cr (nextRaw d s).literal = (nextRaw d s).literal := by
  have hnum := @nextRaw_number _ d s k h
  cases s with
  | nil => rfl
  | cons c r =>
    have hc : c ≠ '\n' := by rintro rfl; exact absurd (hs _ _ rfl) (by decide)
    have e1 : cr [c] = [c] := by rw [cr_cons hc]; rfl
    by_cases hn : k = tNumber ∨ k = tDate
    · exact hnum hn
    have ite_p : ∀ {P : Prop} [Decidable P] {a b : Raw}, (a.res = .ok (some k) → cr a.literal = a.literal) →
        (b.res = .ok (some k) → cr b.literal = b.literal) →
        (if P then a else b).res = .ok (some k) → cr (if P then a else b).literal = (if P then a else b).literal := by
      intro P _ a b h1 h2
      split <;> assumption
    refine ite_p (fun _ => cr_word _) (ite_p (fun _ => rfl) (ite_p ?_ (ite_p ?_ (ite_p (fun _ => e1) (ite_p (fun _ => e1)
      (ite_p ?_ (ite_p ?_ (ite_p ?_ (ite_p ?_ (ite_p (fun _ => cr_word _) (fun _ => e1))))))))))) h
    · unfold lexNumber
      split
      · intro h; cases h
      · intro h; injection h with h; injection h with h; exact absurd (.inl h.symm) hn
    · unfold lexDate
      split
      · intro h; cases h
      · split
        · intro h; cases h
        · intro h; injection h with h; injection h with h; exact absurd (.inr h.symm) hn
    · unfold lexString
      split
      · intro h; cases h
      · intro h; injection h with h; injection h with h; exact absurd h.symm hk
    · intro _; unfold lexLess; split <;> rfl
    · intro _; unfold lexGreater; split <;> rfl
    · intro _
      unfold lexDirective
      dsimp only
      split
      · show cr ('&' :: _) = '&' :: _
        rw [cr_cons (by decide), cr_word]
      · rfl

omit [Letters] in
theorem finish_ok {t : Tok} {dot : Bool} {raw : Raw} {k : Nat} (h : (finish t dot raw).2 = .ok (some k)) :
    raw.res = .ok (some k) := by
  obtain ⟨res, lit, rest⟩ := raw
  unfold finish at h
  dsimp only at h ⊢
  cases res with
  | error e => cases h
  | ok x =>
    cases x with
    | none => cases h
    | some k' =>
      dsimp only at h
      split at h
      · cases h; rfl
      · cases h

theorem lexNext_lit {t : Tok} {k : Nat} (h : (lexNext t).2 = .ok (some k)) (hk : k ≠ tString) :
    cr (lexNext t).1.literal = (lexNext t).1.literal := by
  have hns := skipTrivia_noSpace t.rest
  unfold lexNext at h ⊢
  dsimp only at h ⊢
  rw [finish_literal]
  exact nextRaw_lit hns (finish_ok h) hk

theorem key_cr {t : Tok} {k : Nat} (h : (lexNext t).2 = .ok (some k)) :
    key (k, TextMap.mT Spec.withCR (lexNext t).1) = Renaming.crStrings.key (key (k, (lexNext t).1)) := by
  unfold key
  dsimp only
  by_cases h1 : k ∈ [Terminal.ktoken_identifier, .kGoToLabel, .kDirective, .kExecute].map Terminal.kind
  · rw [if_pos h1, if_pos h1]
    have hk : k ≠ tString := by rintro rfl; revert h1; decide
    show Key.mk _ (cr _) _ = _
    rw [lexNext_lit h hk]
    have hx : ∀ (n : List Char) (v : Val), v = .nil → Renaming.crStrings.key ⟨k, n, v⟩ = ⟨k, n, v⟩ := by
      rintro n v rfl
      unfold Renaming.key
      split; · rfl
      split; · rfl
      split; · rfl
      rfl
    rw [hx _ _ rfl]
  · rw [if_neg h1, if_neg h1]
    have hx : ∀ (n : List Char) (v : Val), Renaming.crStrings.key ⟨k, n, v⟩ = ⟨k, n, crV v⟩ := by
      intro n v
      have h2 : k ≠ Terminal.ktoken_identifier.kind := by rintro rfl; exact h1 (by decide)
      have h3 : k ≠ Terminal.kExecute.kind := by rintro rfl; exact h1 (by decide)
      have h4 : k ≠ Terminal.kGoToLabel.kind := by rintro rfl; exact h1 (by decide)
      have h5 : k ≠ Terminal.kDirective.kind := by rintro rfl; exact h1 (by decide)
      unfold Renaming.key
      dsimp only
      rw [if_neg (by rintro (h | h); exacts [h2 h, h3 h]), if_neg h4, if_neg h5]
      rfl
    split <;> (rw [hx]; rfl)

theorem tokens_cr {t : Tok} {l : List (Nat × Tok)} (h : Tokens t l) :
    Tokens (TextMap.mT Spec.withCR t) (l.map fun x => (x.1, TextMap.mT Spec.withCR x.2)) ∧
    (l.map fun x => (x.1, TextMap.mT Spec.withCR x.2)).map key = (l.map key).map Renaming.crStrings.key := by
  induction h with
  | @eof t h =>
    refine ⟨.eof ?_, rfl⟩
    rw [lexNext_cr]; exact h
  | @next t t' k l h _ ih =>
    refine ⟨.next (by rw [lexNext_cr, h]) ih.1, ?_⟩
    have := key_cr (t := t) (k := k) (by rw [h])
    rw [h] at this
    show _ :: _ = _ :: _
    rw [ih.2, this]

theorem hasKeys_cr {code : List Char} {ks : List Key} (h : HasKeys code ks) :
    HasKeys (cr code) (ks.map Renaming.crStrings.key) := by
  obtain ⟨l, h, rfl⟩ := h
  exact ⟨_, (tokens_cr h).1, (tokens_cr h).2⟩

omit [Letters] in
theorem crStrings_ok : Renaming.crStrings.Ok := ⟨fun _ _ h => h, rfl, rfl, fun _ => rfl⟩

theorem afterCalls_cr (n : Nat) (t : Tok) : afterCalls n (TextMap.mT Spec.withCR t) = TextMap.mT Spec.withCR (afterCalls n t) := by
  induction n generalizing t with
  | zero => rfl
  | succ n ih =>
    show afterCalls n (lexNext _).1 = _
    rw [lexNext_cr]
    exact ih _

theorem ok : TextMap.Ok Spec.withCR := ⟨rfl, cr_inj, rfl, lexNext_cr, fun _ _ => position_cr⟩

end

theorem all_cr (p : Char → Bool) (h1 : p '\n' = true) (h2 : p '\r' = true) : ∀ s, (cr s).all p = s.all p
  | [] => rfl
  | c :: r => by
    by_cases h : c = '\n'
    · subst h
      rw [cr_lf, List.all_cons, List.all_cons, List.all_cons, all_cr p h1 h2 r, h1, h2]; rfl
    · rw [cr_cons h, List.all_cons, List.all_cons, all_cr p h1 h2 r]

theorem mem_cr {c : Char} (hc : c ≠ '\r') : ∀ {s : List Char}, c ∈ cr s → c ∈ s
  | [], h => h
  | d :: s, h => by
    by_cases hd : d = '\n'
    · subst hd
      rw [cr_lf, List.mem_cons, List.mem_cons] at h
      rcases h with h | h | h
      · exact absurd h hc
      · rw [h]; exact List.mem_cons_self
      · exact List.mem_cons_of_mem _ (mem_cr hc h)
    · rw [cr_cons hd, List.mem_cons] at h
      rcases h with h | h
      · rw [h]; exact List.mem_cons_self
      · exact List.mem_cons_of_mem _ (mem_cr hc h)

theorem err_cr (e : Err) : TextMap.mE Spec.withCR e = e.withCR := by
  cases e with
  | lex e => rfl
  | «at» m l c lit =>
    show Err.at _ _ _ _ = Err.at _ _ _ _
    congr 1
    rw [cr_length]
    push_cast
    omega

end LineEnds
end Verif
