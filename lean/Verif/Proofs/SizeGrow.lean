import Verif.Proofs.ErrorWork
import Verif.Proofs.LexAppend
import Verif.Proofs.Program
import Verif.Print
import Verif.Spec.Walk
import Verif.Spec.Size
/-!
The driver on `Попытка Исключение КонецПопытки;Попытка;Попытка;Попытка Исключение КонецПопытки Исключение …`: a block that begins with `;` is
built in a slot of the stack that still holds the block built there before, so every block holds the statements of all blocks built in the
same place before and one more.
-/
namespace Verif.SizeGrow
open Lexer Tables LR ErrorWork Spec

attribute [local instance] stdLetters

/-- The innermost statement. -/
def leafText : List Char := "Попытка Исключение КонецПопытки".toList

/-- What stands before and behind the statement of a block. -/
def openText : List Char := "Попытка;".toList
def s4 : List Char := " Исключение КонецПопытки".toList

/-- Statements in `d` blocks that begin with `;`. -/
def stmtText : Nat → List Char
  | 0 => leafText
  | d + 1 => openText ++ (stmtText d ++ s4)

/-- `n` of them. -/
def units (d : Nat) : Nat → List Char
  | 0 => []
  | n + 1 => ';' :: (stmtText d ++ units d n)

/-- The text. -/
def text (d n : Nat) : List Char := leafText ++ units d n

/-- What has been built in the slots: block `j` is the one inside `j` others. -/
abbrev Blocks := Nat → List Stm

/-- The statement built, and the blocks afterwards. -/
def build : Nat → Blocks → Stm × Blocks
  | 0, f => (.tryS [] [], f)
  | d + 1, f =>
    (.tryS (f 0 ++ [(build d fun j => f (j + 1)).1]) [],
      fun | 0 => f 0 ++ [(build d fun j => f (j + 1)).1] | j + 1 => (build d fun j => f (j + 1)).2 j)

/-- The blocks after `n` statements. -/
def after (d : Nat) : Nat → Blocks → Blocks
  | 0, f => f
  | n + 1, f => after d n (build d f).2

/-- The `n` statements. -/
def built (d : Nat) : Nat → Blocks → List Stm
  | 0, _ => []
  | n + 1, f => (build d f).1 :: built d n (build d f).2

/-! ### Tokens -/

def lexIs (t t' : Tok) (k : Nat) : Bool := match lexNext t with
  | (u, .ok (some j)) => decide (u = t') && decide (j = k)
  | _ => false

theorem lexIs_eq {t t' : Tok} {k : Nat} (h : lexIs t t' k = true) : lexNext t = (t', .ok (some k)) := by
  unfold lexIs at h
  split at h
  · rename_i u j e
    simp only [Bool.and_eq_true, decide_eq_true_eq] at h
    rw [e, h.1, h.2]
  · cases h

theorem semi_next (lit : List Char) (v : Val) (r : List Char) :
    lexNext ⟨lit, v, ';' :: r, false⟩ = (⟨[';'], v, r, false⟩, .ok (some 59)) := by
  have h : skipTrivia (';' :: r) = ';' :: r :=
    skipTrivia_of_clean ⟨by rintro c r h; injection h with h; subst h; decide, by rintro r h; injection h with h; revert h; decide,
      by rintro r h; injection h with h; revert h; decide⟩
  unfold lexNext
  dsimp only
  rw [h]
  unfold nextRaw
  dsimp only
  rw [if_neg (by rw [isLetter_ascii_false (by decide) (by decide) (by decide)]; decide), if_neg (by decide), if_neg (by decide),
    if_neg (by decide), if_pos (by decide)]
  rfl

/-- Behind a statement: nothing, the next one, or the end of the block. -/
def End (q : List Char) : Prop := q = [] ∨ (∃ r, q = ';' :: r) ∨ ∃ r, q = ' ' :: r

def s5 : List Char := " КонецПопытки".toList

def tEnd1 (q : List Char) : Tok := ⟨"КонецПопытки".toList, .nil, q, false⟩
def tCat1 (q : List Char) : Tok := ⟨"Исключение".toList, .nil, s5 ++ q, false⟩
/-- The word `Попытка` of the innermost statement, and of another. -/
def tLeaf (q : List Char) : Tok := ⟨"Попытка".toList, .nil, s4 ++ q, false⟩
def tOpen (q : List Char) : Tok := ⟨"Попытка".toList, .nil, ';' :: q, false⟩
def tSemi (q : List Char) : Tok := ⟨[';'], .nil, q, false⟩

theorem leaf_next (q : List Char) : lexNext (tSemi (leafText ++ q)) = (tLeaf q, .ok (some tTry)) :=
  lexNext_append (t := ⟨[';'], .nil, leafText, false⟩) (t' := ⟨"Попытка".toList, .nil, s4, false⟩) (lexIs_eq (by decide +kernel))
    (by decide +kernel) q

theorem first_next (q : List Char) : lexNext (startTok (leafText ++ q)) = (tLeaf q, .ok (some tTry)) :=
  lexNext_append (t := ⟨[], .nil, leafText, false⟩) (t' := ⟨"Попытка".toList, .nil, s4, false⟩) (lexIs_eq (by decide +kernel))
    (by decide +kernel) q

theorem open_next (q : List Char) : lexNext (tSemi (openText ++ q)) = (tOpen q, .ok (some tTry)) :=
  lexNext_append (t := ⟨[';'], .nil, openText, false⟩) (t' := ⟨"Попытка".toList, .nil, [';'], false⟩)
    (lexIs_eq (by decide +kernel)) (by decide +kernel) q

theorem leaf_catch (q : List Char) : lexNext (tLeaf q) = (tCat1 q, .ok (some tCatch)) :=
  lexNext_append (t := ⟨"Попытка".toList, .nil, s4, false⟩) (t' := ⟨"Исключение".toList, .nil, s5, false⟩) (lexIs_eq (by decide +kernel))
    (by decide +kernel) q

theorem end_catch (q : List Char) : lexNext (tEnd1 (s4 ++ q)) = (tCat1 q, .ok (some tCatch)) :=
  lexNext_append (t := ⟨"КонецПопытки".toList, .nil, s4, false⟩) (t' := ⟨"Исключение".toList, .nil, s5, false⟩)
    (lexIs_eq (by decide +kernel)) (by decide +kernel) q

theorem end_next {q : List Char} (h : End q) : lexNext (tCat1 q) = (tEnd1 q, .ok (some tEndTry)) := by
  rcases h with rfl | ⟨r, rfl⟩ | ⟨r, rfl⟩
  · exact lexIs_eq (by decide +kernel)
  · exact lexNext_append (t := ⟨"Исключение".toList, .nil, s5 ++ [';'], false⟩) (t' := ⟨"КонецПопытки".toList, .nil, [';'], false⟩)
      (lexIs_eq (by decide +kernel)) (by decide +kernel) r
  · exact lexNext_append (t := ⟨"Исключение".toList, .nil, s5 ++ [' '], false⟩) (t' := ⟨"КонецПопытки".toList, .nil, [' '], false⟩)
      (lexIs_eq (by decide +kernel)) (by decide +kernel) r

theorem units_end (d n : Nat) : End (units d n) := by
  cases n with
  | zero => exact .inl rfl
  | succ n => exact .inr (.inl ⟨_, rfl⟩)

/-! ### Rounds -/

inductive Go : Nat → Cfg → Cfg → Prop
  | refl (c) : Go 0 c c
  | step {m c c' c''} : step c = .ok (.go c') → Go m c' c'' → Go (m + 1) c c''

theorem Go.trans {m n : Nat} {c c' c'' : Cfg} (h : Go m c c') (h' : Go n c' c'') : Go (m + n) c c'' := by
  induction h with
  | refl => simpa using h'
  | step h1 _ ih => rw [Nat.succ_add]; exact .step h1 (ih h')

theorem Go.run {m : Nat} {c c' : Cfg} (h : Go m c c') (n : Nat) : run (m + n) c = run n c' := by
  induction h with
  | refl => rw [Nat.zero_add]
  | step h1 _ ih => rw [Nat.succ_add, Verif.run, h1]; exact ih

theorem reduce_gen {a a' : Ast} {lv : Tok} {k : Option Nat} {live l : List (Nat × SV)} {st st' : List SV} {p n s q : Nat} {v0 v' : SV}
    (hr : (get yyR2 p).toNat = n) (hp : popN n live st = ((s, v0) :: l, st'))
    (ha : act p (fun i => st'.getD (i - 1) {}) (st'.headD {}) a = .ok (v', a')) (hg : gotoOf s p = q) :
    reduce ⟨a, lv, k, live, st⟩ p = .ok (.go ⟨a', lv, k, (q, v') :: (s, v0) :: l, st'.tail⟩) := by
  unfold reduce
  dsimp only
  rw [hr, hp]
  dsimp only
  rw [ha, hg]
  rfl

/-- A round that reduces without looking at the next token. -/
theorem go_lazy {a a' : Ast} {lv : Tok} {k : Option Nat} {l l' : List (Nat × SV)} {st st' : List SV} {p n s s' q : Nat} {v v0 v' : SV}
    (h1 : get yyPact s ≤ yyFlag) (h2 : get yyDef s = ((p + 1 : Nat) : Int)) (hr : (get yyR2 (p + 1)).toNat = n)
    (hp : popN n ((s, v) :: l) st = ((s', v0) :: l', st'))
    (ha : act (p + 1) (fun i => st'.getD (i - 1) {}) (st'.headD {}) a = .ok (v', a')) (hg : gotoOf s' (p + 1) = q) :
    step ⟨a, lv, k, (s, v) :: l, st⟩ = .ok (.go ⟨a', lv, k, (q, v') :: (s', v0) :: l', st'.tail⟩) :=
  (round_lazy h1 h2).1.trans (reduce_gen hr hp ha hg)

/-- A round that reads a token and reduces. -/
theorem go_red {a a' : Ast} {lv t' : Tok} {l l' : List (Nat × SV)} {st st' : List SV} {p n s s' q k t : Nat} {v v0 v' : SV}
    (hc : a.code ≠ []) (ht : lexNext lv = (t', .ok (some k))) (hk : tokNum k = t) (h1 : ¬ get yyPact s ≤ yyFlag) (hs : shiftOf s t = none)
    (h2 : get yyDef s = ((p + 1 : Nat) : Int)) (hr : (get yyR2 (p + 1)).toNat = n)
    (hp : popN n ((s, v) :: l) st = ((s', v0) :: l', st'))
    (ha : act (p + 1) (fun i => st'.getD (i - 1) {}) (st'.headD {}) { a with cur := some t' } = .ok (v', a')) (hg : gotoOf s' (p + 1) = q) :
    step ⟨a, lv, none, (s, v) :: l, st⟩ = .ok (.go ⟨a', t', some t, (q, v') :: (s', v0) :: l', st'.tail⟩) := by
  subst hk
  exact (round_next hc ht h1).1.trans ((round_reduce h1 hs h2).1.trans (reduce_gen hr hp ha hg))

/-- A round that reads a token and shifts it. -/
theorem go_shift {a : Ast} {lv t' : Tok} {l : List (Nat × SV)} {st : List SV} {s q k t : Nat} {v : SV}
    (hc : a.code ≠ []) (ht : lexNext lv = (t', .ok (some k))) (hk : tokNum k = t) (h1 : ¬ get yyPact s ≤ yyFlag)
    (hs : shiftOf s t = some q) :
    step ⟨a, lv, none, (s, v) :: l, st⟩ = .ok (.go ⟨{ a with cur := some t' }, t', none, (q, { token := t' }) :: (s, v) :: l, st.tail⟩) := by
  subst hk
  exact (round_next hc ht h1).1.trans (round_shift h1 hs).1

/-- A round with an entry in the table of exceptions, which reads a token. -/
theorem go_exca {a a' : Ast} {lv t' : Tok} {l l' : List (Nat × SV)} {st st' : List SV} {p n s s' q k t : Nat} {v v0 v' : SV}
    (hc : a.code ≠ []) (ht : lexNext lv = (t', .ok (some k))) (hk : tokNum k = t) (h1 : get yyPact s ≤ yyFlag)
    (h2 : get yyDef s = -2) (he : excaFind t (excaFrom s excaPairs) = ((p + 1 : Nat) : Int)) (hr : (get yyR2 (p + 1)).toNat = n)
    (hp : popN n ((s, v) :: l) st = ((s', v0) :: l', st'))
    (ha : act (p + 1) (fun i => st'.getD (i - 1) {}) (st'.headD {}) { a with cur := some t' } = .ok (v', a')) (hg : gotoOf s' (p + 1) = q) :
    step ⟨a, lv, none, (s, v) :: l, st⟩ = .ok (.go ⟨a', t', some t, (q, v') :: (s', v0) :: l', st'.tail⟩) := by
  subst hk
  refine Eq.trans ?_ ((round_exca (a := { a with cur := some t' }) (lv := t') h1 h2 he).1.trans (reduce_gen hr hp ha hg))
  unfold step
  dsimp only
  rw [if_pos h1, if_pos h1]
  unfold defaultAction
  dsimp only
  rw [if_pos h2, if_pos h2, fetch_next hc ht, fetch_look rfl]

/-! ### One statement -/

/-- What the rounds keep. -/
structure Same (a a' : Ast) : Prop where
  code : a'.code = a.code
  err : a'.err = a.err
  mod : a'.mod = a.mod

theorem Same.trans {a b c : Ast} (h : Same a b) (h' : Same b c) : Same a c :=
  ⟨h'.code.trans h.code, h'.err.trans h.err, h'.mod.trans h.mod⟩

/-- The blocks in the slots above the separator, and above the statement behind it. -/
def slots (st : List SV) : Blocks := fun j => (st.getD (1 + 3 * j) {}).body
def slotsUp (st : List SV) : Blocks := fun j => (st.getD (3 * j) {}).body

/-- From the word `Исключение` of a statement to its end. -/
theorem close_go {a : Ast} {q : List Char} {B C T S : SV} {low : List (Nat × SV)} {st : List SV} (hc : a.code ≠ []) (hq : End q) :
    ∃ a' E, Same a a' ∧ Go 6 ⟨a, tCat1 q, none, (121, C) :: (82, B) :: (28, T) :: (48, S) :: low, st⟩
      ⟨a', tEnd1 q, none, (96, { T with stmt := .tryS B.opt_body [] }) :: (48, S) :: low,
        B :: C :: st.headD {} :: { st.tail.headD {} with opt_body := [] } :: E :: st.tail.tail.tail⟩ := by
  obtain ⟨E, hE⟩ : ∃ x : SV, x = { token := tEnd1 q } := ⟨_, rfl⟩
  obtain ⟨Y, hY⟩ : ∃ x : SV, x = st.headD {} := ⟨_, rfl⟩
  obtain ⟨N, hN⟩ : ∃ x : SV, x = { st.tail.headD {} with opt_body := [] } := ⟨_, rfl⟩
  have hN' : N.opt_body = [] := by rw [hN]
  obtain ⟨X, hX⟩ : ∃ x : SV, x = { T with stmt := .tryS B.opt_body [] } := ⟨_, rfl⟩
  obtain ⟨a1, ha1⟩ : ∃ x : Ast, x = setTry a true := ⟨_, rfl⟩
  obtain ⟨a2, ha2⟩ : ∃ x : Ast, x = { a1 with cur := some (tEnd1 q) } := ⟨_, rfl⟩
  obtain ⟨a3, ha3⟩ : ∃ x : Ast, x = setTry a2 false := ⟨_, rfl⟩
  have c1 : a1.code ≠ [] := by rw [ha1]; exact hc
  have e1 : step ⟨a, tCat1 q, none, (121, C) :: (82, B) :: (28, T) :: (48, S) :: low, st⟩ =
      .ok (.go ⟨a1, tCat1 q, none, (137, Y) :: (121, C) :: (82, B) :: (28, T) :: (48, S) :: low, st.tail⟩) :=
    go_lazy (p := 61) (n := 0) (st' := st) (by decide +kernel) (by decide +kernel) (by decide +kernel) rfl (by rw [ha1, hY]; rfl)
      (by decide +kernel)
  have e2 : step ⟨a1, tCat1 q, none, (137, Y) :: (121, C) :: (82, B) :: (28, T) :: (48, S) :: low, st.tail⟩ =
      .ok (.go ⟨a2, tEnd1 q, some 31, (157, N) :: (137, Y) :: (121, C) :: (82, B) :: (28, T) :: (48, S) :: low, st.tail.tail⟩) :=
    go_red (p := 15) (n := 0) (st' := st.tail) c1 (end_next hq) (by decide +kernel) (by decide +kernel) (by decide +kernel)
      (by decide +kernel) (by decide +kernel) rfl (by rw [ha2, hN]; rfl) (by decide +kernel)
  have e3 : step ⟨a2, tEnd1 q, some 31, (157, N) :: (137, Y) :: (121, C) :: (82, B) :: (28, T) :: (48, S) :: low, st.tail.tail⟩ =
      .ok (.go ⟨a2, tEnd1 q, none, (174, E) :: (157, N) :: (137, Y) :: (121, C) :: (82, B) :: (28, T) :: (48, S) :: low,
        st.tail.tail.tail⟩) := by
    rw [hE]; exact (round_shift (by decide +kernel) (by decide +kernel)).1
  generalize hst : st.tail.tail.tail = st3 at e3
  have e4 : step ⟨a2, tEnd1 q, none, (174, E) :: (157, N) :: (137, Y) :: (121, C) :: (82, B) :: (28, T) :: (48, S) :: low, st3⟩ =
      .ok (.go ⟨a3, tEnd1 q, none, (11, X) :: (48, S) :: low, B :: C :: Y :: N :: E :: st3⟩) :=
    go_lazy (p := 62) (n := 6) (st' := T :: B :: C :: Y :: N :: E :: st3) (by decide +kernel) (by decide +kernel)
      (by decide +kernel) rfl (by rw [hX, ha3, ← hN']; rfl) (by decide +kernel)
  generalize hr : B :: C :: Y :: N :: E :: st3 = rest at e4
  have e5 : step ⟨a3, tEnd1 q, none, (11, X) :: (48, S) :: low, rest⟩ = .ok (.go ⟨a3, tEnd1 q, none, (97, X) :: (48, S) :: low, rest⟩) :=
    go_lazy (p := 47) (n := 1) (st' := X :: rest) (by decide +kernel) (by decide +kernel) (by decide +kernel) rfl rfl (by decide +kernel)
  have e6 : step ⟨a3, tEnd1 q, none, (97, X) :: (48, S) :: low, rest⟩ = .ok (.go ⟨a3, tEnd1 q, none, (96, X) :: (48, S) :: low, rest⟩) :=
    go_lazy (p := 20) (n := 1) (st' := X :: rest) (by decide +kernel) (by decide +kernel) (by decide +kernel) rfl rfl (by decide +kernel)
  refine ⟨a3, E, ⟨by rw [ha3, ha2, ha1]; rfl, by rw [ha3, ha2, ha1]; rfl, by rw [ha3, ha2, ha1]; rfl⟩, ?_⟩
  rw [← hX, ← hY, ← hN, hr]
  exact .step e1 <| .step e2 <| .step e3 <| .step e4 <| .step e5 <| .step e6 <| .refl _

theorem getD_tail (l : List SV) (n : Nat) : l.tail.getD n {} = l.getD (n + 1) {} := by cases l <;> rfl

theorem headD_getD (l : List SV) : l.headD {} = l.getD 0 {} := by cases l <;> rfl

set_option maxHeartbeats 2000000 in
/-- The rounds for a statement behind a separator. -/
theorem stmt_go (d : Nat) {a : Ast} {q : List Char} {S : SV} {low : List (Nat × SV)} {st : List SV} (hc : a.code ≠ []) (hq : End q) :
    ∃ a' X st', Same a a' ∧ Go (9 + 14 * d) ⟨a, tSemi (stmtText d ++ q), none, (48, S) :: low, st⟩
        ⟨a', tEnd1 q, none, (96, X) :: (48, S) :: low, st'⟩ ∧
      X.stmt = (build d (slots st)).1 ∧ slotsUp st' = (build d (slots st)).2 := by
  induction d generalizing a q S low st with
  | zero =>
    obtain ⟨T, hT⟩ : ∃ x : SV, x = { token := tLeaf q } := ⟨_, rfl⟩
    obtain ⟨B, hB⟩ : ∃ x : SV, x = { st.tail.headD {} with opt_body := [] } := ⟨_, rfl⟩
    obtain ⟨C, hC⟩ : ∃ x : SV, x = { token := tCat1 q } := ⟨_, rfl⟩
    obtain ⟨a1, ha1⟩ : ∃ x : Ast, x = { a with cur := some (tLeaf q) } := ⟨_, rfl⟩
    obtain ⟨a2, ha2⟩ : ∃ x : Ast, x = { a1 with cur := some (tCat1 q) } := ⟨_, rfl⟩
    have c1 : a1.code ≠ [] := by rw [ha1]; exact hc
    have c2 : a2.code ≠ [] := by rw [ha2]; exact c1
    have e1 : step ⟨a, tSemi (stmtText 0 ++ q), none, (48, S) :: low, st⟩ =
        .ok (.go ⟨a1, tLeaf q, none, (28, T) :: (48, S) :: low, st.tail⟩) := by
      rw [hT, ha1]; exact go_shift (t := 29) hc (leaf_next q) (by decide +kernel) (by decide +kernel) (by decide +kernel)
    have e2 : step ⟨a1, tLeaf q, none, (28, T) :: (48, S) :: low, st.tail⟩ =
        .ok (.go ⟨a2, tCat1 q, some 30, (82, B) :: (28, T) :: (48, S) :: low, st.tail.tail⟩) :=
      go_red (p := 15) (n := 0) (st' := st.tail) c1 (leaf_catch q) (by decide +kernel) (by decide +kernel) (by decide +kernel)
        (by decide +kernel) (by decide +kernel) rfl (by rw [ha2, hB]; rfl) (by decide +kernel)
    have e3 : step ⟨a2, tCat1 q, some 30, (82, B) :: (28, T) :: (48, S) :: low, st.tail.tail⟩ =
        .ok (.go ⟨a2, tCat1 q, none, (121, C) :: (82, B) :: (28, T) :: (48, S) :: low, st.tail.tail.tail⟩) := by
      rw [hC]; exact (round_shift (by decide +kernel) (by decide +kernel)).1
    obtain ⟨a', E, hs, g⟩ := close_go (B := B) (C := C) (T := T) (S := S) (low := low) (st := st.tail.tail.tail) c2 hq
    refine ⟨a', _, _, Same.trans ⟨by rw [ha2, ha1], by rw [ha2, ha1], by rw [ha2, ha1]⟩ hs, .step e1 <| .step e2 <| .step e3 g, ?_, ?_⟩
    · rw [hB]; rfl
    · funext j
      match j with
      | 0 => rw [hB]; show (st.tail.headD {}).body = _; rw [headD_getD, getD_tail]; rfl
      | 1 => show (st.tail.tail.tail.tail.headD {}).body = _; rw [headD_getD, getD_tail, getD_tail, getD_tail, getD_tail]; rfl
      | j + 2 =>
        show ((B :: C :: st.tail.tail.tail.headD {} :: _ :: E :: st.tail.tail.tail.tail.tail.tail).getD (3 * j + 1 + 5) {}).body = _
        show (st.tail.tail.tail.tail.tail.tail.getD (3 * j + 1) {}).body = _
        rw [getD_tail, getD_tail, getD_tail, getD_tail, getD_tail, getD_tail]
        show _ = (st.getD (1 + 3 * (j + 2)) {}).body
        rw [show 1 + 3 * (j + 2) = 3 * j + 1 + 1 + 1 + 1 + 1 + 1 + 1 by omega]
  | succ d ih =>
    obtain ⟨T, hT⟩ : ∃ x : SV, x = { token := tOpen (stmtText d ++ (s4 ++ q)) } := ⟨_, rfl⟩
    obtain ⟨B, hB⟩ : ∃ x : SV, x = { st.tail.headD {} with opt_body := [] } := ⟨_, rfl⟩
    obtain ⟨S2, hS2⟩ : ∃ x : SV, x = { token := tSemi (stmtText d ++ (s4 ++ q)) } := ⟨_, rfl⟩
    obtain ⟨C, hC⟩ : ∃ x : SV, x = { token := tCat1 q } := ⟨_, rfl⟩
    obtain ⟨a1, ha1⟩ : ∃ x : Ast, x = { a with cur := some (tOpen (stmtText d ++ (s4 ++ q))) } := ⟨_, rfl⟩
    obtain ⟨a2, ha2⟩ : ∃ x : Ast, x = { a1 with cur := some (tSemi (stmtText d ++ (s4 ++ q))) } := ⟨_, rfl⟩
    have c1 : a1.code ≠ [] := by rw [ha1]; exact hc
    have c2 : a2.code ≠ [] := by rw [ha2]; exact c1
    have htext : stmtText (d + 1) ++ q = openText ++ (stmtText d ++ (s4 ++ q)) := by
      rw [stmtText, List.append_assoc, List.append_assoc]
    rw [htext]
    generalize htx : stmtText d ++ (s4 ++ q) = tx at *
    generalize hlow : (48, S) :: low = low'
    have e1 : step ⟨a, tSemi (openText ++ tx), none, low', st⟩ = .ok (.go ⟨a1, tOpen tx, none, (28, T) :: low', st.tail⟩) := by
      subst hlow
      rw [hT, ha1]; exact go_shift (t := 29) hc (open_next tx) (by decide +kernel) (by decide +kernel) (by decide +kernel)
    have e2 : step ⟨a1, tOpen tx, none, (28, T) :: low', st.tail⟩ =
        .ok (.go ⟨a2, tSemi tx, some 5, (82, B) :: (28, T) :: low', st.tail.tail⟩) :=
      go_red (p := 15) (n := 0) (st' := st.tail) c1 (semi_next _ _ _) (by decide +kernel) (by decide +kernel) (by decide +kernel)
        (by decide +kernel) (by decide +kernel) rfl (by rw [ha2, hB]; rfl) (by decide +kernel)
    have e3 : step ⟨a2, tSemi tx, some 5, (82, B) :: (28, T) :: low', st.tail.tail⟩ =
        .ok (.go ⟨a2, tSemi tx, none, (51, S2) :: (82, B) :: (28, T) :: low', st.tail.tail.tail⟩) := by
      rw [hS2]; exact (round_shift (by decide +kernel) (by decide +kernel)).1
    generalize hst : st.tail.tail.tail = st3 at e3
    have e4 : step ⟨a2, tSemi tx, none, (51, S2) :: (82, B) :: (28, T) :: low', st3⟩ =
        .ok (.go ⟨a2, tSemi tx, none, (49, S2) :: (82, B) :: (28, T) :: low', st3⟩) :=
      go_lazy (p := 108) (n := 1) (st' := S2 :: st3) (by decide +kernel) (by decide +kernel) (by decide +kernel) rfl rfl (by decide +kernel)
    have e5 : step ⟨a2, tSemi tx, none, (49, S2) :: (82, B) :: (28, T) :: low', st3⟩ =
        .ok (.go ⟨a2, tSemi tx, none, (48, S2) :: (82, B) :: (28, T) :: low', st3⟩) :=
      go_lazy (p := 21) (n := 1) (st' := S2 :: st3) (by decide +kernel) (by decide +kernel) (by decide +kernel) rfl rfl (by decide +kernel)
    obtain ⟨a3, X, st', hs, g, hX, hsl⟩ := ih (S := S2) (low := (82, B) :: (28, T) :: low') (st := st3) (q := s4 ++ q) c2
      (.inr (.inr ⟨_, rfl⟩))
    rw [htx] at g
    have c3 : a3.code ≠ [] := by rw [hs.code]; exact c2
    obtain ⟨B2, hB2⟩ : ∃ x : SV, x = { B with body := B.body ++ [X.stmt] } := ⟨_, rfl⟩
    obtain ⟨B3, hB3⟩ : ∃ x : SV, x = { B2 with opt_body := B2.body } := ⟨_, rfl⟩
    obtain ⟨a4, ha4⟩ : ∃ x : Ast, x = { a3 with cur := some (tCat1 q) } := ⟨_, rfl⟩
    have c4 : a4.code ≠ [] := by rw [ha4]; exact c3
    have hnil : X.stmt.isNil = false := by rw [hX]; cases d <;> rfl
    have e6 : step ⟨a3, tEnd1 (s4 ++ q), none, (96, X) :: (48, S2) :: (82, B) :: (28, T) :: low', st'⟩ =
        .ok (.go ⟨a3, tEnd1 (s4 ++ q), none, (47, B2) :: (28, T) :: low', S2 :: X :: st'⟩) := by
      refine go_lazy (p := 18) (n := 3) (st' := B :: S2 :: X :: st') (by decide +kernel) (by decide +kernel) (by decide +kernel) rfl ?_
        (by decide +kernel)
      show (do .ok (if X.stmt.isNil then B else { B with body := B.body ++ [X.stmt] }, ← checkColon a3 S2.token B.opt_body)) = _
      rw [hnil, hS2, hB2]; rfl
    have e7 : step ⟨a3, tEnd1 (s4 ++ q), none, (47, B2) :: (28, T) :: low', S2 :: X :: st'⟩ =
        .ok (.go ⟨a3, tEnd1 (s4 ++ q), none, (82, B3) :: (28, T) :: low', S2 :: X :: st'⟩) :=
      go_lazy (p := 16) (n := 1) (st' := B2 :: S2 :: X :: st') (by decide +kernel) (by decide +kernel) (by decide +kernel) rfl
        (by rw [hB3]; rfl) (by decide +kernel)
    have e8 : step ⟨a3, tEnd1 (s4 ++ q), none, (82, B3) :: (28, T) :: low', S2 :: X :: st'⟩ =
        .ok (.go ⟨a4, tCat1 q, none, (121, C) :: (82, B3) :: (28, T) :: low', X :: st'⟩) := by
      rw [hC, ha4]; exact go_shift (t := 30) c3 (end_catch q) (by decide +kernel) (by decide +kernel) (by decide +kernel)
    subst hlow
    obtain ⟨a', E, hs', g'⟩ := close_go (B := B3) (C := C) (T := T) (S := S) (low := low) (st := X :: st') c4 hq
    have hbody : B3.body = slots st 0 ++ [(build d fun j => slots st (j + 1)).1] := by
      have h0 : slots st3 = fun j => slots st (j + 1) := by
        funext j
        show (st3.getD (1 + 3 * j) {}).body = (st.getD (1 + 3 * (j + 1)) {}).body
        rw [← hst, getD_tail, getD_tail, getD_tail, show 1 + 3 * (j + 1) = 1 + 3 * j + 1 + 1 + 1 by omega]
      rw [hB3, hB2, hB, ← h0, ← hX]
      show (st.tail.headD {}).body ++ _ = _
      rw [headD_getD, getD_tail]; rfl
    have h0 : slots st3 = fun j => slots st (j + 1) := by
      funext j
      show (st3.getD (1 + 3 * j) {}).body = (st.getD (1 + 3 * (j + 1)) {}).body
      rw [← hst, getD_tail, getD_tail, getD_tail, show 1 + 3 * (j + 1) = 1 + 3 * j + 1 + 1 + 1 by omega]
    have G := (Go.step e1 <| .step e2 <| .step e3 <| .step e4 <| .step e5 g).trans (.step e6 <| .step e7 <| .step e8 g')
    rw [show 9 + 14 * d + 1 + 1 + 1 + 1 + 1 + (6 + 1 + 1 + 1) = 9 + 14 * (d + 1) by omega] at G
    refine ⟨a', _, _, Same.trans (b := a4) ⟨?_, ?_, ?_⟩ hs', G, ?_, ?_⟩
    · rw [ha4]; show a3.code = _; rw [hs.code, ha2, ha1]
    · rw [ha4]; show a3.err = _; rw [hs.err, ha2, ha1]
    · rw [ha4]; show a3.mod = _; rw [hs.mod, ha2, ha1]
    · show Stm.tryS B3.opt_body [] = .tryS _ []
      rw [← hbody, hB3]
    · funext j
      match j with
      | 0 => exact hbody
      | 1 =>
        show (st'.headD {}).body = (build d fun j => slots st (j + 1)).2 0
        rw [← h0, ← hsl, headD_getD]; rfl
      | j + 2 =>
        show (st'.tail.tail.getD (3 * j + 1) {}).body = (build d fun j => slots st (j + 1)).2 (j + 1)
        rw [← h0, ← hsl, getD_tail, getD_tail]
        show _ = (st'.getD (3 * (j + 1)) {}).body
        rw [show 3 * (j + 1) = 3 * j + 1 + 1 + 1 by omega]

/-! ### The whole text -/

/-- The parser waits behind a statement of the module. -/
structure Waits (code q : List Char) (f : Blocks) (L : List Stm) (c : Cfg) : Prop where
  code : c.ast.code = code
  err : c.ast.err = none
  mod : c.ast.mod = ⟨[], []⟩
  look : c.look = none
  lval : ∃ w, c.lval = ⟨w, .nil, q, false⟩
  live : ∃ v v0, c.live = [(2, v), (0, v0)] ∧ v.body = L
  slot : ∀ j, (c.stale.getD (2 + 3 * j) {}).body = f j

set_option maxHeartbeats 2000000 in
theorem waits_next {code q : List Char} {f : Blocks} {L : List Stm} {c : Cfg} (d : Nat) (hc : code ≠ []) (hq : End q)
    (h : Waits code (';' :: (stmtText d ++ q)) f L c) :
    ∃ c', Go (14 + 14 * d) c c' ∧ Waits code q (build d f).2 (L ++ [(build d f).1]) c' := by
  obtain ⟨a, lv, look, live, st⟩ := c
  obtain ⟨h1, h2, h3, h4, ⟨w, h5⟩, ⟨v, v0, h6, h7⟩, h8⟩ := h
  dsimp only at h1 h2 h3 h4 h5 h6 h8
  subst h4 h5 h6 h1 h7
  generalize htx : stmtText d ++ q = tx
  obtain ⟨S1, hS1⟩ : ∃ x : SV, x = { token := tSemi tx } := ⟨_, rfl⟩
  obtain ⟨V, hV⟩ : ∃ x : SV, x = { v with opt_body := v.body } := ⟨_, rfl⟩
  obtain ⟨a1, ha1⟩ : ∃ x : Ast, x = { a with cur := some (tSemi tx) } := ⟨_, rfl⟩
  have c1 : a1.code ≠ [] := by rw [ha1]; exact hc
  have e1 : step ⟨a, ⟨w, .nil, ';' :: tx, false⟩, none, [(2, v), (0, v0)], st⟩ =
      .ok (.go ⟨a1, tSemi tx, some 5, [(5, V), (0, v0)], st⟩) :=
    go_exca (p := 16) (n := 1) (st' := v :: st) hc (semi_next _ _ _) (by decide +kernel) (by decide +kernel) (by decide +kernel)
      (by decide +kernel) (by decide +kernel) rfl (by rw [ha1, hV]; rfl) (by decide +kernel)
  have e2 : step ⟨a1, tSemi tx, some 5, [(5, V), (0, v0)], st⟩ =
      .ok (.go ⟨a1, tSemi tx, none, [(51, S1), (5, V), (0, v0)], st.tail⟩) := by
    rw [hS1]; exact (round_shift (by decide +kernel) (by decide +kernel)).1
  have e3 : step ⟨a1, tSemi tx, none, [(51, S1), (5, V), (0, v0)], st.tail⟩ =
      .ok (.go ⟨a1, tSemi tx, none, [(49, S1), (5, V), (0, v0)], st.tail⟩) :=
    go_lazy (p := 108) (n := 1) (st' := S1 :: st.tail) (by decide +kernel) (by decide +kernel) (by decide +kernel) rfl rfl (by decide +kernel)
  have e4 : step ⟨a1, tSemi tx, none, [(49, S1), (5, V), (0, v0)], st.tail⟩ =
      .ok (.go ⟨a1, tSemi tx, none, [(48, S1), (5, V), (0, v0)], st.tail⟩) :=
    go_lazy (p := 21) (n := 1) (st' := S1 :: st.tail) (by decide +kernel) (by decide +kernel) (by decide +kernel) rfl rfl (by decide +kernel)
  obtain ⟨a2, X, st', hs, g, hX, hsl⟩ := stmt_go d (S := S1) (low := [(5, V), (0, v0)]) (st := st.tail) c1 hq
  rw [htx] at g
  have hf : slots st.tail = f := by
    funext j
    rw [← h8 j]
    show (st.tail.getD (1 + 3 * j) {}).body = _
    rw [getD_tail, show 2 + 3 * j = 1 + 3 * j + 1 by omega]
  rw [hf] at hX hsl
  obtain ⟨Z, hZ⟩ : ∃ x : SV, x = { V with body := V.body ++ [X.stmt] } := ⟨_, rfl⟩
  have hnil : X.stmt.isNil = false := by rw [hX]; cases d <;> rfl
  have e5 : step ⟨a2, tEnd1 q, none, [(96, X), (48, S1), (5, V), (0, v0)], st'⟩ =
      .ok (.go ⟨a2, tEnd1 q, none, [(2, Z), (0, v0)], S1 :: X :: st'⟩) := by
    refine go_lazy (p := 18) (n := 3) (st' := V :: S1 :: X :: st') (by decide +kernel) (by decide +kernel) (by decide +kernel) rfl ?_
      (by decide +kernel)
    show (do .ok (if X.stmt.isNil then V else { V with body := V.body ++ [X.stmt] }, ← checkColon a2 S1.token V.opt_body)) = _
    rw [hnil, hS1, hZ]; rfl
  have G := (Go.step e1 <| .step e2 <| .step e3 <| .step e4 g).trans (.step e5 (.refl _))
  rw [show 9 + 14 * d + 1 + 1 + 1 + 1 + (0 + 1) = 14 + 14 * d by omega] at G
  refine ⟨_, G, ?_, ?_, ?_, rfl, ⟨_, rfl⟩, ⟨Z, v0, rfl, ?_⟩, ?_⟩
  · show a2.code = _; rw [hs.code, ha1]
  · show a2.err = _; rw [hs.err, ha1]; exact h2
  · show a2.mod = _; rw [hs.mod, ha1]; exact h3
  · rw [hZ, hV, ← hX]
  · intro j
    rw [← hsl]
    show ((S1 :: X :: st').getD (2 + 3 * j) {}).body = (st'.getD (3 * j) {}).body
    rw [show 2 + 3 * j = 3 * j + 1 + 1 by omega]
    rfl

theorem waits_all {code : List Char} (hc : code ≠ []) (d n : Nat) {f : Blocks} {L : List Stm} {c : Cfg}
    (h : Waits code (units d n) f L c) :
    ∃ c', Go ((14 + 14 * d) * n) c c' ∧ Waits code [] (after d n f) (L ++ built d n f) c' := by
  induction n generalizing f L c with
  | zero => exact ⟨c, .refl _, by rw [built, List.append_nil]; exact h⟩
  | succ n ih =>
    obtain ⟨c', g, h'⟩ := waits_next (q := units d n) d hc (units_end d n) h
    obtain ⟨c'', g', h''⟩ := ih h'
    refine ⟨c'', ?_, ?_⟩
    · rw [Nat.mul_succ, Nat.add_comm]; exact g.trans g'
    · rw [List.append_assoc] at h''
      exact h''

theorem waits_first (a : Ast) {q : List Char} (hq : End q) (hc : a.code = leafText ++ q) (he : a.err = none)
    (hm : a.mod = ⟨[], []⟩) : ∃ c, Go 9 (initCfg a) c ∧ Waits a.code q (fun _ => []) [.tryS [] []] c := by
  have c0 : a.code ≠ [] := by
    rw [hc]
    intro h
    exact absurd (List.append_eq_nil_iff.1 h).1 (by decide +kernel)
  have l1 := first_next q
  rw [← hc] at l1
  obtain ⟨T, hT⟩ : ∃ x : SV, x = { token := tLeaf q } := ⟨_, rfl⟩
  obtain ⟨C, hC⟩ : ∃ x : SV, x = { token := tCat1 q } := ⟨_, rfl⟩
  obtain ⟨E, hE⟩ : ∃ x : SV, x = { token := tEnd1 q } := ⟨_, rfl⟩
  obtain ⟨X, hX⟩ : ∃ x : SV, x = { T with stmt := .tryS [] [] } := ⟨_, rfl⟩
  obtain ⟨Z, hZ⟩ : ∃ x : SV, x = { X with body := [.tryS [] []] } := ⟨_, rfl⟩
  obtain ⟨a1, ha1⟩ : ∃ x : Ast, x = { a with cur := some (tLeaf q) } := ⟨_, rfl⟩
  obtain ⟨a2, ha2⟩ : ∃ x : Ast, x = { a1 with cur := some (tCat1 q) } := ⟨_, rfl⟩
  obtain ⟨a3, ha3⟩ : ∃ x : Ast, x = setTry a2 true := ⟨_, rfl⟩
  obtain ⟨a4, ha4⟩ : ∃ x : Ast, x = { a3 with cur := some (tEnd1 q) } := ⟨_, rfl⟩
  obtain ⟨a5, ha5⟩ : ∃ x : Ast, x = setTry a4 false := ⟨_, rfl⟩
  have c1 : a1.code ≠ [] := by rw [ha1]; exact c0
  have c3 : a3.code ≠ [] := by rw [ha3, ha2]; exact c1
  have e1 : step ⟨a, startTok a.code, none, [(0, {})], []⟩ = .ok (.go ⟨a1, tLeaf q, none, [(28, T), (0, {})], []⟩) := by
    rw [hT, ha1]; exact go_shift (t := 29) c0 l1 (by decide +kernel) (by decide +kernel) (by decide +kernel)
  have e2 : step ⟨a1, tLeaf q, none, [(28, T), (0, {})], []⟩ = .ok (.go ⟨a2, tCat1 q, some 30, [(82, {}), (28, T), (0, {})], []⟩) :=
    go_red (p := 15) (n := 0) (st' := []) c1 (leaf_catch q) (by decide +kernel) (by decide +kernel) (by decide +kernel)
      (by decide +kernel) (by decide +kernel) rfl (by rw [ha2]; rfl) (by decide +kernel)
  have e3 : step ⟨a2, tCat1 q, some 30, [(82, {}), (28, T), (0, {})], []⟩ =
      .ok (.go ⟨a2, tCat1 q, none, [(121, C), (82, {}), (28, T), (0, {})], []⟩) := by
    rw [hC]; exact (round_shift (by decide +kernel) (by decide +kernel)).1
  have e4 : step ⟨a2, tCat1 q, none, [(121, C), (82, {}), (28, T), (0, {})], []⟩ =
      .ok (.go ⟨a3, tCat1 q, none, [(137, {}), (121, C), (82, {}), (28, T), (0, {})], []⟩) :=
    go_lazy (p := 61) (n := 0) (st' := []) (by decide +kernel) (by decide +kernel) (by decide +kernel) rfl (by rw [ha3]; rfl)
      (by decide +kernel)
  have e5 : step ⟨a3, tCat1 q, none, [(137, {}), (121, C), (82, {}), (28, T), (0, {})], []⟩ =
      .ok (.go ⟨a4, tEnd1 q, some 31, [(157, {}), (137, {}), (121, C), (82, {}), (28, T), (0, {})], []⟩) :=
    go_red (p := 15) (n := 0) (st' := []) c3 (end_next hq) (by decide +kernel) (by decide +kernel) (by decide +kernel)
      (by decide +kernel) (by decide +kernel) rfl (by rw [ha4]; rfl) (by decide +kernel)
  have e6 : step ⟨a4, tEnd1 q, some 31, [(157, {}), (137, {}), (121, C), (82, {}), (28, T), (0, {})], []⟩ =
      .ok (.go ⟨a4, tEnd1 q, none, [(174, E), (157, {}), (137, {}), (121, C), (82, {}), (28, T), (0, {})], []⟩) := by
    rw [hE]; exact (round_shift (by decide +kernel) (by decide +kernel)).1
  have e7 : step ⟨a4, tEnd1 q, none, [(174, E), (157, {}), (137, {}), (121, C), (82, {}), (28, T), (0, {})], []⟩ =
      .ok (.go ⟨a5, tEnd1 q, none, [(11, X), (0, {})], [{}, C, {}, {}, E]⟩) :=
    go_lazy (p := 62) (n := 6) (st' := [T, {}, C, {}, {}, E]) (by decide +kernel) (by decide +kernel) (by decide +kernel) rfl
      (by rw [hX, ha5]; rfl) (by decide +kernel)
  have e8 : step ⟨a5, tEnd1 q, none, [(11, X), (0, {})], [{}, C, {}, {}, E]⟩ =
      .ok (.go ⟨a5, tEnd1 q, none, [(4, X), (0, {})], [{}, C, {}, {}, E]⟩) :=
    go_lazy (p := 47) (n := 1) (st' := [X, {}, C, {}, {}, E]) (by decide +kernel) (by decide +kernel) (by decide +kernel) rfl rfl
      (by decide +kernel)
  have e9 : step ⟨a5, tEnd1 q, none, [(4, X), (0, {})], [{}, C, {}, {}, E]⟩ =
      .ok (.go ⟨a5, tEnd1 q, none, [(2, Z), (0, {})], [{}, C, {}, {}, E]⟩) :=
    go_lazy (p := 17) (n := 1) (st' := [X, {}, C, {}, {}, E]) (by decide +kernel) (by decide +kernel) (by decide +kernel) rfl
      (by rw [hZ, hX]; rfl) (by decide +kernel)
  refine ⟨_, .step e1 <| .step e2 <| .step e3 <| .step e4 <| .step e5 <| .step e6 <| .step e7 <| .step e8 <| .step e9 <| .refl _,
    ?_, ?_, ?_, rfl, ⟨_, rfl⟩, ⟨Z, _, rfl, by rw [hZ]⟩, ?_⟩
  · show a5.code = _
    rw [ha5, ha4, ha3, ha2, ha1]; rfl
  · show a5.err = _
    rw [ha5, ha4, ha3, ha2, ha1]; exact he
  · show a5.mod = _
    rw [ha5, ha4, ha3, ha2, ha1]; exact hm
  · intro j
    match j with
    | 0 => rfl
    | j + 1 =>
      show (List.getD [{}, C, {}, {}, E] (2 + 3 * (j + 1)) ({} : SV)).body = []
      rw [show 2 + 3 * (j + 1) = 3 * j + 5 by omega]
      rfl

theorem fetch_eof {a : Ast} {lv : Tok} {live : List (Nat × SV)} {st : List SV} (hc : a.code ≠ []) (h : skipTrivia lv.rest = []) :
    ∃ t, fetch ⟨a, lv, none, live, st⟩ = (⟨a, t, none, live, st⟩, tokEnd) ∧ skipTrivia t.rest = [] := by
  have h1 := (lexNext_eof_iff lv).2 h
  have h2 : (lexNext lv).1.rest = (nextRaw lv.prevDot (skipTrivia lv.rest)).rest := lexNext_rest lv
  rw [h] at h2
  rw [fetch_none rfl, lexCall_eq hc]
  generalize lexNext lv = x at h1 h2
  obtain ⟨t, r⟩ := x
  dsimp only at h1 h2
  subst h1
  exact ⟨t, rfl, by rw [h2]; rfl⟩

theorem waits_end {code : List Char} {f : Blocks} {L : List Stm} {c : Cfg} (hc : code ≠ []) (h : Waits code [] f L c) (n : Nat) :
    ∃ a, run (n + 2) c = .ok (some (0, a)) ∧ a.err = none ∧ a.mod = ⟨[], L.map .stm⟩ := by
  obtain ⟨a, lv, look, live, st⟩ := c
  obtain ⟨h1, h2, h3, h4, ⟨w, h5⟩, ⟨v, v0, h6, h7⟩, -⟩ := h
  dsimp only at h1 h2 h3 h4 h5 h6
  subst h4 h5 h6 h1 h7
  obtain ⟨t, f1, ht⟩ := fetch_eof (lv := ⟨w, .nil, [], false⟩) (live := [(2, v), (0, v0)]) (st := st) hc (by rfl)
  obtain ⟨u, f2, -⟩ := fetch_eof (a := appendStms a v.body) (live := [(1, v), (0, v0)]) (st := st) hc ht
  have e1 : step ⟨a, ⟨w, .nil, [], false⟩, none, [(2, v), (0, v0)], st⟩ =
      .ok (.go ⟨appendStms a v.body, t, none, [(1, v), (0, v0)], st⟩) := by
    unfold step
    dsimp only
    rw [if_pos (by decide +kernel)]
    unfold defaultAction
    dsimp only
    rw [if_pos (by decide +kernel), f1]
    dsimp only
    rw [show excaFind tokEnd (excaFrom 2 excaPairs) = 2 from by decide +kernel]
    rw [if_neg (by decide), if_neg (by decide)]
    exact reduce_gen (n := 1) (st' := v :: st) (by decide +kernel) rfl rfl (by decide +kernel)
  have e2 : step ⟨appendStms a v.body, t, none, [(1, v), (0, v0)], st⟩ = .ok (.done 0 (appendStms a v.body)) := by
    unfold step
    dsimp only
    rw [if_pos (by decide +kernel)]
    unfold defaultAction
    dsimp only
    rw [if_pos (by decide +kernel), f2]
    dsimp only
    rw [if_pos (by decide +kernel)]
  refine ⟨appendStms a v.body, ?_, h2, ?_⟩
  · rw [Verif.run, e1]
    show Verif.run (n + 1) _ = _
    rw [Verif.run, e2]
    rfl
  · show ({ a.mod with body := a.mod.body ++ v.body.map .stm } : Module) = _
    rw [h3]
    rfl

theorem stmt_length (d : Nat) : (stmtText d).length = 31 + 32 * d := by
  induction d with
  | zero => rw [stmtText, show leafText.length = 31 from by decide +kernel]
  | succ d ih =>
    rw [stmtText, List.length_append, List.length_append, ih, show openText.length = 8 from by decide +kernel,
      show s4.length = 24 from by decide +kernel]
    omega

theorem units_length (d n : Nat) : (units d n).length = (32 + 32 * d) * n := by
  induction n with
  | zero => rfl
  | succ n ih =>
    rw [units, List.length_cons, List.length_append, stmt_length, ih, Nat.mul_succ]
    omega

theorem text_length (d n : Nat) : (text d n).length = 31 + (32 + 32 * d) * n := by
  rw [text, List.length_append, units_length, show leafText.length = 31 from by decide +kernel]

/-- The tree of the text. -/
theorem text_accepted (d n : Nat) : Accepts (text d n) ⟨[], (.tryS [] [] :: built d n fun _ => []).map .stm⟩ := by
  obtain ⟨c, g, h⟩ := waits_first (newAST (text d n)) (q := units d n) (units_end d n) (by show text d n = _; rw [text]) rfl rfl
  have hc : (newAST (text d n)).code ≠ [] := by
    show text d n ≠ []
    intro h
    have := text_length d n
    rw [h, List.length_nil] at this
    omega
  obtain ⟨c', g', h'⟩ := waits_all hc d n h
  have hf : ∃ k, fuel (newAST (text d n)).code.length = 9 + (14 + 14 * d) * n + (k + 2) := by
    show ∃ k, fuel (text d n).length = _
    rw [text_length, show (32 + 32 * d) * n = 32 * (n + d * n) by rw [Nat.add_mul, Nat.mul_assoc]; omega,
      show (14 + 14 * d) * n = 14 * (n + d * n) by rw [Nat.add_mul, Nat.mul_assoc]; omega]
    refine ⟨fuel (31 + 32 * (n + d * n)) - (11 + 14 * (n + d * n)), ?_⟩
    unfold fuel
    omega
  obtain ⟨k, hf⟩ := hf
  obtain ⟨a, e, h1, h2⟩ := waits_end hc h' k
  refine ⟨a, ?_, h1, h2⟩
  unfold parse
  rw [if_neg (by
    show ¬ (text d n).all isUnicodeSpace = true
    rw [text, List.all_append, show leafText.all isUnicodeSpace = false from by decide +kernel, Bool.false_and]
    exact nofun), hf, (g.trans g').run, e]

/-! ### Counting -/

theorem nodesL_append (l l' : List Stm) : Stm.nodesL (l ++ l') = Stm.nodesL l + Stm.nodesL l' := by
  induction l with
  | nil => rw [List.nil_append, Stm.nodesL, Nat.zero_add]
  | cons s l ih => rw [List.cons_append, Stm.nodesL, Stm.nodesL, ih, Nat.add_assoc]

theorem after_shift (d i : Nat) (f : Blocks) : (fun j => after (d + 1) i f (j + 1)) = after d i fun j => f (j + 1) := by
  induction i generalizing f with
  | zero => rfl
  | succ i ih => rw [after, ih]; rfl

theorem after_zero (d i : Nat) (f : Blocks) : after (d + 1) i f 0 = f 0 ++ built d i fun j => f (j + 1) := by
  induction i generalizing f with
  | zero => rw [built, List.append_nil]; rfl
  | succ i ih =>
    rw [after, ih, built]
    show (f 0 ++ [(build d fun j => f (j + 1)).1]) ++ _ = _
    rw [List.append_assoc]; rfl

theorem built_succ (d i : Nat) (f : Blocks) : built d (i + 1) f = built d i f ++ [(build d (after d i f)).1] := by
  induction i generalizing f with
  | zero => rfl
  | succ i ih => rw [built, ih, built]; rfl

/-- A lower bound for the nodes of statement `i` of depth `d`. -/
def low : Nat → Nat → Nat
  | 0, _ => 1
  | d + 1, 0 => low d 0 + 1
  | d + 1, i + 1 => low (d + 1) i + low d (i + 1)

theorem low_nodes (d i : Nat) (f : Blocks) : low d i ≤ (build d (after d i f)).1.nodes := by
  induction d generalizing i f with
  | zero => rw [low, build, Stm.nodes]; omega
  | succ d ih =>
    have h : low (d + 1) i ≤ 1 + Stm.nodesL (built d (i + 1) fun j => f (j + 1)) := by
      induction i with
      | zero =>
        have := ih 0 fun j => f (j + 1)
        rw [built, built, low, Stm.nodesL, Stm.nodesL]
        rw [after] at this
        omega
      | succ i ih' =>
        have := ih (i + 1) fun j => f (j + 1)
        rw [built_succ, nodesL_append, low, Stm.nodesL, Stm.nodesL]
        omega
    rw [build, Stm.nodes, after_shift, after_zero, nodesL_append, nodesL_append, Stm.nodesL, Stm.nodesL, Stm.nodesL]
    rw [built_succ, nodesL_append, Stm.nodesL, Stm.nodesL] at h
    omega

theorem low_depth (d i : Nat) : low d i ≤ low (d + 1) i := by
  cases i <;> rw [low.eq_def (d + 1)] <;> dsimp only <;> omega

theorem low_more (d i : Nat) : low d i ≤ low d (i + 1) := by
  cases d with
  | zero => rw [low, low]
  | succ d => rw [low.eq_3]; omega

theorem low_pow (m : Nat) : 2 ^ m ≤ low m m := by
  induction m with
  | zero => rw [low]; exact Nat.le_refl _
  | succ m ih =>
    have h1 := low_depth m m
    have h2 := low_more m m
    rw [low, Nat.pow_succ]
    omega

/-- The tree has exponentially many nodes. -/
theorem text_nodes (m : Nat) : 2 ^ m ≤ (⟨[], (.tryS [] [] :: built m (m + 1) fun _ => []).map .stm⟩ : Module).nodes := by
  refine Nat.le_trans (Nat.le_trans (low_pow m) (low_nodes m m fun _ => [])) ?_
  unfold Module.nodes
  dsimp only
  rw [built_succ, List.map_cons, List.map_append, List.map_cons, List.map_append, List.sum_cons, List.sum_append]
  show _ ≤ _ + (_ + (_ + ((build m (after m m fun _ => [])).1.nodes + 0)))
  omega

/-! ### What is written and visited -/

mutual
/-- Nothing but `Попытка`. -/
def tries : Stm → Bool
  | .tryS b c => triesL b && triesL c
  | _ => false
def triesL : List Stm → Bool
  | [] => true
  | s :: l => tries s && triesL l
end

theorem triesL_append (l l' : List Stm) : triesL (l ++ l') = (triesL l && triesL l') := by
  induction l with
  | nil => rfl
  | cons s l ih => rw [List.cons_append, triesL, triesL, ih, Bool.and_assoc]

theorem build_tries (d : Nat) (f : Blocks) (h : ∀ j, triesL (f j) = true) :
    tries (build d f).1 = true ∧ ∀ j, triesL ((build d f).2 j) = true := by
  induction d generalizing f with
  | zero => exact ⟨rfl, h⟩
  | succ d ih =>
    have ⟨h1, h2⟩ := ih (fun j => f (j + 1)) fun j => h (j + 1)
    have h3 : triesL (f 0 ++ [(build d fun j => f (j + 1)).1]) = true := by
      rw [triesL_append, h 0, triesL, h1]; rfl
    refine ⟨?_, fun j => ?_⟩
    · rw [build, tries, h3]; rfl
    · match j with
      | 0 => exact h3
      | j + 1 => exact h2 j

theorem built_tries (d n : Nat) (f : Blocks) (h : ∀ j, triesL (f j) = true) : triesL (built d n f) = true := by
  induction n generalizing f with
  | zero => rfl
  | succ n ih =>
    have ⟨h1, h2⟩ := build_tries d f h
    rw [built, triesL, h1, ih _ h2]; rfl

mutual
theorem print_nodes (cf : PrintConf) (d : Nat) : ∀ s, tries s = true → s.nodes ≤ (printItem cf d s).length
  | .tryS b c, h => by
    rw [tries, Bool.and_eq_true] at h
    have hb := printL_nodes cf (d + 1) b h.1
    have hc := printL_nodes cf (d + 1) c h.2
    have h0 : Stm.nodesL [] = 0 := rfl
    have h1 : "Попытка".toList.length = 7 := by decide +kernel
    rw [Stm.nodes]
    cases b <;> cases c <;> simp only [printItem, List.length_append] <;> omega
  | .nil, h | .num _, h | .str _, h | .bool _, h | .date _, h | .undef, h | .var _ _ _, h | .chain _ _ _ _, h | .method _ _ _, h
  | .item _ _, h | .ternary _ _ _, h | .new _ _, h | .assign _ _, h | .bin _ _ _ _ _, h | .exprs _ _, h | .ifS _ _ _ _, h
  | .throw _, h | .ret _, h | .brk, h | .cont, h | .loop _ _ _ _ _, h | .label _, h | .goto _, h => by simp [tries] at h
theorem printL_nodes (cf : PrintConf) (d : Nat) : ∀ l, triesL l = true → Stm.nodesL l ≤ (printBody cf d l).length
  | [], _ => Nat.zero_le _
  | s :: l, h => by
    rw [triesL, Bool.and_eq_true] at h
    have h1 := print_nodes cf d s h.1
    have h2 := printL_nodes cf d l h.2
    rw [Stm.nodesL, printBody, List.length_append, List.length_append]
    omega
end

mutual
theorem inside_nodes : ∀ s, tries s = true → s.nodes ≤ (inside s).length + 1
  | .tryS b c, h => by
    rw [tries, Bool.and_eq_true] at h
    have hb := insideL_nodes b h.1
    have hc := insideL_nodes c h.2
    rw [Stm.nodes, inside, List.length_append]
    omega
  | .nil, h | .num _, h | .str _, h | .bool _, h | .date _, h | .undef, h | .var _ _ _, h | .chain _ _ _ _, h | .method _ _ _, h
  | .item _ _, h | .ternary _ _ _, h | .new _ _, h | .assign _ _, h | .bin _ _ _ _ _, h | .exprs _ _, h | .ifS _ _ _ _, h
  | .throw _, h | .ret _, h | .brk, h | .cont, h | .loop _ _ _ _ _, h | .label _, h | .goto _, h => by simp [tries] at h
theorem insideL_nodes : ∀ l, triesL l = true → Stm.nodesL l ≤ (insideL l).length
  | [], _ => Nat.zero_le _
  | s :: l, h => by
    rw [triesL, Bool.and_eq_true] at h
    have h1 := inside_nodes s h.1
    have h2 := insideL_nodes l h.2
    rw [Stm.nodesL, insideL, List.length_append, List.length_cons]
    omega
end

theorem items_print (cf : PrintConf) : ∀ l, triesL l = true → ((l.map Item.stm).map Item.nodes).sum ≤ (printItems cf (l.map .stm)).length
  | [], _ => Nat.zero_le _
  | s :: l, h => by
    rw [triesL, Bool.and_eq_true] at h
    have h1 := print_nodes cf 0 s h.1
    have h2 := items_print cf l h.2
    rw [List.map_cons, List.map_cons, List.sum_cons, printItems, List.length_append, List.length_append, Item.nodes]
    omega

theorem items_inside : ∀ l, triesL l = true → ((l.map Item.stm).map Item.nodes).sum ≤ ((l.map Item.stm).flatMap insideItem).length
  | [], _ => Nat.zero_le _
  | s :: l, h => by
    rw [triesL, Bool.and_eq_true] at h
    have h1 := inside_nodes s h.1
    have h2 := items_inside l h.2
    rw [List.map_cons, List.map_cons, List.sum_cons, List.flatMap_cons, List.length_append, insideItem, List.length_append,
      List.length_map, Item.nodes]
    show _ ≤ _ + 1 + _
    omega

/-- Writing one of the trees writes at least one character for every node. -/
theorem text_print {cf : PrintConf} {d n : Nat} {s : List Char}
    (h : Prints cf ⟨[], (.tryS [] [] :: built d n fun _ => []).map .stm⟩ s) :
    (⟨[], (.tryS [] [] :: built d n fun _ => []).map .stm⟩ : Module).nodes ≤ s.length := by
  obtain ⟨gs, h1, rfl⟩ := h
  have h2 := items_print cf (.tryS [] [] :: built d n fun _ => []) (by
    rw [triesL, built_tries d n (fun _ => []) fun _ => rfl]; rfl)
  unfold printModule Module.nodes
  dsimp only
  rw [if_neg (by rw [List.map_cons]; exact List.cons_ne_nil _ _), List.length_append]
  show 0 + _ ≤ _
  omega

/-- Walking over it meets every node. -/
theorem text_inside (d n : Nat) : (⟨[], (.tryS [] [] :: built d n fun _ => []).map .stm⟩ : Module).nodes ≤
    (((Stm.tryS [] [] :: built d n fun _ => []).map Item.stm).flatMap insideItem).length := by
  have h2 := items_inside (.tryS [] [] :: built d n fun _ => []) (by
    rw [triesL, built_tries d n (fun _ => []) fun _ => rfl]; rfl)
  unfold Module.nodes
  dsimp only
  show 0 + _ ≤ _
  omega
end Verif.SizeGrow
