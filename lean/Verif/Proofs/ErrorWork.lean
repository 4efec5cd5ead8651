import Verif.ErrorWork
import Verif.Proofs.LR.Step
import Verif.Proofs.LR.SemDecl
import Verif.Proofs.LR.SemStmt
/-! The counts of `Verif/ErrorWork.lean`: nothing is read unless an error is recorded, and a text with one error for each character. -/
namespace Verif.ErrorWork
open Lexer Tables LR

variable [Letters]

theorem round_shift {a : Ast} {lv : Tok} {st : List SV} {s t s' : Nat} {v : SV} {l : List (Nat × SV)}
    (hp : ¬ get yyPact s ≤ yyFlag) (hs : shiftOf s t = some s') :
    step ⟨a, lv, some t, (s, v) :: l, st⟩ = .ok (.go ⟨a, lv, none, (s', { token := lv }) :: (s, v) :: l, st.tail⟩) ∧
      stepFront ⟨a, lv, some t, (s, v) :: l, st⟩ = 0 := by
  unfold step stepFront
  dsimp only
  rw [if_neg hp, if_neg hp, fetch_look rfl]
  dsimp only
  rw [hs]
  exact ⟨rfl, rfl⟩

theorem round_reduce {a : Ast} {lv : Tok} {st : List SV} {s t p : Nat} {v : SV} {l : List (Nat × SV)}
    (hp : ¬ get yyPact s ≤ yyFlag) (hs : shiftOf s t = none) (hd : get yyDef s = ((p + 1 : Nat) : Int)) :
    step ⟨a, lv, some t, (s, v) :: l, st⟩ = reduce ⟨a, lv, some t, (s, v) :: l, st⟩ (p + 1) ∧
      stepFront ⟨a, lv, some t, (s, v) :: l, st⟩ = reduceFront ⟨a, lv, some t, (s, v) :: l, st⟩ (p + 1) := by
  unfold step stepFront
  dsimp only
  rw [if_neg hp, if_neg hp, fetch_look rfl]
  dsimp only
  rw [hs]
  unfold defaultAction defaultFront
  dsimp only
  rw [hd, if_neg (by omega), if_neg (by omega), if_neg (by omega), if_neg (by omega)]
  exact ⟨rfl, rfl⟩

theorem round_lazy {a : Ast} {lv : Tok} {k : Option Nat} {st : List SV} {s p : Nat} {v : SV} {l : List (Nat × SV)}
    (hp : get yyPact s ≤ yyFlag) (hd : get yyDef s = ((p + 1 : Nat) : Int)) :
    step ⟨a, lv, k, (s, v) :: l, st⟩ = reduce ⟨a, lv, k, (s, v) :: l, st⟩ (p + 1) ∧
      stepFront ⟨a, lv, k, (s, v) :: l, st⟩ = reduceFront ⟨a, lv, k, (s, v) :: l, st⟩ (p + 1) := by
  unfold step stepFront
  dsimp only
  rw [if_pos hp, if_pos hp]
  unfold defaultAction defaultFront
  dsimp only
  rw [hd, if_neg (by omega), if_neg (by omega), if_neg (by omega), if_neg (by omega)]
  exact ⟨rfl, rfl⟩

theorem round_exca {a : Ast} {lv : Tok} {st : List SV} {s t p : Nat} {v : SV} {l : List (Nat × SV)}
    (hp : get yyPact s ≤ yyFlag) (hd : get yyDef s = -2) (he : excaFind t (excaFrom s excaPairs) = ((p + 1 : Nat) : Int)) :
    step ⟨a, lv, some t, (s, v) :: l, st⟩ = reduce ⟨a, lv, some t, (s, v) :: l, st⟩ (p + 1) ∧
      stepFront ⟨a, lv, some t, (s, v) :: l, st⟩ = reduceFront ⟨a, lv, some t, (s, v) :: l, st⟩ (p + 1) := by
  unfold step stepFront
  dsimp only
  rw [if_pos hp, if_pos hp]
  unfold defaultAction defaultFront
  dsimp only
  rw [if_pos hd, if_pos hd, fetch_look rfl]
  dsimp only
  rw [he, if_neg (by omega), if_neg (by omega), if_neg (by omega), if_neg (by omega)]
  exact ⟨rfl, rfl⟩

/-- The configuration after a token has been read. -/
theorem fetch_next {a : Ast} {lv t' : Tok} {st : List SV} {k : Nat} {l : List (Nat × SV)} (hc : a.code ≠ [])
    (ht : lexNext lv = (t', .ok (some k))) :
    fetch ⟨a, lv, none, l, st⟩ = (⟨{ a with cur := some t' }, t', some (tokNum k), l, st⟩, tokNum k) := by
  rw [fetch_none rfl, lexCall_eq hc, ht]

theorem fetch_again (c : Cfg) {t : Nat} (h : (fetch c).1.look = some t) : fetch (fetch c).1 = ((fetch c).1, t) := fetch_look h

/-- A round that begins with reading a token is the round with the token read before. -/
theorem round_next {a : Ast} {lv t' : Tok} {st : List SV} {s k : Nat} {v : SV} {l : List (Nat × SV)} (hc : a.code ≠ [])
    (ht : lexNext lv = (t', .ok (some k))) (hp : ¬ get yyPact s ≤ yyFlag) :
    step ⟨a, lv, none, (s, v) :: l, st⟩ = step ⟨{ a with cur := some t' }, t', some (tokNum k), (s, v) :: l, st⟩ ∧
      stepFront ⟨a, lv, none, (s, v) :: l, st⟩ = stepFront ⟨{ a with cur := some t' }, t', some (tokNum k), (s, v) :: l, st⟩ := by
  unfold step stepFront
  dsimp only
  rw [if_neg hp, if_neg hp, if_neg hp, if_neg hp, fetch_next hc ht, fetch_look rfl]
  exact ⟨rfl, rfl⟩

omit [Letters] in
theorem reduce_one {a : Ast} {lv : Tok} {k : Option Nat} {st : List SV} {s s' p : Nat} {v v0 v' : SV} {l : List (Nat × SV)} {q : Nat}
    (hr : (get yyR2 p).toNat = 1) (hg : gotoOf s' p = q) (ha : act p (fun i => (v :: st).getD (i - 1) {}) v a = .ok (v', a))
    (hz : ∀ d, actErrors p d a = 0) :
    reduce ⟨a, lv, k, (s, v) :: (s', v0) :: l, st⟩ p = .ok (.go ⟨a, lv, k, (q, v') :: (s', v0) :: l, st⟩) ∧
      reduceFront ⟨a, lv, k, (s, v) :: (s', v0) :: l, st⟩ p = 0 := by
  unfold reduce reduceFront
  rw [hr]
  dsimp only [popN, List.headD_cons]
  rw [ha, hg, hz, Nat.zero_mul]
  exact ⟨rfl, rfl⟩

omit [Letters] in
theorem reduce_none {a : Ast} {lv : Tok} {k : Option Nat} {st : List SV} {s' p : Nat} {v0 v' : SV} {l : List (Nat × SV)} {q : Nat}
    (hr : (get yyR2 p).toNat = 0) (hg : gotoOf s' p = q) (ha : act p (fun i => st.getD (i - 1) {}) (st.headD {}) a = .ok (v', a))
    (hz : ∀ d, actErrors p d a = 0) :
    reduce ⟨a, lv, k, (s', v0) :: l, st⟩ p = .ok (.go ⟨a, lv, k, (q, v') :: (s', v0) :: l, st.tail⟩) ∧
      reduceFront ⟨a, lv, k, (s', v0) :: l, st⟩ p = 0 := by
  unfold reduce reduceFront
  rw [hr]
  dsimp only [popN]
  rw [ha, hg, hz, Nat.zero_mul]
  exact ⟨rfl, rfl⟩

/-- The token `:`, with the colons behind it. -/
def colon (v : Val) (n : Nat) : Tok := ⟨[':'], v, List.replicate n ':', false⟩

theorem colon_next (lit : List Char) (v : Val) (n : Nat) :
    lexNext ⟨lit, v, List.replicate (n + 1) ':', false⟩ = (colon v n, .ok (some 58)) := by
  have h : skipTrivia (':' :: List.replicate n ':') = ':' :: List.replicate n ':' :=
    skipTrivia_of_clean ⟨by rintro c r h; injection h with h; subst h; decide, by rintro r h; injection h with h; revert h; decide,
      by rintro r h; injection h with h; revert h; decide⟩
  unfold lexNext
  dsimp only [List.replicate_succ]
  rw [h]
  unfold nextRaw
  dsimp only
  rw [if_neg (by rw [isLetter_ascii_false (by decide) (by decide) (by decide)]; decide), if_neg (by decide), if_neg (by decide),
    if_neg (by decide), if_pos (by decide)]
  rfl

/-- Between two colons: the block read so far ends with something that is no label. -/
structure Waits (code : List Char) (n : Nat) (c : Cfg) : Prop where
  code : c.ast.code = code
  look : c.look = some 4
  lval : ∃ v, c.lval = colon v n
  live : ∃ v v0 x, c.live = [(2, v), (0, v0)] ∧ v.body.getLast? = some x ∧ ∀ l, x ≠ .label l

/-- `m` rounds, with what they read for errors. -/
inductive Goes : Nat → Cfg → Cfg → Nat → Prop
  | refl (c) : Goes 0 c c 0
  | step {m c c' c'' k} : step c = .ok (.go c') → Goes m c' c'' k → Goes (m + 1) c c'' (stepFront c + k)

theorem Goes.trans {m m' k k' : Nat} {c c' c'' : Cfg} (h : Goes m c c' k) (h' : Goes m' c' c'' k') : Goes (m + m') c c'' (k + k') := by
  induction h with
  | refl c => simpa using h'
  | step h1 _ ih =>
    rw [Nat.succ_add, Nat.add_assoc]
    exact .step h1 (ih h')

theorem Goes.run {m k : Nat} {c c' : Cfg} (h : Goes m c c' k) (n : Nat) : k ≤ runFront (m + n) c := by
  induction h with
  | refl c => exact Nat.zero_le _
  | step h1 _ ih =>
    rw [Nat.succ_add, runFront, h1]
    exact Nat.add_le_add_left ih _

theorem Goes.of {c c' : Cfg} {k : Nat} (h : Verif.step c = .ok (.go c')) (hk : stepFront c = k) : Goes 1 c c' k := by
  subst hk
  exact .step h (.refl _)

theorem waits_next {code : List Char} {n : Nat} {c : Cfg} (hc : code ≠ []) (h : Waits code (n + 1) c) :
    ∃ c', Goes 6 c c' (code.length - n) ∧ Waits code n c' := by
  obtain ⟨a, lv, look, live, st⟩ := c
  obtain ⟨h1, h2, ⟨w, h3⟩, v, v0, x, h4, h5, h6⟩ := h
  dsimp only at h1 h2 h3 h4
  subst h2 h3 h4 h1
  generalize hB : ({ v with opt_body := v.body } : SV) = B
  generalize hA : ({ a with cur := some (colon w n) } : Ast) = A
  generalize hW : ({ token := colon w (n + 1) } : SV) = W
  have e1 := round_exca (a := a) (lv := colon w (n + 1)) (st := st) (s := 2) (t := 4) (p := 16) (v := v) (l := [(0, v0)])
    (by decide +kernel) (by decide +kernel) (by decide +kernel)
  have r1 := reduce_one (a := a) (lv := colon w (n + 1)) (k := some 4) (st := st) (s := 2) (s' := 0) (p := 17) (q := 5) (v := v) (v0 := v0)
    (v' := B) (l := []) (by decide +kernel) (by decide +kernel) (by rw [← hB]; rfl) (fun _ => rfl)
  have g1 := Goes.of (e1.1.trans r1.1) (e1.2.trans r1.2)
  have e2 := round_shift (a := a) (lv := colon w (n + 1)) (st := st) (s := 5) (t := 4) (s' := 52) (v := B)
    (l := [(0, v0)]) (by decide +kernel) (by decide +kernel)
  rw [hW] at e2
  have g2 := Goes.of e2.1 e2.2
  have e3 := round_lazy (a := a) (lv := colon w (n + 1)) (k := none) (st := st.tail) (s := 52) (p := 109) (v := W)
    (l := [(5, B), (0, v0)]) (by decide +kernel) (by decide +kernel)
  have r3 := reduce_one (a := a) (lv := colon w (n + 1)) (k := none) (st := st.tail) (s := 52) (s' := 5) (p := 110) (q := 50)
    (v := W) (v0 := B) (v' := W)
    (l := [(0, v0)]) (by decide +kernel) (by decide +kernel) (by rw [← hW]; rfl) (fun _ => rfl)
  have g3 := Goes.of (e3.1.trans r3.1) (e3.2.trans r3.2)
  have e4 := round_lazy (a := a) (lv := colon w (n + 1)) (k := none) (st := st.tail) (s := 50) (p := 22) (v := W)
    (l := [(5, B), (0, v0)]) (by decide +kernel) (by decide +kernel)
  have r4 := reduce_one (a := a) (lv := colon w (n + 1)) (k := none) (st := st.tail) (s := 50) (s' := 5) (p := 23) (q := 48)
    (v := W) (v0 := B) (v' := W)
    (l := [(0, v0)]) (by decide +kernel) (by decide +kernel) (by rw [← hW]; rfl) (fun _ => rfl)
  have g4 := Goes.of (e4.1.trans r4.1) (e4.2.trans r4.2)
  have e5 := round_next (a := a) (lv := colon w (n + 1)) (t' := colon w n) (st := st.tail) (s := 48) (k := 58) (v := W)
    (l := [(5, B), (0, v0)]) hc (colon_next _ _ _) (by decide +kernel)
  rw [hA, show tokNum 58 = 4 from by decide +kernel] at e5
  have f5 := round_reduce (a := A) (lv := colon w n) (st := st.tail) (s := 48) (t := 4) (p := 19) (v := W)
    (l := [(5, B), (0, v0)]) (by decide +kernel) (by decide +kernel) (by decide +kernel)
  have r5 := reduce_none (a := A) (lv := colon w n) (k := some 4) (st := st.tail) (s' := 48) (p := 20) (q := 96) (v0 := W)
    (l := [(5, B), (0, v0)]) (v' := { (st.tail.headD {}) with stmt := .nil }) (by decide +kernel) (by decide +kernel) rfl (fun _ => rfl)
  have g5 := Goes.of (e5.1.trans (f5.1.trans r5.1)) (e5.2.trans (f5.2.trans r5.2))
  generalize hN : ({ (st.tail.headD {}) with stmt := .nil } : SV) = N at r5 g5
  have e6 := round_lazy (a := A) (lv := colon w n) (k := some 4) (st := st.tail.tail) (s := 96) (p := 18) (v := N)
    (l := [(48, W), (5, B), (0, v0)]) (by decide +kernel) (by decide +kernel)
  have hl : B.opt_body.getLast? = some x := by rw [← hB]; exact h5
  have hw : W.token.literal = [':'] := by rw [← hW]; rfl
  have hn : N.stmt.isNil = true := by rw [← hN]; rfl
  have hk : checkColon A W.token B.opt_body = A.error .semicolon := by
    unfold checkColon
    rw [if_pos hw, hl]
    split
    · contradiction
    · rename_i h; injection h with h; exact absurd h (h6 _)
    · rfl
  have he : ∃ A', A.error .semicolon = .ok A' ∧ A'.code = a.code := by
    rw [← hA]
    exact ⟨_, rfl, rfl⟩
  obtain ⟨A', he, hcode⟩ := he
  have r6 : reduce ⟨A, colon w n, some 4, [(96, N), (48, W), (5, B), (0, v0)], st.tail.tail⟩ 19 =
      .ok (.go ⟨A', colon w n, some 4, [(2, B), (0, v0)], W :: N :: st.tail.tail⟩) := by
    unfold reduce
    rw [show (get yyR2 19).toNat = 3 from by decide +kernel]
    dsimp only [popN, List.headD_cons]
    have : act 19 (fun i => (B :: W :: N :: st.tail.tail).getD (i - 1) {}) B A = .ok (B, A') := by
      unfold act
      show (do .ok (if N.stmt.isNil then B else { B with body := B.body ++ [N.stmt] }, ← checkColon A W.token B.opt_body)) = _
      rw [hk, he, hn]
      rfl
    rw [this, show gotoOf 0 19 = 2 from by decide +kernel]
    rfl
  have f6 : reduceFront ⟨A, colon w n, some 4, [(96, N), (48, W), (5, B), (0, v0)], st.tail.tail⟩ 19 = a.code.length - n := by
    unfold reduceFront
    rw [show (get yyR2 19).toNat = 3 from by decide +kernel]
    dsimp only [popN]
    have : actErrors 19 (fun i => (B :: W :: N :: st.tail.tail).getD (i - 1) {}) A = 1 := by
      unfold actErrors
      show (if W.token.literal = [':'] then _ else 0) = 1
      rw [if_pos hw]
      show (match B.opt_body.getLast? with
        | none => 0
        | some (.label _) => 0
        | some _ => 1) = 1
      rw [hl]
      split
      · contradiction
      · rename_i h; injection h with h; exact absurd h (h6 _)
      · rfl
    rw [this, Nat.one_mul, ← hA]
    show a.code.length - (List.replicate n ':').length = _
    rw [List.length_replicate]
  have g6 := Goes.of (e6.1.trans r6) (e6.2.trans f6)
  refine ⟨⟨A', colon w n, some 4, [(2, B), (0, v0)], W :: N :: st.tail.tail⟩, ?_, hcode, rfl, ⟨w, rfl⟩, B, v0, x, rfl,
    by rw [← hB]; exact h5, h6⟩
  simpa using g1.trans (g2.trans (g3.trans (g4.trans (g5.trans g6))))


theorem waits_all {code : List Char} (hc : code ≠ []) (n : Nat) {c : Cfg} (h : Waits code n c) (hl : n ≤ code.length) :
    ∃ c' k, Goes (6 * n) c c' k ∧ 2 * (code.length * n) ≤ 2 * k + n * n := by
  induction n generalizing c with
  | zero => exact ⟨c, 0, .refl _, by omega⟩
  | succ n ih =>
    obtain ⟨c', g, h'⟩ := waits_next hc h
    obtain ⟨c'', k, g', hk⟩ := ih h' (by omega)
    refine ⟨c'', code.length - n + k, ?_, ?_⟩
    · rw [Nat.mul_succ, Nat.add_comm]
      exact g.trans g'
    · have h1 : (n + 1) * (n + 1) = n * n + 2 * n + 1 := by rw [Nat.mul_succ, Nat.succ_mul]; omega
      rw [Nat.mul_succ, h1]
      omega

/-- An identifier, and colons. -/
def colons (n : Nat) : List Char := 'а' :: List.replicate n ':'

theorem word_next (n : Nat) : lexNext (startTok (colons n)) = (⟨['а'], .nil, List.replicate n ':', false⟩, .ok (some tIdent)) := by
  have hr : ∀ d r', List.replicate n ':' = d :: r' → isWordChar d = false := by
    intro d r' h
    have : d ∈ List.replicate n ':' := by rw [h]; exact .head _
    rw [List.eq_of_mem_replicate this]
    unfold isWordChar
    rw [isLetter_ascii_false (by decide) (by decide) (by decide)]
    decide
  have h2 := nextRaw_word false 'а' [] (List.replicate n ':') ((isLetter_iff _).2 (.inl (Letters.rus _ (by decide)))) nofun hr
  have h1 : skipTrivia (colons n) = colons n := skipTrivia_of_clean (wordStart_clean (.inl (Letters.rus _ (by decide))))
  unfold lexNext
  dsimp only [startTok]
  rw [h1, show colons n = ['а'] ++ List.replicate n ':' from rfl, h2]
  have : wordKind false ['а'] = tIdent := by decide +kernel
  rw [this]
  rfl

theorem waits_first (a : Ast) (n : Nat) (ha : a.code = colons (n + 1)) : ∃ c, Goes 6 (initCfg a) c 0 ∧ Waits (colons (n + 1)) n c := by
  have hc : a.code ≠ [] := by rw [ha]; nofun
  generalize hT : (⟨['а'], .nil, List.replicate (n + 1) ':', false⟩ : Tok) = T
  have hn := word_next (n + 1)
  rw [← ha, hT] at hn
  have hm : lexNext T = (colon .nil n, .ok (some 58)) := by rw [← hT]; exact colon_next _ _ _
  generalize hA : ({ a with cur := some T } : Ast) = A
  generalize hB : ({ A with cur := some (colon .nil n) } : Ast) = B
  generalize hW : ({ token := T } : SV) = W
  have hcA : A.code ≠ [] := by rw [← hA]; exact hc
  have e1 := round_next (a := a) (lv := startTok a.code) (t' := T) (st := []) (s := 0) (k := tIdent) (v := {}) (l := []) hc hn
    (by decide +kernel)
  rw [hA, show tokNum tIdent = 8 from by decide +kernel] at e1
  have f1 := round_shift (a := A) (lv := T) (st := []) (s := 0) (t := 8) (s' := 30) (v := {}) (l := []) (by decide +kernel)
    (by decide +kernel)
  rw [hW] at f1
  have g1 := Goes.of (e1.1.trans f1.1) (e1.2.trans f1.2)
  have e2 := round_next (a := A) (lv := T) (t' := colon .nil n) (st := []) (s := 30) (k := 58) (v := W) (l := [(0, {})]) hcA hm
    (by decide +kernel)
  rw [hB, show tokNum 58 = 4 from by decide +kernel] at e2
  have f2 := round_reduce (a := B) (lv := colon .nil n) (st := []) (s := 30) (t := 4) (p := 54) (v := W) (l := [(0, {})])
    (by decide +kernel) (by decide +kernel) (by decide +kernel)
  generalize hX : ({ W with stmt := .var W.token.literal false false } : SV) = X
  have hXX : ({ X with stmt := X.stmt } : SV) = X := by cases X; rfl
  have r2 := reduce_one (a := B) (lv := colon .nil n) (k := some 4) (st := []) (s := 30) (s' := 0) (p := 55) (q := 18) (v := W) (v0 := {})
    (v' := X) (l := []) (by decide +kernel) (by decide +kernel) (by rw [← hX]; rfl) (fun _ => rfl)
  have g2 := Goes.of (e2.1.trans (f2.1.trans r2.1)) (e2.2.trans (f2.2.trans r2.2))
  have f3 := round_reduce (a := B) (lv := colon .nil n) (st := []) (s := 18) (t := 4) (p := 52) (v := X) (l := [(0, {})])
    (by decide +kernel) (by decide +kernel) (by decide +kernel)
  have r3 := reduce_one (a := B) (lv := colon .nil n) (k := some 4) (st := []) (s := 18) (s' := 0) (p := 53) (q := 7) (v := X) (v0 := {})
    (v' := X) (l := []) (by decide +kernel) (by decide +kernel) rfl (fun _ => rfl)
  have g3 := Goes.of (f3.1.trans r3.1) (f3.2.trans r3.2)
  have f4 := round_reduce (a := B) (lv := colon .nil n) (st := []) (s := 7) (t := 4) (p := 82) (v := X) (l := [(0, {})])
    (by decide +kernel) (by decide +kernel) (by decide +kernel)
  have r4 := reduce_one (a := B) (lv := colon .nil n) (k := some 4) (st := []) (s := 7) (s' := 0) (p := 83) (q := 8) (v := X) (v0 := {})
    (v' := X) (l := []) (by decide +kernel) (by decide +kernel) rfl (fun _ => rfl)
  have g4 := Goes.of (f4.1.trans r4.1) (f4.2.trans r4.2)
  have f5 := round_reduce (a := B) (lv := colon .nil n) (st := []) (s := 8) (t := 4) (p := 44) (v := X) (l := [(0, {})])
    (by decide +kernel) (by decide +kernel) (by decide +kernel)
  have r5 := reduce_one (a := B) (lv := colon .nil n) (k := some 4) (st := []) (s := 8) (s' := 0) (p := 45) (q := 4) (v := X) (v0 := {})
    (v' := X) (l := []) (by decide +kernel) (by decide +kernel) rfl (fun _ => rfl)
  have g5 := Goes.of (f5.1.trans r5.1) (f5.2.trans r5.2)
  have f6 := round_lazy (a := B) (lv := colon .nil n) (k := some 4) (st := []) (s := 4) (p := 17) (v := X) (l := [(0, {})])
    (by decide +kernel) (by decide +kernel)
  have r6 := reduce_one (a := B) (lv := colon .nil n) (k := some 4) (st := []) (s := 4) (s' := 0) (p := 18) (q := 2) (v := X) (v0 := {})
    (v' := { X with body := [X.stmt] }) (l := []) (by decide +kernel) (by decide +kernel) rfl (fun _ => rfl)
  have g6 := Goes.of (f6.1.trans r6.1) (f6.2.trans r6.2)
  refine ⟨⟨B, colon .nil n, some 4, [(2, { X with body := [X.stmt] }), (0, {})], []⟩, ?_, ?_, rfl, ⟨_, rfl⟩, _, _, X.stmt, rfl, rfl, ?_⟩
  · exact g1.trans (g2.trans (g3.trans (g4.trans (g5.trans g6))))
  · rw [← hB, ← hA]; exact ha
  · rw [← hX]; exact nofun

theorem colons_front (n : Nat) (a : Ast) (ha : a.code = colons (n + 1)) : n * n + 4 * n ≤ 2 * parseFront a := by
  obtain ⟨c, g, h⟩ := waits_first a n ha
  have hl : (colons (n + 1)).length = n + 2 := by unfold colons; rw [List.length_cons, List.length_replicate]
  obtain ⟨c', k, g', hk⟩ := waits_all (by nofun) n h (by omega)
  rw [hl, Nat.add_mul] at hk
  have hf : fuel a.code.length = 6 + 6 * n + (9 * n + 40) := by rw [ha, hl]; unfold fuel; omega
  have := (g.trans g').run (9 * n + 40)
  have hs : a.code.all isUnicodeSpace = false := by
    rw [ha, colons, List.all_cons, show isUnicodeSpace 'а' = false from by decide +kernel, Bool.false_and]
  unfold parseFront
  rw [if_neg (by rw [hs]; exact nofun), hf]
  omega

/-! ## Without an error nothing is read -/

omit [Letters] in
theorem globals_quiet {vs : List GVar} {a a' : Ast} (h : appendGlobals a vs = .ok a') (he : a'.err = none) : globalsErrors a vs = 0 := by
  induction vs generalizing a with
  | nil => rfl
  | cons v vs ih =>
    rw [appendGlobals] at h
    obtain ⟨b, h1, h2⟩ := bind_ok h
    have hb : b.err = none := by
      by_contra hne
      exact (appendGlobals_frame h2).err hne he
    rw [globalsErrors, h1]
    dsimp only
    rw [ih h2, Nat.add_zero]
    unfold appendGlobal at h1
    split at h1
    · exact absurd hb (error_frame h1).2
    · rename_i hbody
      rw [if_neg hbody]
      split at h1
      · exact absurd hb (error_frame h1).2
      · rename_i hany
        rw [if_neg hany]

omit [Letters] in
theorem act_quiet {p : Nat} {d : Nat → SV} {v v' : SV} {a a' : Ast} (h : act p d v a = .ok (v', a')) (he : a'.err = none) :
    actErrors p d a = 0 := by
  unfold actErrors
  split
  · have h : (appendGlobals a (d 1).global_variables >>= fun x => .ok (v, x) : Except Panic (SV × Ast)) = .ok (v', a') := h
    obtain ⟨b, h1, h2⟩ := bind_ok h
    obtain ⟨rfl, rfl⟩ := pair_ok h2
    exact globals_quiet h1 he
  · split
    · rename_i h0 h1
      obtain ⟨rfl, h2⟩ := act_7 h h0
      exact absurd h1 ((appendFunc_spec h2 he).2 _)
    · rfl
  · have h : (checkColon a (d 2).token (d 1).opt_body >>= fun x =>
        .ok (if (d 3).stmt.isNil then v else { v with body := v.body ++ [(d 3).stmt] }, x) : Except Panic (SV × Ast)) = .ok (v', a') := h
    obtain ⟨b, h1, h2⟩ := bind_ok h
    obtain ⟨rfl, rfl⟩ := pair_ok h2
    have h3 := (checkColon_spec h1 he).2
    split
    · rename_i hl
      split
      · rfl
      · rfl
      · rename_i x hne hx
        obtain ⟨n, rfl⟩ := h3 hl x hx
        exact absurd rfl (hne n)
    · rfl
  · have h : (appendVars (some []) (d 2).identifiers >>= fun r => match r.dup with
        | some n => (a.error (.dupVar n) >>= fun x => .ok (v, x) : Except Panic (SV × Ast))
        | none => .ok ({ v with explicit_variables := r.map }, a)) = .ok (v', a') := h
    obtain ⟨⟨m, q⟩, h1, h2⟩ := bind_ok h
    rw [h1]
    cases q with
    | none => rfl
    | some n =>
      obtain ⟨x, h3, h4⟩ := bind_ok h2
      obtain ⟨rfl, rfl⟩ := pair_ok h4
      exact absurd he (error_frame h3).2
  · have h : (appendVars (d 1).explicit_variables (d 3).identifiers >>= fun r => match r.dup with
        | some n => (a.error (.dupVar n) >>= fun x => .ok ({ v with explicit_variables := r.map }, x) : Except Panic (SV × Ast))
        | none => .ok ({ v with explicit_variables := r.map }, a)) = .ok (v', a') := h
    obtain ⟨⟨m, q⟩, h1, h2⟩ := bind_ok h
    rw [h1]
    cases q with
    | none => rfl
    | some n =>
      obtain ⟨x, h3, h4⟩ := bind_ok h2
      obtain ⟨rfl, rfl⟩ := pair_ok h4
      exact absurd he (error_frame h3).2
  · have h : (checkLoop a (d 1).token >>= fun x => .ok ({ v with stmt := .cont }, x) : Except Panic (SV × Ast)) = .ok (v', a') := h
    obtain ⟨b, h1, h2⟩ := bind_ok h
    obtain ⟨rfl, rfl⟩ := pair_ok h2
    rw [if_neg (checkLoop_spec h1 he).2]
  · have h : (checkLoop a (d 1).token >>= fun x => .ok ({ v with stmt := .brk }, x) : Except Panic (SV × Ast)) = .ok (v', a') := h
    obtain ⟨b, h1, h2⟩ := bind_ok h
    obtain ⟨rfl, rfl⟩ := pair_ok h2
    rw [if_neg (checkLoop_spec h1 he).2]
  · have h : (checkThrow a (d 1).token (d 2).stmt >>= fun x => .ok ({ v with stmt := .throw (d 2).stmt }, x) :
        Except Panic (SV × Ast)) = .ok (v', a') := h
    obtain ⟨b, h1, h2⟩ := bind_ok h
    obtain ⟨rfl, rfl⟩ := pair_ok h2
    rw [if_neg (fun h => (checkThrow_spec h1 he).2 h.2 h.1)]
  · have h : (checkReturn a (d 2).stmt >>= fun x => .ok ({ v with stmt := .ret (d 2).stmt }, x) :
        Except Panic (SV × Ast)) = .ok (v', a') := h
    obtain ⟨b, h1, h2⟩ := bind_ok h
    obtain ⟨rfl, rfl⟩ := pair_ok h2
    have := (checkReturn_spec h1 he).2
    rw [if_neg]
    rintro ⟨h3, h4⟩
    rw [this (by simpa using h4)] at h3
    exact absurd h3 (by decide)
  · rfl

/-- The node a round leaves behind. -/
def _root_.Verif.Step.memory : Step → Ast
  | .go c => c.ast
  | .done _ a => a

omit [Letters] in
theorem reduce_quiet {c : Cfg} {p : Nat} {x : Step} (h : reduce c p = .ok x) (he : x.memory.err = none) : reduceFront c p = 0 := by
  unfold reduce at h
  unfold reduceFront
  dsimp only at h ⊢
  split
  · rfl
  · rename_i hl
    rw [hl] at h
    obtain ⟨⟨v, a⟩, h1, h2⟩ := bind_ok h
    injection h2 with h2
    subst h2
    rw [act_quiet h1 he, Nat.zero_mul]

omit [Letters] in
theorem syntaxError_err {c : Cfg} {x : Step} (h : syntaxError c = .ok x) : x.memory.err ≠ none := by
  unfold syntaxError at h
  obtain ⟨a, h1, h2⟩ := bind_ok h
  split at h2
  · injection h2 with h2
    subst h2
    exact (error_frame h1).2
  · injection h2 with h2
    subst h2
    exact (error_frame h1).2

theorem default_quiet {c : Cfg} {s : Nat} {x : Step} (h : defaultAction c s = .ok x) (he : x.memory.err = none) : defaultFront c s = 0 := by
  unfold defaultAction at h
  unfold defaultFront
  dsimp only at h ⊢
  split at h
  · rename_i h1
    rw [if_pos h1]
    split at h
    · rename_i h2; rw [if_pos h2]
    · rename_i h2
      rw [if_neg h2]
      split at h
      · exact absurd he (syntaxError_err h)
      · rename_i h3
        rw [if_neg h3]
        exact reduce_quiet h he
  · rename_i h1
    rw [if_neg h1]
    split at h
    · exact absurd he (syntaxError_err h)
    · rename_i h3
      rw [if_neg h3]
      exact reduce_quiet h he

theorem step_quiet {c : Cfg} {x : Step} (h : step c = .ok x) (he : x.memory.err = none) : stepFront c = 0 := by
  unfold step at h
  unfold stepFront
  split
  · rfl
  · rename_i hl
    rw [hl] at h
    dsimp only at h ⊢
    split at h
    · rename_i hp
      rw [if_pos hp]
      exact default_quiet h he
    · rename_i hp
      rw [if_neg hp]
      split at h
      · rename_i hs; rw [hs]
      · rename_i hs
        rw [hs]
        exact default_quiet h he

theorem run_quiet {code : List Char} {σ0 : St} (hc : code ≠ []) (n : Nat) (c : Cfg) (ts : List Tree) (h : Inv code σ0 c ts) {k a}
    (hr : run n c = .ok (some (k, a))) (he : a.err = none) : runFront n c = 0 := by
  induction n generalizing c ts with
  | zero => cases hr
  | succ n ih =>
    have hp := step_inv hc h
    unfold run at hr
    unfold runFront
    cases hs : step c with
    | error q => rw [hs] at hr; cases hr
    | ok x =>
      rw [hs] at hp hr
      cases x with
      | go c' =>
        obtain ⟨⟨ts', h1⟩, -, h3⟩ := hp
        dsimp only
        rw [ih c' ts' h1 hr, step_quiet hs]
        by_contra hne
        exact run_err hc n c' ts' h1 hne hr he
      | done k' a' =>
        injection hr with hr; injection hr with hr; injection hr with hr1 hr2
        subst hr2
        rw [step_quiet hs he, Nat.zero_add]

/-! ## Every error is counted -/

omit [Letters] in
theorem globals_counts {vs : List GVar} {a a' : Ast} (h : appendGlobals a vs = .ok a') (he : a'.err ≠ a.err) : 1 ≤ globalsErrors a vs := by
  induction vs generalizing a with
  | nil => injection h with h; subst h; exact absurd rfl he
  | cons v vs ih =>
    rw [appendGlobals] at h
    obtain ⟨b, h1, h2⟩ := bind_ok h
    rw [globalsErrors, h1]
    dsimp only
    unfold appendGlobal at h1
    split at h1
    · rename_i hb; rw [if_pos hb]; omega
    · rename_i hb
      rw [if_neg hb]
      split at h1
      · rename_i hb; rw [if_pos hb]; omega
      · injection h1 with h1
        subst h1
        have := ih h2 he
        omega

omit [Letters] in
theorem act_counts {p : Nat} {d : Nat → SV} {v v' : SV} {a a' : Ast} (h : act p d v a = .ok (v', a')) (he : a'.err ≠ a.err) :
    1 ≤ actErrors p d a := by
  unfold act at h
  split at h <;> try (obtain ⟨rfl, rfl⟩ := pair_ok h; exact absurd rfl he)
  · obtain ⟨b, h1, h2⟩ := bind_ok h
    obtain ⟨rfl, rfl⟩ := pair_ok h2
    exact globals_counts h1 he
  · split at h
    · rename_i f hf
      obtain ⟨b, h1, h2⟩ := bind_ok h
      obtain ⟨rfl, rfl⟩ := pair_ok h2
      unfold appendFunc at h1
      split at h1
      · rename_i hb
        show 1 ≤ (match (d 1).funcProc, a.mod.body.getLast? with
          | some _, some (.stm _) => 1
          | _, _ => 0)
        rw [hf, hb]
      · injection h1 with h1; subst h1; exact absurd rfl he
    · obtain ⟨rfl, rfl⟩ := pair_ok h; exact absurd rfl he
  · obtain ⟨b, h1, h2⟩ := bind_ok h
    obtain ⟨rfl, rfl⟩ := pair_ok h2
    unfold checkColon at h1
    show 1 ≤ (if (d 2).token.literal = [':'] then
      match (d 1).opt_body.getLast? with
      | none => 0
      | some (.label _) => 0
      | some _ => 1
    else 0)
    split at h1
    · rename_i hl
      rw [if_pos hl]
      split at h1
      · injection h1 with h1; subst h1; exact absurd rfl he
      · injection h1 with h1; subst h1; exact absurd rfl he
      · rename_i x hn hx
        rw [hx]
        split
        · contradiction
        · rename_i h0; injection h0 with h0; exact absurd h0 (hn _)
        · exact Nat.le_refl _
    · injection h1 with h1; subst h1; exact absurd rfl he
  · obtain ⟨⟨m, q⟩, h1, h2⟩ := bind_ok h
    show 1 ≤ (match appendVars (some []) (d 2).identifiers with
      | .ok ⟨_, some _⟩ => 1
      | _ => 0)
    rw [h1]
    cases q with
    | none => obtain ⟨rfl, rfl⟩ := pair_ok h2; exact absurd rfl he
    | some n => exact Nat.le_refl _
  · obtain ⟨⟨m, q⟩, h1, h2⟩ := bind_ok h
    show 1 ≤ (match appendVars (d 1).explicit_variables (d 3).identifiers with
      | .ok ⟨_, some _⟩ => 1
      | _ => 0)
    rw [h1]
    cases q with
    | none => obtain ⟨rfl, rfl⟩ := pair_ok h2; exact absurd rfl he
    | some n => exact Nat.le_refl _
  · obtain ⟨b, h1, h2⟩ := bind_ok h
    obtain ⟨rfl, rfl⟩ := pair_ok h2
    show 1 ≤ if a.isLoop = 0 then 1 else 0
    unfold checkLoop at h1
    split at h1
    · rename_i h0; rw [if_pos h0]
    · injection h1 with h1; subst h1; exact absurd rfl he
  · obtain ⟨b, h1, h2⟩ := bind_ok h
    obtain ⟨rfl, rfl⟩ := pair_ok h2
    show 1 ≤ if a.isLoop = 0 then 1 else 0
    unfold checkLoop at h1
    split at h1
    · rename_i h0; rw [if_pos h0]
    · injection h1 with h1; subst h1; exact absurd rfl he
  · obtain ⟨b, h1, h2⟩ := bind_ok h
    obtain ⟨rfl, rfl⟩ := pair_ok h2
    show 1 ≤ if a.isTry = 0 ∧ (d 2).stmt.isNil then 1 else 0
    unfold checkThrow at h1
    split at h1
    · rename_i h0; rw [if_pos h0]
    · injection h1 with h1; subst h1; exact absurd rfl he
  · obtain ⟨b, h1, h2⟩ := bind_ok h
    obtain ⟨rfl, rfl⟩ := pair_ok h2
    show 1 ≤ if !a.isFunc ∧ !(d 2).stmt.isNil then 1 else 0
    unfold checkReturn at h1
    split at h1
    · rename_i h0; rw [if_pos h0]
    · injection h1 with h1; subst h1; exact absurd rfl he

omit [Letters] in
theorem front_frame {a a' : Ast} (h : Frame a a') : a'.front = a.front := by
  unfold Ast.front
  rw [h.cur, h.code]

omit [Letters] in
theorem reduce_counts {c : Cfg} {p : Nat} {x : Step} (h : reduce c p = .ok x) (he : x.memory.err ≠ c.ast.err) :
    x.memory.front ≤ reduceFront c p := by
  unfold reduce at h
  unfold reduceFront
  dsimp only at h ⊢
  split
  · rename_i hl
    rw [hl] at h
    injection h with h
    subst h
    exact absurd rfl he
  · rename_i hl
    rw [hl] at h
    obtain ⟨⟨v, a⟩, h1, h2⟩ := bind_ok h
    injection h2 with h2
    subst h2
    have h3 : a.front = c.ast.front := front_frame (act_frame h1)
    exact Nat.le_trans (Nat.le_of_eq h3) (Nat.le_mul_of_pos_left _ (act_counts h1 he))

omit [Letters] in
theorem syntaxError_front {c : Cfg} {x : Step} (h : syntaxError c = .ok x) : x.memory.front = c.ast.front := by
  unfold syntaxError at h
  obtain ⟨a, h1, h2⟩ := bind_ok h
  split at h2
  · injection h2 with h2
    subst h2
    exact front_frame (error_frame h1).1
  · injection h2 with h2
    subst h2
    exact front_frame (error_frame h1).1

/-- Reading a token leaves the error alone, or records an error of the tokeniser. -/
theorem fetch_err (c : Cfg) : (fetch c).1.ast.err = c.ast.err ∨ ∃ e, (fetch c).1.ast.err = some (.lex e) := by
  cases hl : c.look with
  | some t => rw [fetch_look hl]; exact .inl rfl
  | none =>
    by_cases hc : c.ast.code = []
    · rw [fetch_none hl, show lexCall c.ast c.lval = (c.ast, c.lval, none) from by unfold lexCall; rw [if_pos hc]]
      exact .inl rfl
    · rw [fetch_none hl, lexCall_eq hc]
      rcases lexNext c.lval with ⟨t', e | (_ | k)⟩
      · exact .inr ⟨e, rfl⟩
      · exact .inl rfl
      · exact .inl rfl

/-- A round which records an error with a place. -/
def Places (c : Cfg) (x : Step) : Prop := ∃ m i j w, x.memory.err = some (.at m i j w) ∧ c.ast.err ≠ some (.at m i j w)

theorem Places.fetch {c : Cfg} {x : Step} (h : Places c x) : Places (fetch c).1 x := by
  obtain ⟨m, i, j, w, h1, h2⟩ := h
  refine ⟨m, i, j, w, h1, ?_⟩
  rcases fetch_err c with h | ⟨e, h⟩
  · rw [h]; exact h2
  · rw [h]; nofun

omit [Letters] in
theorem Places.ne {c : Cfg} {x : Step} (h : Places c x) : x.memory.err ≠ c.ast.err := by
  obtain ⟨m, i, j, w, h1, h2⟩ := h
  rw [h1]
  exact Ne.symm h2

theorem default_counts {c : Cfg} {s : Nat} {x : Step} (h : defaultAction c s = .ok x) (he : Places c x) :
    x.memory.front ≤ defaultFront c s := by
  unfold defaultAction at h
  unfold defaultFront
  dsimp only at h ⊢
  split at h
  · rename_i h1
    rw [if_pos h1]
    split at h
    · injection h with h
      subst h
      exact absurd rfl he.fetch.ne
    · rename_i h2
      rw [if_neg h2]
      split at h
      · rename_i h3
        rw [if_pos h3, syntaxError_front h]
      · rename_i h3
        rw [if_neg h3]
        exact reduce_counts h he.fetch.ne
  · rename_i h1
    rw [if_neg h1]
    split at h
    · rename_i h3
      rw [if_pos h3, syntaxError_front h]
    · rename_i h3
      rw [if_neg h3]
      exact reduce_counts h he.ne

theorem step_counts {c : Cfg} {x : Step} (h : step c = .ok x) (he : Places c x) : x.memory.front ≤ stepFront c := by
  unfold step at h
  unfold stepFront
  split
  · rename_i hl
    rw [hl] at h
    injection h with h
    subst h
    exact absurd rfl he.ne
  · rename_i hl
    rw [hl] at h
    dsimp only at h ⊢
    split at h
    · rename_i hp
      rw [if_pos hp]
      exact default_counts h he
    · rename_i hp
      rw [if_neg hp]
      split at h
      · injection h with h
        subst h
        exact absurd rfl he.fetch.ne
      · rename_i hs
        rw [hs]
        exact default_counts h he.fetch

end Verif.ErrorWork
