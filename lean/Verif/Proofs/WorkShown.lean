import Verif.Proofs.Work
import Verif.Props.Parse
/-! Every U+FFFD that the tokeniser leaves behind has been written about (C72). -/
namespace Verif.Work.Shown
open List Spec Utf8 Lexer ByteLexer ToLower
variable {code : List UInt8} {α β : Type}

/-- The characters U+FFFD from an offset on. -/
def owed (code : List UInt8) (o : Nat) : Nat := (decodeAll (code.drop o)).count runeError

/-- Code that writes a line for every U+FFFD it leaves behind. -/
def Keeps (code : List UInt8) (m : WM α) : Prop :=
  ∀ st v st', m st = some (v, st') → st.prints ≤ st'.prints ∧ st.prints + owed code st.off ≤ st'.prints + owed code st'.off

/-- The same, if the line for the character `c` it starts at is written already. -/
def Owes (code : List UInt8) (c : Option Char) (m : WM α) : Prop :=
  ∀ st v st', currentLetB code st.off = c → m st = some (v, st') →
    st.prints ≤ st'.prints ∧ st.prints + owed code st.off ≤ st'.prints + owed code st'.off + lines c

/-- The same for the first two characters. -/
def Owes2 (code : List UInt8) (c d : Option Char) (m : WM α) : Prop :=
  ∀ st v st', currentLetB code st.off = c → nextLetB code st.off = some d → m st = some (v, st') →
    st.prints ≤ st'.prints ∧ st.prints + owed code st.off ≤ st'.prints + owed code st'.off + lines c + lines d

theorem bind_inv {m : WM α} {f : α → WM β} {st w st'} (h : (m >>= f) st = some (w, st')) :
    ∃ v t, m st = some (v, t) ∧ f v t = some (w, st') := by
  have h : Option.bind (m st) (fun p => f p.1 p.2) = some (w, st') := h
  cases e : m st with
  | none => rw [e] at h; cases h
  | some p => rw [e] at h; exact ⟨p.1, p.2, rfl, h⟩

theorem adv_owed {o o' : Nat} (h : nextPosB code o = some o') :
    owed code o ≤ owed code o' + lines (currentLetB code o) := by
  unfold nextPosB at h
  split at h
  · cases h
  · injection h with h
    subst h
    unfold owed
    rw [currentLetB_eq, ← List.drop_drop]
    generalize code.drop o = l
    by_cases hl : l = []
    · subst hl; simp [decodeAll, decodeFrom]
    · obtain ⟨c, hc, hd, h1, h2⟩ := decodeRune_step l hl
      rw [hc, List.count_cons, List.head?_cons, lines]
      by_cases e : c = runeError
      · subst e; simp
      · rw [if_neg (by simpa using e), if_neg (by intro h; injection h with h; exact e h)]

theorem Keeps.pure (v : α) : Keeps code (Pure.pure v : WM α) := by
  intro st v st' h
  injection h with h
  injection h with h1 h2
  subst h2
  exact ⟨Nat.le_refl _, Nat.le_refl _⟩

theorem Keeps.stop : Keeps code (stop : WM α) := nofun

theorem Keeps.bind {m : WM α} {f : α → WM β} (h1 : Keeps code m) (h2 : ∀ v, Keeps code (f v)) : Keeps code (m >>= f) := by
  intro st w st' h
  obtain ⟨v, t, e1, e2⟩ := bind_inv h
  have a := h1 _ _ _ e1
  have b := h2 _ _ _ _ e2
  omega

theorem Keeps.cur {f : Option Char → WM β} (h : ∀ c, Owes code c (f c)) : Keeps code (cur code >>= f) := by
  intro st w st' e
  obtain ⟨v, t, e1, e2⟩ := bind_inv e
  injection e1 with e1
  injection e1 with e1 e3
  subst e1; subst e3
  have b := h _ _ _ _ (by rfl) e2
  dsimp only at b
  omega

theorem Owes.of {m : WM α} (h : Keeps code m) (c : Option Char) : Owes code c m := by
  intro st v st' _ e
  have := h _ _ _ e
  omega

theorem Owes2.of {m : WM α} {c : Option Char} (h : Owes code c m) (d : Option Char) : Owes2 code c d m := by
  intro st v st' hc _ e
  have := h _ _ _ hc e
  omega

theorem Owes.cur {f : Option Char → WM β} {c : Option Char} (h : ∀ c', Owes code c (f c')) : Owes code c (Work.cur code >>= f) := by
  intro st w st' hc e
  obtain ⟨v, t, e1, e2⟩ := bind_inv e
  injection e1 with e1
  injection e1 with e1 e3
  subst e1; subst e3
  have b := h _ _ _ _ (by exact hc) e2
  dsimp only at b
  omega

theorem Owes.nxt {f : Option Char → WM β} {c : Option Char} (h : ∀ d, Owes2 code c d (f d)) : Owes code c (nxt code >>= f) := by
  intro st w st' hc e
  obtain ⟨v, t, e1, e2⟩ := bind_inv e
  have e1 : Option.map _ _ = _ := e1
  cases e4 : nextLetB code st.off with
  | none => rw [e4] at e1; cases e1
  | some d =>
    rw [e4] at e1
    injection e1 with e1
    injection e1 with e1 e3
    subst e1; subst e3
    have b := h _ _ _ _ (by exact hc) (by exact e4) e2
    dsimp only at b
    omega

theorem Owes.adv {f : Unit → WM β} {c : Option Char} (h : Keeps code (f ())) : Owes code c (adv code >>= f) := by
  intro st w st' hc e
  obtain ⟨v, t, e1, e2⟩ := bind_inv e
  have e1 : Option.map _ _ = _ := e1
  cases e4 : nextPosB code st.off with
  | none => rw [e4] at e1; cases e1
  | some o =>
    rw [e4] at e1
    injection e1 with e1
    injection e1 with e1 e3
    subst e3
    have a := adv_owed e4
    rw [hc] at a
    have b := h _ _ _ e2
    dsimp only at b
    omega

theorem Owes.bind {m : WM α} {f : α → WM β} {c : Option Char} (h1 : Owes code c m) (h2 : ∀ v, Keeps code (f v)) : Owes code c (m >>= f) := by
  intro st w st' hc h
  obtain ⟨v, t, e1, e2⟩ := bind_inv h
  have a := h1 _ _ _ hc e1
  have b := h2 _ _ _ _ e2
  omega

theorem Owes2.adv {f : Unit → WM β} {c d : Option Char} (h : Owes code d (f ())) : Owes2 code c d (Work.adv code >>= f) := by
  intro st w st' hc hd e
  obtain ⟨v, t, e1, e2⟩ := bind_inv e
  have e1 : Option.map _ _ = _ := e1
  cases e4 : nextPosB code st.off with
  | none => rw [e4] at e1; cases e1
  | some o =>
    rw [e4] at e1
    injection e1 with e1
    injection e1 with e1 e3
    subst e3
    have a := adv_owed e4
    rw [hc] at a
    have b := h _ _ _ (by
      unfold nextLetB nextPosB at *
      split at e4
      · cases e4
      · injection e4 with e4
        rw [if_neg (by assumption), e4] at hd
        injection hd) e2
    dsimp only at b
    omega

theorem keeps_skipSpace (n : Nat) : Keeps code (skipSpaceW code n) := by
  induction n with
  | zero => exact Keeps.stop
  | succ n ih =>
    unfold skipSpaceW
    refine .cur fun c => ?_
    split
    · exact .adv ih
    · exact .of (.pure _) _

theorem keeps_skipLine (n : Nat) : Keeps code (skipLineW code n) := by
  induction n with
  | zero => exact Keeps.stop
  | succ n ih =>
    unfold skipLineW
    refine .cur fun c => ?_
    split
    · exact .adv ih
    · exact .of (.pure _) _

theorem keeps_skips (n : Nat) : Keeps code (skipCommentW code n) ∧ Keeps code (skipRegionsW code n) := by
  induction n with
  | zero => exact ⟨by unfold skipCommentW; exact Keeps.stop, by unfold skipRegionsW; exact Keeps.stop⟩
  | succ n ih =>
    have tail : Keeps code (do
        if (← Work.cur code) = some '/' then skipCommentW code n
        else if (← Work.cur code) = some '#' then skipRegionsW code n
        else Pure.pure ()) := by
      refine .cur fun c => .of ?_ _
      split
      · exact ih.1
      · refine .cur fun c => .of ?_ _
        split
        · exact ih.2
        · exact .pure _
    constructor
    · unfold skipCommentW
      refine .cur fun c => ?_
      split
      · refine .nxt fun d => .of (.of ?_ _) _
        split
        · exact (keeps_skipLine _).bind fun _ => (keeps_skipSpace _).bind fun _ => tail
        · exact .pure _
      · exact .of (.pure _) _
    · unfold skipRegionsW
      refine .cur fun c => .of ?_ _
      split
      · exact (keeps_skipLine _).bind fun _ => (keeps_skipSpace _).bind fun _ => tail
      · exact tail

theorem keeps_scanIdent [Letters] (n : Nat) : ∀ ret, Keeps code (scanIdentW code n ret) := by
  induction n with
  | zero => exact fun _ => Keeps.stop
  | succ n ih =>
    intro ret
    unfold scanIdentW
    refine .cur fun c => ?_
    cases c with
    | none => exact .of (.pure _) _
    | some c =>
      dsimp only
      split
      · exact .of (.pure _) _
      · exact .adv (ih _)

theorem keeps_scanNum (n : Nat) : ∀ ret, Keeps code (scanNumW code n ret) := by
  induction n with
  | zero => exact fun _ => Keeps.stop
  | succ n ih =>
    intro ret
    unfold scanNumW
    refine .cur fun c => ?_
    cases c with
    | none => exact .of (.pure _) _
    | some c =>
      dsimp only
      split
      · exact .adv (ih _)
      · exact .of (.pure _) _

theorem owes_scanStr (close : Char) (n : Nat) : ∀ ret c, Owes code c (scanStrW code close n ret) := by
  induction n with
  | zero => exact fun _ c => .of Keeps.stop c
  | succ n ih =>
    intro ret c
    unfold scanStrW
    refine .adv (.cur fun cl => ?_)
    split
    · refine .adv (.bind (keeps_skipSpace _) fun _ => .bind (keeps_skips _).1 fun _ => .cur fun d => ?_)
      cases d with
      | none => exact .of (.pure _) _
      | some d =>
        dsimp only
        split
        · exact .of (.pure _) _
        · exact ih _ _
    · cases cl with
      | none => exact .of (.pure _) _
      | some c =>
        dsimp only
        split
        · refine .nxt fun d => ?_
          split
          · exact .adv (ih _ _)
          · refine .of (.adv (.bind (keeps_skipSpace _) fun _ => .cur fun d => ?_)) _
            split
            · exact ih _ _
            · exact .of (.pure _) _
        · exact ih _ _

theorem keeps_ampersand [Letters] (n : Nat) (f : List Char → Option Nat) (g : Nat → List Char → RawB) (r : RawB) :
    Keeps code (do
      let pos ← getOff
      let w ← scanIdentW code n []
      match f w with
      | some k => Pure.pure (g k w)
      | none =>
        setOff pos
        Pure.pure r) := by
  intro st v st' h
  obtain ⟨p, t, e1, e2⟩ := bind_inv h
  injection e1 with e1
  injection e1 with e1 e3
  subst e1; subst e3
  obtain ⟨w, t, e1, e2⟩ := bind_inv e2
  have a := keeps_scanIdent _ _ _ _ _ e1
  revert e2
  cases f w with
  | some k =>
    intro e2
    injection e2 with e2
    injection e2 with _ e2
    subst e2
    exact a
  | none =>
    intro e2
    injection e2 with e2
    injection e2 with _ e2
    subst e2
    dsimp only
    omega

theorem keeps_scan [Letters] (d : Bool) : Keeps code (scanW code d) := by
  unfold scanW
  refine .cur fun c => ?_
  cases c with
  | none => exact .adv (.pure _)
  | some c =>
    have one : ∀ r : RawB, Owes code (some c) (adv code >>= fun _ => (Pure.pure r : WM RawB)) := fun r => .adv (.pure _)
    dsimp only [head?_cons]
    by_cases h : isLetter c = true
    · refine .of ?_ _
      rw [if_pos h]
      refine (keeps_scanIdent _ _).bind fun w => ?_
      split
      · split <;> exact .pure _
      · exact .pure _
    rw [if_neg h]; clear h
    by_cases h : c = '.'
    · rw [if_pos h]; exact one _
    rw [if_neg h]; clear h
    by_cases h : isDigit c = true
    · refine .of ?_ _
      rw [if_pos h]
      refine (keeps_scanNum _ _).bind fun w => ?_
      obtain ⟨w, b⟩ := w
      dsimp only
      split <;> exact .pure _
    rw [if_neg h]; clear h
    by_cases h : c = '\''
    · rw [if_pos h]
      refine (owes_scanStr _ _ _ _).bind fun w => ?_
      split
      · exact .pure _
      · split <;> exact .pure _
    rw [if_neg h]; clear h
    by_cases h : isPunct c = true
    · rw [if_pos h]; exact one _
    rw [if_neg h]; clear h
    by_cases h : c = '='
    · rw [if_pos h]; exact one _
    rw [if_neg h]; clear h
    by_cases h : c = '"'
    · rw [if_pos h]
      refine (owes_scanStr _ _ _ _).bind fun w => ?_
      split <;> exact .pure _
    rw [if_neg h]; clear h
    by_cases h : c = '<'
    · rw [if_pos h]
      refine .nxt fun d => ?_
      split
      · exact .adv (.adv (.pure _))
      · refine .of (.nxt fun d => ?_) _
        split
        · exact .adv (.adv (.pure _))
        · exact .of (one _) _
    rw [if_neg h]; clear h
    by_cases h : c = '>'
    · rw [if_pos h]
      refine .nxt fun d => ?_
      split
      · exact .adv (.adv (.pure _))
      · exact .of (one _) _
    rw [if_neg h]; clear h
    by_cases h : c = '&'
    · rw [if_pos h]
      exact .adv (keeps_ampersand _ (fun w => lookupB directives (fastToLower (encode ['&'] ++ encode w)))
        (fun k w => ⟨some k, encode ['&'] ++ encode w, none⟩) _)
    rw [if_neg h]; clear h
    by_cases h : c = '~'
    · rw [if_pos h]
      exact .adv ((keeps_scanIdent _ _).bind fun _ => .pure _)
    rw [if_neg h]
    exact one _

theorem keeps_next [Letters] (t : TokB) : Keeps code (nextW code t) := by
  unfold nextW
  exact (keeps_skipSpace _).bind fun _ => (keeps_skips _).1.bind fun _ => (keeps_skips _).2.bind fun _ => keeps_scan _

open Tables ByteParser LR

/-- The count `x` has a line for every U+FFFD between `s` and `s'`. -/
def Shows (x : Count) (s s' : List Char) : Prop := s.count runeError ≤ x.prints + s'.count runeError

theorem Shows.zero (s : List Char) : Shows 0 s s := Nat.le_add_left _ _

theorem Shows.add {x y : Count} {s s1 s2 : List Char} (h : Shows x s s1) (h' : Shows y s1 s2) : Shows (x + y) s s2 := by
  unfold Shows at *
  show _ ≤ x.prints + y.prints + _
  omega

variable [Letters]

theorem lex_shows (hne : code ≠ []) {a : TokB} (h : Sound code a) :
    Shows (lexCount code a) (chars code a).rest (lexNext (chars code a)).1.rest := by
  unfold lexCount
  rw [if_neg hne]
  obtain ⟨r, -, hr⟩ := gives_next (code := code) a (chars code a).rest
  obtain ⟨st, e, hat, -⟩ := hr ⟨a.offset, 0, 0⟩ h.at_
  rw [e, lexNext_rest, ← h.prevDot]
  have := (keeps_next a _ _ _ e).2
  dsimp only at this
  unfold owed at this
  rw [hat.dec] at this
  unfold Shows
  dsimp only
  have e2 : decodeAll (code.drop a.offset) = (chars code a).rest := rfl
  rw [e2] at this
  omega

theorem fetch_shows (hne : code ≠ []) {c : CfgB} (hs : Sound code c.lval) (hc : c.ast.code ≠ []) :
    Shows (fetchCount code c) (c.cfg code).lval.rest (fetch (c.cfg code)).1.lval.rest := by
  obtain ⟨ast, lval, look, live, stale⟩ := c
  cases look with
  | some t => exact Shows.zero _
  | none =>
    let c : CfgB := ⟨ast, lval, none, live, stale⟩
    have hp := lex_shows hne hs
    have e : (fetch (c.cfg code)).1.lval = (lexNext (c.cfg code).lval).1 := by
      rw [fetch_none (c := c.cfg code) rfl, lexCall_eq (a := (c.cfg code).ast) hc]
      rcases lexNext (c.cfg code).lval with ⟨t', e | (_ | k)⟩ <;> rfl
    show Shows (lexCount code lval) (c.cfg code).lval.rest (fetch (c.cfg code)).1.lval.rest
    rw [e]
    exact hp

omit [Letters] in
theorem done_one {c : Cfg} {k : Nat} {a : Ast} (h : syntaxError c = .ok (.done k a)) : k = 1 := by
  unfold syntaxError at h
  obtain ⟨x, -, h2⟩ := bind_ok h
  split at h2
  · injection h2 with h2; injection h2 with h2; exact h2.symm
  · injection h2 with h2; cases h2

omit [Letters] in
theorem done_one' {c : Cfg} {p k : Nat} {a : Ast} (h : reduce c p = .ok (.done k a)) : k = 1 := by
  unfold reduce at h
  dsimp only at h
  split at h
  · injection h with h; injection h with h; exact h.symm
  · obtain ⟨x, -, h2⟩ := bind_ok h
    injection h2 with h2; cases h2

theorem default_shows (hne : code ≠ []) {cs : List Char} {σ0 : LR.St} {ts : List Tree} (hcs : cs ≠ []) {c : CfgB} (hs : Sound code c.lval)
    (hi : Inv cs σ0 (c.cfg code) ts) {s : Nat} (hlt : s < nStates) :
    (∀ c', defaultAction (c.cfg code) s = .ok (.go c') → Shows (defaultCount code c s) (c.cfg code).lval.rest c'.lval.rest) ∧
    (∀ a, defaultAction (c.cfg code) s = .ok (.done 0 a) → a.err = none → Shows (defaultCount code c s) (c.cfg code).lval.rest []) := by
  have hc : c.ast.code ≠ [] := by rw [show c.ast.code = cs from hi.codeEq]; exact hcs
  unfold defaultCount defaultAction
  dsimp only
  split
  · rename_i hd
    have hf := fetch_shows hne hs hc
    obtain ⟨h0, -, -, h1, -, -, h2⟩ := hi.fetch hcs
    have hacc : ∀ t, t < nToks → excaFind t (excaFrom s excaPairs) < 0 → t = 1 := by
      intro t ht hneg
      refine (dflAct_accept hlt ht ?_).2
      unfold dflAct
      rw [if_pos hd]
      unfold ofEntry
      rw [if_pos hneg]
    revert hf h0 h1 h2
    generalize fetch (c.cfg code) = r
    obtain ⟨d, t⟩ := r
    dsimp only
    intro hf h0 h1 h2
    constructor
    · intro c' h
      split at h
      · cases h
      · split at h
        · rw [syntaxError_lval h]; exact hf
        · rw [reduce_lval h]; exact hf
    · intro a h he
      split at h
      · rename_i hneg
        injection h with h
        injection h with _ h
        subst h
        obtain rfl := hacc t h1 hneg
        rcases h2 with h2 | ⟨-, -, h2⟩
        · obtain ⟨k, hk, hk0, -⟩ := h0.look _ h2
          exact absurd hk.symm ((tokNum_lt k).2 hk0)
        · obtain ⟨t, -, -, h2⟩ := h2 he
          rw [h2] at hf
          exact hf
      · split at h
        · cases done_one h
        · cases done_one' h
  · constructor
    · intro c' h
      split at h
      · rw [syntaxError_lval h]; exact Shows.zero _
      · rw [reduce_lval h]; exact Shows.zero _
    · intro a h he
      split at h
      · cases done_one h
      · cases done_one' h

theorem step_shows (hne : code ≠ []) {cs : List Char} {σ0 : LR.St} {ts : List Tree} (hcs : cs ≠ []) {c : CfgB} (hs : Sound code c.lval)
    (hi : Inv cs σ0 (c.cfg code) ts) :
    (∀ c', step (c.cfg code) = .ok (.go c') → Shows (stepCount code c) (c.cfg code).lval.rest c'.lval.rest) ∧
    (∀ a, step (c.cfg code) = .ok (.done 0 a) → a.err = none → Shows (stepCount code c) (c.cfg code).lval.rest []) := by
  have hc : c.ast.code ≠ [] := by rw [show c.ast.code = cs from hi.codeEq]; exact hcs
  have hst : ∀ s v l, c.live = (s, v) :: l → s < nStates := by
    intro s v l h
    obtain ⟨vs, hst, -⟩ := hi.stk
    rw [show (c.cfg code).live = _ from h] at hst
    exact hst.lt
  unfold stepCount step
  have hl : (c.cfg code).live = c.live := rfl
  rw [hl]
  match hcl : c.live with
  | [] =>
    constructor
    · intro c' h
      injection h with h
      cases h
    · intro a h
      injection h with h
      injection h with h
      cases h
  | (s, v) :: l =>
    have hlt := hst s v l hcl
    dsimp only
    split
    · exact default_shows hne hcs hs hi hlt
    · obtain ⟨c', h1, h2, h3⟩ := fetch_match hne hs hc
      have hp := fetch_shows hne hs hc
      obtain ⟨hi', -⟩ := hi.fetch hcs
      rw [h1]
      revert h2 hp hi'
      generalize fetch (c.cfg code) = r
      obtain ⟨d, t⟩ := r
      intro h2 hp hi'
      dsimp only at h2 hp hi' ⊢
      subst h2
      cases shiftOf s t with
      | some s' =>
        constructor
        · intro c'' h
          injection h with h
          injection h with h
          subst h
          exact hp.add (Shows.zero _)
        · intro a h
          injection h with h; cases h
      | none =>
        obtain ⟨k1, k2⟩ := default_shows hne hcs h3 hi' hlt
        exact ⟨fun c'' h => hp.add (k1 c'' h), fun a h he => hp.add (k2 a h he)⟩

theorem run_shows (hne : code ≠ []) {cs : List Char} {σ0 : LR.St} (hcs : cs ≠ []) (n : Nat) (c : CfgB) (ts : List Tree) (hs : Sound code c.lval)
    (hi : Inv cs σ0 (c.cfg code) ts) (hp : PosOk cs c.ast) (hn : ∃ n, (c.cfg code).lval = afterCalls n (startTok cs)) {k : Nat} {a : Ast}
    (hr : run n (c.cfg code) = .ok (some (k, a))) (he : a.err = none) :
    Shows (runCount code n c) (c.cfg code).lval.rest [] := by
  induction n generalizing c ts with
  | zero => cases hr
  | succ n ih =>
    have hc : c.ast.code ≠ [] := by rw [hp.codeEq]; exact hcs
    have h := step_match hne hs hc
    have hpos := step_pos (c := c.cfg code) hcs hp hn
    have hpost := step_inv hcs hi
    obtain ⟨h1, h2⟩ := step_shows hne hcs hs hi
    rw [runCount]
    rw [run] at hr
    revert h hpos hpost h1 h2 hr
    generalize step (c.cfg code) = y
    intro hr h hpos hpost h1 h2
    match y with
    | .error p => cases hr
    | .ok (.done j b) =>
      rw [show stepB code c = _ from h]
      injection hr with hr
      injection hr with hr
      injection hr with e1 e2
      subst e1; subst e2
      rcases hpost.2.2 with ⟨-, h⟩ | ⟨rfl, -⟩
      · exact absurd he h
      · exact (h2 _ rfl he).add (Shows.zero _)
    | .ok (.go c') =>
      obtain ⟨d, e, k2, k3⟩ := h
      subst k2
      rw [e]
      obtain ⟨⟨ts', hi'⟩, -, -⟩ := hpost
      exact (h1 _ rfl).add (ih d ts' k3 hi' hpos.1 hpos.2 hr)

theorem parse_shows {a : Ast} (h : parse (newAST (decodeAll code)) = .ret a) (he : a.err = none) :
    (decodeAll code).count runeError ≤ (parseCount code).prints := by
  unfold parseCount
  split
  · rename_i hb
    rw [List.count_eq_zero.2]
    · exact Nat.zero_le _
    · intro hm
      exact absurd (List.all_eq_true.1 hb _ hm) (by decide)
  · rename_i hb
    have hcs : decodeAll code ≠ [] := by rintro h; rw [h] at hb; exact hb rfl
    have hne : code ≠ [] := by rintro rfl; exact hcs rfl
    have hr : Rel code ⟨[], .nil, 0, false⟩ (startTok (decodeAll code)) := ⟨rfl, rfl, rfl, 0, rfl, rfl⟩
    have e : (⟨newAST (decodeAll code), ⟨[], .nil, 0, false⟩, none, [(0, {})], []⟩ : CfgB).cfg code = initCfg (newAST (decodeAll code)) := by
      unfold CfgB.cfg initCfg
      rw [chars_eq hr]
      rfl
    obtain ⟨k, hrun⟩ := parse_run (a := newAST (decodeAll code)) (Bool.eq_false_iff.2 hb) h
    have := run_shows hne hcs (fuel (decodeAll code).length)
      ⟨newAST (decodeAll code), ⟨[], .nil, 0, false⟩, none, [(0, {})], []⟩ [] (Sound.of hr)
      (by rw [e]; exact inv_init (a := newAST (decodeAll code)) _ rfl)
      ⟨rfl, nofun, nofun⟩ ⟨0, chars_eq hr⟩ (by rw [e]; exact hrun) he
    rw [e] at this
    exact this

end Verif.Work.Shown
