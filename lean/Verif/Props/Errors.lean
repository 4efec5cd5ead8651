import Verif.Proofs.LR.Located
import Verif.Proofs.LexAppend
import Verif.Props.Same
/-!
# Syntax errors: C46, C47, C48

`Spells` is in `Spec/Program.lean`; `Viable`, `Begins`, `SyntaxErr`, `SyntaxErrAt` in `Spec/Errors.lean`.
-/
namespace Verif
open Spec Lexer LR
variable [Letters]

/-- The outcome of `Parse` on a text that is not blank and all of whose tokens are known. -/
theorem parse_whole {code : List Char} (hb : NotBlank code) {l : List (Nat × Tok)} (ht : TokensOf code l) {a : Ast}
    (h : parse (newAST code) = .ret a) :
    ((¬ SyntaxErr a) ∧ ∃ P : Program, P.grouped ∧ l.map key = P.toks) ∨
    ((¬ ∃ P : Program, P.grouped ∧ l.map key = P.toks) ∧ ∃ x, SyntaxErrAt code x.2 a ∧
      ((Viable (l.map key) ∧ l.getLast? = some x) ∨
        ∃ u w, l = u ++ x :: w ∧ Viable (u.map key) ∧ ¬ Viable ((u ++ [x]).map key))) := by
  have hb' := (notBlank_iff code).1 hb
  have hgood := tokens_good ht
  obtain ⟨k, hr⟩ := parse_run (a := newAST code) hb' h
  have := run_whole _ (ctl_init (a := newAST code) (not_blank hb') (.ofTokens ht)) (by rw [yieldL]; exact VT.nil)
    (by rintro ⟨_, _, _, h⟩; cases h) k a hr
  rw [yieldL, List.nil_append] at this
  rw [program_iff hgood]
  rcases this with ⟨h1, h2⟩ | ⟨h1, x, h2, h3⟩
  · exact .inl ⟨h1, h2⟩
  · refine .inr ⟨h1, x, h2, ?_⟩
    rcases h3 with ⟨h3, h4⟩ | ⟨u, w, rfl, h4, h5⟩
    · exact .inl ⟨(viable_iff hgood).2 h3, h4⟩
    · refine .inr ⟨u, w, rfl, (viable_iff fun y hy => hgood y (by simp [hy])).2 h4, fun h => h5 ((viable_iff fun y hy => hgood y ?_).1 h)⟩
      rcases List.mem_append.1 hy with hy | hy
      · simp [hy]
      · rw [List.mem_singleton] at hy; simp [hy]

/-! ## C46 -/

/-- Let the tokeniser read the text to its end without errors.  If `Parse` returns, it reports a syntax error exactly if the text is not a
program, whatever other rules are broken. -/
theorem C46_iff {code : List Char} (hb : NotBlank code) {l : List (Nat × Tok)} (ht : TokensOf code l) {a : Ast}
    (h : parse (newAST code) = .ret a) : SyntaxErr a ↔ ¬ ∃ P, Spells code P := by
  have hsp : (∃ P, Spells code P) ↔ ∃ P : Program, P.grouped ∧ l.map key = P.toks := by
    constructor
    · rintro ⟨P, ⟨l', h1, h2⟩, h3⟩
      have := tokens_unique ht h1
      subst this
      exact ⟨P, h3, h2⟩
    · rintro ⟨P, h1, h2⟩
      exact ⟨P, ⟨l, ht, h2⟩, h1⟩
  rw [hsp]
  rcases parse_whole hb ht h with ⟨h1, h2⟩ | ⟨h1, x, h2, -⟩
  · exact ⟨fun h => absurd h h1, fun h => absurd h2 h⟩
  · exact ⟨fun _ => h1, fun _ => ⟨_, _, _, h2⟩⟩

/-- A program never gives a syntax error. -/
theorem C46_program {code : List Char} {P : Program} (hs : Spells code P) {a : Ast} (h : parse (newAST code) = .ret a) : ¬ SyntaxErr a := by
  obtain ⟨⟨l, ht, hl⟩, hg⟩ := hs
  by_cases hb : NotBlank code
  · intro he
    exact (C46_iff hb ht h).1 he ⟨P, ⟨l, ht, hl⟩, hg⟩
  · have hb' : code.all isUnicodeSpace = true := by
      rw [notBlank_iff] at hb
      simpa using hb
    unfold parse at h
    rw [if_pos (show (newAST code).code.all isUnicodeSpace = true from hb')] at h
    injection h with h
    subst h
    rintro ⟨_, _, _, h⟩
    cases h

/-! ## C47 -/

/-- If the text begins with tokens that can be continued to a program, and the next token is such that they no longer can, then this is
the token that `Parse` names, whatever comes after it.  (The case that `Parse` panics is described by C20.) -/
theorem C47_first {code : List Char} (hb : NotBlank code) {pre : List (Nat × Tok)} {x : Nat × Tok} (ht : Begins code (pre ++ [x]))
    (hv : Viable (pre.map key)) (hn : ¬ Viable ((pre ++ [x]).map key)) :
    parse (newAST code) = .panic .nilMap ∨ ∃ a, parse (newAST code) = .ret a ∧ SyntaxErrAt code x.2 a := by
  have hb' := (notBlank_iff code).1 hb
  have hgood := first_good ht
  have hc : code ≠ [] := not_blank hb'
  have h1 := run_bad (x := x) (pre := pre) (fuel code.length) (ctl_init (a := newAST code) hc (.ofFirst ht))
    (by rw [yieldL]; exact (viable_iff fun y hy => hgood y (List.mem_append_left _ hy)).1 hv)
    (by rw [yieldL]; exact fun h => hn ((viable_iff hgood).2 h))
  have h2 := parse_final (newAST code) hc
  unfold parse
  rw [if_neg (by rw [show (newAST code).code = code from rfl, hb']; decide)]
  show (match run (fuel code.length) (initCfg (newAST code)) with | .error p => Outcome.panic p | .ok none => .loops | .ok (some (_, a')) => .ret a') = _ ∨
    ∃ a, (match run (fuel code.length) (initCfg (newAST code)) with | .error p => Outcome.panic p | .ok none => .loops | .ok (some (_, a')) => .ret a') = _ ∧ _
  replace h2 : Final code (view (newAST code)) (run (fuel code.length) (initCfg (newAST code))) := h2
  generalize run (fuel code.length) (initCfg (newAST code)) = r at h1 h2
  match r, h1, h2 with
  | .error q, _, h2 => left; rw [show q = .nilMap from h2]
  | .ok none, _, h2 => exact h2.elim
  | .ok (some (k, a)), h1, _ => exact .inr ⟨a, rfl, h1⟩

/-- If the text as a whole can be continued to a program but is not one, the last token is named. -/
theorem C47_end {code : List Char} (hb : NotBlank code) {l : List (Nat × Tok)} (ht : TokensOf code l) (hv : Viable (l.map key))
    (hn : ¬ ∃ P, Spells code P) {a : Ast} (h : parse (newAST code) = .ret a) :
    ∃ x, l.getLast? = some x ∧ SyntaxErrAt code x.2 a := by
  rcases parse_whole hb ht h with ⟨-, P, h1, h2⟩ | ⟨-, x, h2, ⟨-, h3⟩ | ⟨u, w, rfl, -, h4⟩⟩
  · exact absurd ⟨P, ⟨l, ht, h2⟩, h1⟩ hn
  · exact ⟨x, h3, h2⟩
  · exfalso
    obtain ⟨P, hg, hp⟩ := hv
    refine h4 ⟨P, hg, List.IsPrefix.trans ?_ hp⟩
    refine ⟨w.map key, ?_⟩
    rw [← List.map_append]
    simp

/-- Conversely a syntax error names the first token with which the text can no longer be continued to a program, or the last token if there
is none. -/
theorem C47_named {code : List Char} (hb : NotBlank code) {l : List (Nat × Tok)} (ht : TokensOf code l) {a : Ast}
    (h : parse (newAST code) = .ret a) (he : SyntaxErr a) :
    ∃ u x w, l = u ++ x :: w ∧ SyntaxErrAt code x.2 a ∧
      ((Viable (u.map key) ∧ ¬ Viable ((u ++ [x]).map key)) ∨ (Viable (l.map key) ∧ w = [])) := by
  rcases parse_whole hb ht h with ⟨h1, -⟩ | ⟨-, x, h2, ⟨h3, h4⟩ | ⟨u, w, rfl, h3, h4⟩⟩
  · exact absurd he h1
  · obtain ⟨u, rfl⟩ := List.getLast?_eq_some_iff.1 h4
    exact ⟨u, x, [], rfl, h2, .inr ⟨h3, rfl⟩⟩
  · exact ⟨u, x, w, rfl, h2, .inl ⟨h3, h4⟩⟩

/-! ## C48 -/

/-- `Parse` returns this error. -/
def Spec.Reports (code : List Char) (e : Err) : Prop := ∃ a, parse (newAST code) = .ret a ∧ a.err = some e

omit [Letters] in
/-- The property does not hold: of several errors the last is reported.  The text `Прервать;` is rejected because of `Прервать`; with a second
line only the error in that line is reported. -/
theorem C48_violated : ∃ p q e e', @Reports stdLetters p e ∧ @Reports stdLetters (p ++ q) e' ∧
    e = .at (.loopOp "Прервать".toList) 1 0 "Прервать".toList ∧ e' = .at .procReturn 2 8 "1".toList :=
  ⟨"Прервать;".toList, "\nВозврат 1".toList, _, _, ⟨_, rfl, by decide +kernel⟩, ⟨_, rfl, by decide +kernel⟩, rfl, rfl⟩

omit [Letters] in
theorem getPosition_append {p q r : List Char} (h : r <:+ p) : getPosition (p ++ q) (r ++ q) = getPosition p r := by
  obtain ⟨s, rfl⟩ := h
  have h1 : ((s ++ r) ++ q).length - (r ++ q).length = s.length := by simp only [List.length_append]; omega
  have h2 : (s ++ r).length - r.length = s.length := by simp only [List.length_append]; omega
  unfold getPosition
  rw [h1, h2, List.append_assoc, List.take_left, List.take_left]

omit [Letters] in
theorem key_followed (q : List Char) (l : List (Nat × Tok)) : (l.map (followedBy q)).map key = l.map key := by
  rw [List.map_map]
  exact List.map_congr_left fun y _ => rfl

theorem same_error {p q : List Char} (hb : NotBlank p) {pre : List (Nat × Tok)} {x : Nat × Tok} (h1 : Begins p (pre ++ [x]))
    (h2 : Begins (p ++ q) ((pre ++ [x]).map (followedBy q))) (hv : Viable (pre.map key)) (hn : ¬ Viable ((pre ++ [x]).map key))
    {a a' : Ast} (ha : parse (newAST p) = .ret a) (ha' : parse (newAST (p ++ q)) = .ret a') : a.err = a'.err ∧ SyntaxErrAt p x.2 a := by
  have hb' : NotBlank (p ++ q) := by
    obtain ⟨c, h, h'⟩ := hb
    exact ⟨c, List.mem_append_left _ h, h'⟩
  have hx : x.2.rest <:+ p := first_suffix h1 x (by simp)
  have e1 : SyntaxErrAt p x.2 a := by
    rcases C47_first hb h1 hv hn with h | ⟨b, h, h'⟩
    · rw [ha] at h; cases h
    · rw [ha] at h; injection h with h; subst h; exact h'
  have e2 : SyntaxErrAt (p ++ q) (followedBy q x).2 a' := by
    rw [← key_followed q, List.map_append] at hn
    rw [List.map_append] at h2
    rcases C47_first hb' h2 (by rw [key_followed]; exact hv) hn with h | ⟨b, h, h'⟩
    · rw [ha'] at h; cases h
    · rw [ha'] at h; injection h with h; subst h; exact h'
  refine ⟨?_, e1⟩
  unfold SyntaxErrAt at e1 e2
  dsimp only [followedBy] at e2
  rw [getPosition_append hx] at e2
  rw [e1, e2]

/-- The property for syntax errors in front of the end: if the text `p` has a first token `x` with which it cannot be continued to a program,
and `p` goes on after `x` (with at least one character that is more than the white space that belongs to a string or date literal), then
`Parse` reports the same error, at `x`, for `p` and for every text that begins with `p`.  Missing: errors that are no syntax errors, for which
the claim is false. -/
theorem C48_syntax_partial {p : List Char} (hb : NotBlank p) {pre : List (Nat × Tok)} {x : Nat × Tok} (h1 : Begins p (pre ++ [x]))
    (hr : x.2.rest ≠ []) (hv : Viable (pre.map key)) (hn : ¬ Viable ((pre ++ [x]).map key)) (q : List Char)
    {a a' : Ast} (ha : parse (newAST p) = .ret a) (ha' : parse (newAST (p ++ q)) = .ret a') : a.err = a'.err ∧ SyntaxErrAt p x.2 a :=
  same_error hb h1 (first_append q h1 (by intro y hy; simp at hy; exact hy ▸ hr)) hv hn ha ha'

/-! ## Examples -/

/-- The first `n` tokens (for examples). -/
def firstF : Nat → Tok → List (Nat × Tok)
  | 0, _ => []
  | n + 1, t => match lexNext t with
    | (t', .ok (some k)) => (k, t') :: firstF n t'
    | _ => []

theorem firstF_sound : ∀ (n : Nat) (t : Tok), FirstTokens t (firstF n t)
  | 0, t => .nil t
  | n + 1, t => by
    unfold firstF
    split
    · next e => exact .next e (firstF_sound n _)
    · exact .nil t

omit [Letters] in
/-- One name is a program. -/
theorem name_viable : Viable [ident "а".toList] := by
  refine ⟨⟨[], .body (.one (.expr (nm "а")))⟩, ?_, ?_⟩
  · simp [Program.grouped, Program.funcs, Block.grouped, Body.grouped, Stmt.grouped, Path.grouped, Ident.grouped, Expr.grouped, nm,
      Expr.noAssign]
  · simp [Program.toks, Block.toks, Body.toks, Stmt.toks, Path.toks, Ident.toks, Expr.toks, nm]

omit [Letters] in
/-- A name and a closing parenthesis do not begin a program.  This follows from what the model computes for the text `а ) б`. -/
theorem paren_not_viable : ¬ Viable ((toksD "а )").map key) := by
  let _ := stdLetters
  have ht : @TokensOf stdLetters "а ) б".toList (toksD "а ) б") := toksD_of (by decide +kernel)
  have h : ∃ a, @parse stdLetters (newAST "а ) б".toList) = .ret a ∧ a.err = some (.at .syntaxError 1 2 ")".toList) := ⟨_, rfl, by decide +kernel⟩
  obtain ⟨a, ha, he⟩ := h
  obtain ⟨u, x, w, h1, h2, h3⟩ := @C47_named stdLetters _ ((notBlank_iff _).2 (by decide +kernel)) _ ht _ ha ⟨_, _, _, he⟩
  have hl : x.2.literal = ")".toList := by
    unfold SyntaxErrAt at h2
    rw [he] at h2
    injection h2 with h2
    injection h2 with _ _ _ h2
    exact h2.symm
  have hlen : (toksD "а ) б").map (·.2.literal) = ["а".toList, ")".toList, "б".toList] := by decide +kernel
  have hkey : ((toksD "а ) б").map key).take 2 = (toksD "а )").map key := by decide +kernel
  rw [← hkey]
  rw [h1] at hlen ⊢
  match u, hlen with
  | [], hlen =>
    simp only [List.nil_append, List.map_cons, List.cons.injEq] at hlen
    rw [hl] at hlen
    exact absurd hlen.1 (by decide)
  | [y], hlen =>
    rcases h3 with ⟨-, h3⟩ | ⟨-, rfl⟩
    · simpa using h3
    · simp at hlen
  | [y, z], hlen =>
    simp only [List.cons_append, List.nil_append, List.map_cons, List.cons.injEq] at hlen
    rw [hl] at hlen
    exact absurd hlen.2.2.1 (by decide)
  | y :: z :: v :: r, hlen => simp at hlen

/-- Texts that meet the hypotheses of C46: one with a broken rule that is a program, one that is not. -/
example : ∃ l a, @TokensOf stdLetters "Прервать;".toList l ∧ @parse stdLetters (newAST "Прервать;".toList) = .ret a ∧ ¬ SyntaxErr a := by
  refine ⟨toksD "Прервать;", _, toksD_of (by decide +kernel), rfl, ?_⟩
  refine @C46_program stdLetters _ ⟨[], .body (.sep (.body (.one .brk)) .semi .none)⟩ ⟨⟨toksD "Прервать;", toksD_of (by decide +kernel), ?_⟩, ?_⟩ _ rfl
  · decide +kernel
  · simp [Program.grouped, Program.funcs, Block.grouped, Body.grouped, Stmt.grouped, OptStmt.grouped]
example : ∃ l a, @TokensOf stdLetters "Если а Тогда".toList l ∧ @parse stdLetters (newAST "Если а Тогда".toList) = .ret a ∧ SyntaxErr a :=
  ⟨toksD "Если а Тогда", _, toksD_of (by decide +kernel), rfl, 1, 7, "Тогда".toList, by decide +kernel⟩

/-- The hypotheses of `C47_first` are met: after `а )` there may even be an unterminated string. -/
example : ∃ pre x, @Begins stdLetters "а ) \"".toList (pre ++ [x]) ∧ Viable (pre.map key) ∧ ¬ Viable ((pre ++ [x]).map key) := by
  let _ := stdLetters
  refine ⟨@firstF stdLetters 1 (startTok "а ) \"".toList), ((@firstF stdLetters 2 (startTok "а ) \"".toList))[1]'(by decide +kernel)), ?_, ?_, ?_⟩
  · have : @firstF stdLetters 1 (startTok "а ) \"".toList) ++ [((@firstF stdLetters 2 (startTok "а ) \"".toList))[1]'(by decide +kernel))] =
        @firstF stdLetters 2 (startTok "а ) \"".toList) := by decide +kernel
    rw [this]
    exact firstF_sound _ _
  · have : (@firstF stdLetters 1 (startTok "а ) \"".toList)).map key = [ident "а".toList] := by decide +kernel
    rw [this]
    exact name_viable
  · have : (@firstF stdLetters 1 (startTok "а ) \"".toList) ++ [((@firstF stdLetters 2 (startTok "а ) \"".toList))[1]'(by decide +kernel))]).map key =
        (toksD "а )").map key := by decide +kernel
    rw [this]
    exact paren_not_viable

/-- The hypotheses of `C47_end` are met. -/
example : ∃ l, @TokensOf stdLetters "Если а Тогда".toList l ∧ Viable (l.map key) ∧ ¬ ∃ P, @Spells stdLetters "Если а Тогда".toList P := by
  let _ := stdLetters
  have ht : @TokensOf stdLetters "Если а Тогда".toList (toksD "Если а Тогда") := toksD_of (by decide +kernel)
  refine ⟨_, ht, ?_, ?_⟩
  · have : (toksD "Если а Тогда").map key = [word .kIf, ident "а".toList, word .kThen] := by decide +kernel
    rw [this]
    refine ⟨⟨[], .body (.one (.ifS (nm "а") .empty .nil .none))⟩, ?_, ?_⟩
    · simp [Program.grouped, Program.funcs, Block.grouped, Body.grouped, Stmt.grouped, Path.grouped, Ident.grouped, Expr.grouped, nm,
        Elifs.grouped, Else.grouped]
    · simp [Program.toks, Block.toks, Body.toks, Stmt.toks, Path.toks, Ident.toks, Expr.toks, nm, Elifs.toks, Else.toks]
  · have h : ∃ a, @parse stdLetters (newAST "Если а Тогда".toList) = .ret a ∧ a.err = some (.at .syntaxError 1 7 "Тогда".toList) :=
      ⟨_, rfl, by decide +kernel⟩
    obtain ⟨a, ha, he⟩ := h
    exact (@C46_iff stdLetters _ ((notBlank_iff _).2 (by decide +kernel)) _ ht _ ha).1 ⟨_, _, _, he⟩

/-- The hypotheses of `C48_syntax_partial` are met. -/
example : ∃ pre x, @Begins stdLetters "а ) б".toList (pre ++ [x]) ∧ x.2.rest ≠ [] ∧
    Viable (pre.map key) ∧ ¬ Viable ((pre ++ [x]).map key) := by
  let _ := stdLetters
  refine ⟨@firstF stdLetters 1 (startTok "а ) б".toList), ((@firstF stdLetters 2 (startTok "а ) б".toList))[1]'(by decide +kernel)), ?_, ?_, ?_, ?_⟩
  · have : @firstF stdLetters 1 (startTok "а ) б".toList) ++ [((@firstF stdLetters 2 (startTok "а ) б".toList))[1]'(by decide +kernel))] =
        @firstF stdLetters 2 (startTok "а ) б".toList) := by decide +kernel
    rw [this]
    exact firstF_sound _ _
  · decide +kernel
  · have : (@firstF stdLetters 1 (startTok "а ) б".toList)).map key = [ident "а".toList] := by decide +kernel
    rw [this]
    exact name_viable
  · have : (@firstF stdLetters 1 (startTok "а ) б".toList) ++ [((@firstF stdLetters 2 (startTok "а ) б".toList))[1]'(by decide +kernel))]).map key =
        (toksD "а )").map key := by decide +kernel
    rw [this]
    exact paren_not_viable

end Verif
