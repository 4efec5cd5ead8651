import Verif.Calls
import Verif.Proofs.Reprint.Sane
import Verif.Props.Reprint
/-!
# Calls: C82, C83

`isMethod`, `params` (`Calls.lean`): the methods `IsMethod` and `Params` of chains, calls and `Новый`.
-/
namespace Verif
open Spec Lexer LR

section
variable [Letters]

/-! ## C82 -/

/-- For a chain on the right of an assignment, `IsMethod` says whether the chain as written ends with `)`. -/
theorem C82_is_method {code : List Char} {v p : Path} {i : Ident} {ks : List Key} (hb : NotBlank code)
    (hk : HasKeys code (v.toks ++ word .kEQUAL :: ks)) (hks : ks = p.toks ++ word .dot :: i.toks)
    (hv : v.grouped) (hp : p.grouped) (hi : i.grouped) :
    ∃ s, Accepts code ⟨[], [.stm (.assign v.tree [s])]⟩ ∧ isMethod s = some (decide (ks.getLast? = some (word .rpar))) := by
  subst hks
  refine ⟨_, accepts_assign (e := .path (.dot p i)) hb (by simpa only [Expr.toks, Path.toks] using hk) hv
    (by simp only [Expr.grouped, Path.grouped]; exact ⟨hp, hi⟩), ?_⟩
  have h0 : KeysOk false (v.toks ++ word .kEQUAL :: (p.toks ++ word .dot :: i.toks)) := hasKeys_ok hk
  have h1 := (KeysOk.append h0).2
  cases h1 with
  | cons _ h1 =>
  have h2 := (KeysOk.append h1).2
  rw [p.after_false] at h2
  cases h2 with
  | cons _ h2 =>
  rw [show dotAfter false (word .dot) = true from rfl] at h2
  simp only [Expr.tree, Path.tree, isMethod]
  cases i with
  | name n => simp [Ident.tree, Ident.toks, ident, named, word, Terminal.kind]
  | call n es =>
    have hl : (p.toks ++ word .dot :: (Ident.call n es).toks).getLast? = some (word .rpar) := by
      rw [Ident.toks, show p.toks ++ word .dot :: ident n :: word .lpar :: (es.toks ++ [word .rpar]) =
        (p.toks ++ word .dot :: ident n :: word .lpar :: es.toks) ++ [word .rpar] by simp, List.getLast?_concat]
    simp [Ident.tree, hl]
  | index i e =>
    have hl : (p.toks ++ word .dot :: (Ident.index i e).toks).getLast? = some (word .rbr) := by
      rw [Ident.toks, show p.toks ++ word .dot :: (i.toks ++ word .lbr :: (e.toks ++ [word .rbr])) =
        (p.toks ++ word .dot :: (i.toks ++ word .lbr :: e.toks)) ++ [word .rbr] by simp, List.getLast?_concat]
    simp only [Ident.tree, hl]
    rfl
  | execStr w s =>
    simp only [Ident.toks] at h2
    exact absurd (CanWrite.exec (KeysOk.head h2)).1 (by decide)
  | execVar w n =>
    simp only [Ident.toks] at h2
    exact absurd (CanWrite.exec (KeysOk.head h2)).1 (by decide)
  | exec w e =>
    simp only [Ident.toks] at h2
    exact absurd (CanWrite.exec (KeysOk.head h2)).1 (by decide)

/-! ## C83 -/

/-- Arguments with commas between them; an argument may be missing. -/
def argToks (e : OptExpr) (es : List OptExpr) : List Key := e.toks ++ es.flatMap fun e => word .comma :: e.toks

/-- The same as a list that grows at the end. -/
private def argsOf (es : List OptExpr) (a : Args) : Args := es.foldl .more a

omit [Letters] in
private theorem argsOf_toks (es : List OptExpr) (a : Args) : (argsOf es a).toks = a.toks ++ es.flatMap fun e => word .comma :: e.toks := by
  induction es generalizing a with
  | nil => simp [argsOf]
  | cons e es ih =>
    show (argsOf es (.more a e)).toks = _
    rw [ih, Args.toks, List.flatMap_cons, List.append_assoc]

omit [Letters] in
private theorem argsOf_tree (es : List OptExpr) (a : Args) : (argsOf es a).tree = a.tree ++ es.map OptExpr.tree := by
  induction es generalizing a with
  | nil => simp [argsOf]
  | cons e es ih =>
    show (argsOf es (.more a e)).tree = _
    rw [ih, Args.tree, List.map_cons, List.append_assoc]; rfl

omit [Letters] in
private theorem argsOf_grouped (es : List OptExpr) (a : Args) (ha : a.grouped) (h : ∀ e ∈ es, e.grouped) : (argsOf es a).grouped := by
  induction es generalizing a with
  | nil => exact ha
  | cons e es ih =>
    refine ih (.more a e) ?_ fun e he => h e (.tail _ he)
    rw [Args.grouped]; exact ⟨ha, h e (.head _)⟩

omit [Letters] in
private theorem one_toks (e : OptExpr) (es : List OptExpr) : (argsOf es (.one e)).toks = argToks e es := by
  rw [argsOf_toks, Args.toks]; rfl

omit [Letters] in
private theorem one_tree (e : OptExpr) (es : List OptExpr) : (argsOf es (.one e)).tree = e.tree :: es.map OptExpr.tree := by
  rw [argsOf_tree, Args.tree]; rfl

/-- `Params` of a call gives the arguments in order, one for every place between the parentheses and commas; a missing one is nil.
Missing: no arguments at all (where it is false, `C83_violated`); the first place counts even when nothing stands in it. -/
theorem C83_call_partial {code : List Char} {v : Path} {f : Name} {e : OptExpr} {es : List OptExpr} (hb : NotBlank code)
    (hk : HasKeys code (v.toks ++ word .kEQUAL :: ident f :: word .lpar :: (argToks e es ++ [word .rpar])))
    (hv : v.grouped) (hg : ∀ x ∈ e :: es, x.grouped) :
    ∃ s, Accepts code ⟨[], [.stm (.assign v.tree [s])]⟩ ∧ params s = some ((e :: es).map OptExpr.tree) := by
  refine ⟨_, accepts_assign (e := .path (.one (.call f (argsOf es (.one e))))) hb ?_ hv ?_, ?_⟩
  · simpa only [Expr.toks, Path.toks, Ident.toks, one_toks] using hk
  · simp only [Expr.grouped, Path.grouped, Ident.grouped]
    exact argsOf_grouped _ _ (by rw [Args.grouped]; exact hg e (.head _)) fun x hx => hg x (.tail _ hx)
  · simp only [Expr.tree, Path.tree, Ident.tree, one_tree, params, List.map_cons]

/-- The same for `Новый`. -/
theorem C83_new_partial {code : List Char} {v : Path} {f : Name} {e : OptExpr} {es : List OptExpr} (hb : NotBlank code)
    (hk : HasKeys code (v.toks ++ word .kEQUAL :: word .kNew :: ident f :: word .lpar :: (argToks e es ++ [word .rpar])))
    (hv : v.grouped) (hg : ∀ x ∈ e :: es, x.grouped) :
    ∃ s, Accepts code ⟨[], [.stm (.assign v.tree [s])]⟩ ∧ params s = some ((e :: es).map OptExpr.tree) := by
  refine ⟨_, accepts_assign (e := .new (.call f (argsOf es (.one e)))) hb ?_ hv ?_, ?_⟩
  · simpa only [Expr.toks, New.toks, one_toks] using hk
  · simp only [Expr.grouped, New.grouped]
    exact argsOf_grouped _ _ (by rw [Args.grouped]; exact hg e (.head _)) fun x hx => hg x (.tail _ hx)
  · simp only [Expr.tree, New.tree, one_tree, params, List.map_cons]

/-- `Новый` without parentheses has no arguments. -/
theorem C83_new_name {code : List Char} {v : Path} {f : Name} (hb : NotBlank code)
    (hk : HasKeys code (v.toks ++ word .kEQUAL :: [word .kNew, ident f])) (hv : v.grouped) :
    ∃ s, Accepts code ⟨[], [.stm (.assign v.tree [s])]⟩ ∧ params s = some [] := by
  refine ⟨_, accepts_assign (e := .new (.name f)) hb (by simpa only [Expr.toks, New.toks] using hk) hv ?_, ?_⟩
  · simp only [Expr.grouped, New.grouped]
  · simp only [Expr.tree, New.tree, params]
end

private def nv (s : String) : Stm := .var s.toList false false

/-- The property does not hold: a call with nothing between the parentheses has one argument, nil. -/
theorem C83_violated : ∃ code s, @HasKeys stdLetters code [ident ['а'], word .kEQUAL, ident ['Ф'], word .lpar, word .rpar] ∧
    @Accepts stdLetters code ⟨[], [.stm (.assign (nv "а") [s])]⟩ ∧ params s = some [.nil] :=
  ⟨"а = Ф()".toList, .method ['Ф'] [.nil] false, @keysOf_sound stdLetters 30 _ _ (by decide +kernel),
    @accepts_eq stdLetters _ _ (by decide +kernel) (by decide +kernel), rfl⟩

/-! ## Examples -/

/-- `а = б.в(1).г` and `а = б.в()`. -/
example : ∃ s t, @Accepts stdLetters "а = б.в(1).г".toList ⟨[], [.stm (.assign (nv "а") [s])]⟩ ∧ isMethod s = some false ∧
    @Accepts stdLetters "а = б.в()".toList ⟨[], [.stm (.assign (nv "а") [t])]⟩ ∧ isMethod t = some true :=
  ⟨.chain (nv "г") (.chain (.method ['в'] [.num ⟨false, 4503599627370496, -52⟩] false) (nv "б") false false) false false,
    .chain (.method ['в'] [.nil] false) (nv "б") false false,
    @accepts_eq stdLetters _ _ (by decide +kernel) (by decide +kernel), rfl,
    @accepts_eq stdLetters _ _ (by decide +kernel) (by decide +kernel), rfl⟩

/-- The tokens of `а = б.в()` meet the hypotheses of `C82_is_method`. -/
example : @HasKeys stdLetters "а = б.в()".toList ((Path.one (.name ['а'])).toks ++ word .kEQUAL ::
    ((Path.one (.name ['б'])).toks ++ word .dot :: (Ident.call ['в'] (.one .none)).toks)) := by
  simp only [Path.toks, Ident.toks, Args.toks, OptExpr.toks]
  exact @keysOf_sound stdLetters 30 _ _ (by decide +kernel)

/-- Those of `а = Ф(1,,б)` the hypotheses of `C83_call_partial`. -/
example : @HasKeys stdLetters "а = Ф(1,,б)".toList ((Path.one (.name ['а'])).toks ++ word .kEQUAL :: ident ['Ф'] :: word .lpar ::
    (argToks (.some (.simple (.num ⟨false, 4503599627370496, -52⟩))) [.none, .some (.path (.one (.name ['б'])))] ++ [word .rpar])) := by
  simp only [argToks, Path.toks, Ident.toks, OptExpr.toks, Expr.toks, Simple.toks, List.flatMap_cons, List.flatMap_nil]
  exact @keysOf_sound stdLetters 30 _ _ (by decide +kernel)

end Verif
