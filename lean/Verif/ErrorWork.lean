import Verif.Parser
/-!
# How much is read for the places of errors

`AstNode.Error` (`/repo/ast/ast.go:75-80`) calls `GetPosition` (`/repo/ast/tokens.go:370-379`) of the current token, which counts the
line feeds of `srsCode[:t.offset]`, so reads the text from its beginning to the end of the token.  Here the calls of `Error` are counted
along the rounds of the driver of `Verif/Parser.lean`, with the characters each of them reads.
-/
namespace Verif
open Lexer Tables

/-- The characters that `GetPosition` of the current token reads (`/repo/ast/tokens.go:370-379`): those of `srsCode[:t.offset]`.  It reads
them once for `strings.Count`, and some of them again for `strings.LastIndex` and for the column; counted is the first only. -/
def Ast.front (a : Ast) : Nat :=
  match a.cur with
  | none => 0
  | some t => a.code.length - t.rest.length

/-- The calls of `Error` in `ModuleStatement.Append` for `[]GlobalVariables` (`/repo/ast/ast_struct.go:293-311`). -/
def globalsErrors (a : Ast) : List GVar → Nat
  | [] => 0
  | v :: vs =>
    (if a.mod.body ≠ [] then 1 else if a.mod.globals.any (fun g => g.name == v.name) then 1 else 0) +
      match appendGlobal a v with
      | .ok a' => globalsErrors a' vs
      | .error _ => 0

/-- The calls of `Error` in the semantic action of production `p` (`/repo/ast/y.go:725-1450`, see `act`): `ModuleStatement.Append`
(productions 6, 7), the colon (19), variables declared twice (26, 27), `checkLoopOperator` (49, 50), `checkThrowParam` (51),
`checkReturnParam` (52). -/
def actErrors (p : Nat) (d : Nat → SV) (a : Ast) : Nat :=
  match p with
  | 6 => globalsErrors a (d 1).global_variables
  | 7 => match (d 1).funcProc, a.mod.body.getLast? with
    | some _, some (.stm _) => 1
    | _, _ => 0
  | 19 => if (d 2).token.literal = [':'] then
      match (d 1).opt_body.getLast? with
      | none => 0
      | some (.label _) => 0
      | some _ => 1
    else 0
  | 26 => match appendVars (some []) (d 2).identifiers with
    | .ok ⟨_, some _⟩ => 1
    | _ => 0
  | 27 => match appendVars (d 1).explicit_variables (d 3).identifiers with
    | .ok ⟨_, some _⟩ => 1
    | _ => 0
  | 49 => if a.isLoop = 0 then 1 else 0
  | 50 => if a.isLoop = 0 then 1 else 0
  | 51 => if a.isTry = 0 ∧ (d 2).stmt.isNil then 1 else 0
  | 52 => if !a.isFunc ∧ !(d 2).stmt.isNil then 1 else 0
  | _ => 0

/-- The characters read for errors in a reduction by production `p` (`/repo/ast/y.go:692-725, 1451`, see `reduce`). -/
def reduceFront (c : Cfg) (p : Nat) : Nat :=
  let (live, stale) := popN (get yyR2 p).toNat c.live c.stale
  match live with
  | [] => 0
  | _ :: _ => actErrors p (fun i => stale.getD (i - 1) {}) c.ast * c.ast.front

/-- The characters read for errors at label `yydefault` (`/repo/ast/y.go:618-690`, see `defaultAction`). -/
def defaultFront [Letters] (c : Cfg) (s : Nat) : Nat :=
  let n := get yyDef s
  if n = -2 then
    let (c, t) := fetch c
    let n := excaFind t (excaFrom s excaPairs)
    if n < 0 then 0
    else if n = 0 then c.ast.front
    else reduceFront c n.toNat
  else if n = 0 then c.ast.front
  else reduceFront c n.toNat

/-- The characters read for errors in one round of the driver (`/repo/ast/y.go:594-725`, see `step`). -/
def stepFront [Letters] (c : Cfg) : Nat :=
  match c.live with
  | [] => 0
  | (s, _) :: _ =>
    if get yyPact s ≤ yyFlag then defaultFront c s
    else
      let (c, t) := fetch c
      match shiftOf s t with
      | some _ => 0
      | none => defaultFront c s

/-- The driver loop with at most `n` rounds (see `run`). -/
def runFront [Letters] : Nat → Cfg → Nat
  | 0, _ => 0
  | n + 1, c => stepFront c + match step c with
    | .ok (.go c') => runFront n c'
    | _ => 0

/-- `AstNode.Parse` (`/repo/ast/ast.go:37-47`, see `parse`): the characters read to find the places of errors. -/
def parseFront [Letters] (a : Ast) : Nat :=
  if a.code.all isUnicodeSpace then 0 else runFront (fuel a.code.length) (initCfg a)

end Verif
