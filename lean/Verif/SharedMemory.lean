import Verif.Memory
/-!
# Several goroutines, each calling `Parse` on its own AstNode, in one memory

The driver of `Memory.lean` (`stepH`) once more, as a program that accesses memory step by step, and the goroutines of a process that run
such programs in one memory.  The scheduler may switch goroutines between any two accesses.

Each `yyParserImpl` is allocated by `yyParse` (`/repo/ast/y.go:548-550`, `yyNewParser` 430-432), so a goroutine owns its AstNode, its stack
and its lookahead; they are in the state of the goroutine here.  What is in memory are the arrays of the block slices, as in `Memory.lean`.
The package variables (`/repo/ast/ast.go:27`, `/repo/ast/tokens.go:38-88`, the tables and `yyDebug`, `yyErrorVerbose` of `/repo/ast/y.go`)
are never assigned, they are constants of the model.

Simplification: one access reads or writes a whole array; allocation is atomic, as the runtime makes it.
-/
namespace Verif
open Lexer Tables

/-- A program that accesses memory: it returns, reads an array and goes on with what is in it (capacity and cells), writes an array, or
allocates one (its contents may depend on its number, because growth may) and goes on with its number. -/
inductive Prog (α : Type) : Type
  | ret (a : α)
  | read (i : Nat) (k : Nat × List HStm → Prog α)
  | write (i : Nat) (c : Nat × List HStm) (k : Prog α)
  | new (c : Nat → Nat × List HStm) (k : Nat → Prog α)

/-- One program after another. -/
def Prog.bind {α β : Type} : Prog α → (α → Prog β) → Prog β
  | .ret a, f => f a
  | .read i k, f => .read i fun c => (k c).bind f
  | .write i c k, f => .write i c (k.bind f)
  | .new c k, f => .new c fun i => (k i).bind f

/-- One access. -/
def Prog.one {α : Type} : Prog α → Heap → Prog α × Heap
  | .ret a, h => (.ret a, h)
  | .read i k, h => (k (h.arr i), h)
  | .write i c k, h => (k, h.set i c)
  | .new c k, h => (k h.length, h ++ [c h.length])

/-- The elements of a slice, as `Heap.elems`.  Nothing is read for an empty slice. -/
def elemsM : Slice → Prog (List HStm)
  | none => .ret []
  | some (_, 0) => .ret []
  | some (i, n + 1) => .read i fun c => .ret (c.2.take (n + 1))

/-- Go's `append(s, x)`, as `Heap.append`. -/
def appendM (g : Nat → Nat → Nat) (s : Slice) (x : HStm) : Prog Slice :=
  match s with
  | none => .new (fun m => (1 + g m 1, [x])) fun i => .ret (some (i, 1))
  | some (i, n) => .read i fun c =>
    if n < c.1 then .write i (c.1, c.2.take n ++ x :: c.2.drop (n + 1)) (.ret (some (i, n + 1)))
    else .new (fun m => (n + 1 + g m (n + 1), c.2.take n ++ [x])) fun j => .ret (some (j, (c.2.take n ++ [x]).length))

/-- The actions (`/repo/ast/y.go:735-1449`), as `actH`. -/
def actM (g : Nat → Nat → Nat) (p : Nat) (d : Nat → HSV) (v : HSV) (a : HAst) : Prog (Except Panic (HSV × HAst)) :=
  match p with
  | 2 => (elemsM (d 1).body).bind fun l => .ret (.ok (v, appendStmsH a l))
  | 3 => (elemsM (d 2).opt_body).bind fun l => .ret (.ok (v, appendStmsH a l))
  | 18 => .new (fun _ => (1, [(d 1).stmt])) fun i => .ret (.ok ({ v with body := some (i, 1) }, a))
  | 19 => (elemsM (d 1).opt_body).bind fun l =>
    match checkColonH a (d 2).token l with
    | .error p => .ret (.error p)
    | .ok a =>
      if (d 3).stmt.isNil then .ret (.ok (v, a))
      else (appendM g v.body (d 3).stmt).bind fun s => .ret (.ok ({ v with body := s }, a))
  | p => .ret (actP p d v a)

/-- Outcome of one round of the driver, as `HStep`; the field `heap` of the configuration is not used. -/
inductive HRes
  | go (c : HCfg)
  | done (code : Nat) (a : HAst)

/-- Reduction by production `p` (`/repo/ast/y.go:692-725, 1451`), as `reduceH`. -/
def reduceM (g : Nat → Nat → Nat) (c : HCfg) (p : Nat) : Prog (Except Panic HRes) :=
  let q := popNH (get yyR2 p).toNat c.live c.stale
  match q.1 with
  | [] => .ret (.ok (.done 1 c.ast))
  | (s, _) :: _ =>
    (actM g p (fun i => q.2.getD (i - 1) {}) (q.2.headD {}) c.ast).bind fun r =>
      .ret (r.map fun r => .go (({ c with ast := r.2, live := q.1, stale := q.2 } : HCfg).push (gotoOf s p) r.1))

/-- Error recovery (`/repo/ast/y.go:645-690`), as `syntaxErrorH`. -/
def syntaxErrorM (c : HCfg) : Prog (Except Panic HRes) :=
  .ret ((c.ast.errorH .syntaxError).map fun a => match recoverH c.live with
    | none => .done 1 a
    | some (s', live) => .go (({ c with ast := a, live := live } : HCfg).push s' {}))

/-- Label `yydefault` (`/repo/ast/y.go:618-690`), as `defaultActionH`. -/
def defaultM [Letters] (g : Nat → Nat → Nat) (c : HCfg) (s : Nat) : Prog (Except Panic HRes) :=
  let n := get yyDef s
  if n = -2 then
    let n := excaFind (fetchH c).2 (excaFrom s excaPairs)
    if n < 0 then .ret (.ok (.done 0 (fetchH c).1.ast))
    else if n = 0 then syntaxErrorM (fetchH c).1
    else reduceM g (fetchH c).1 n.toNat
  else if n = 0 then syntaxErrorM c
  else reduceM g c n.toNat

/-- One round of the driver (`/repo/ast/y.go:594-725`), as `stepH`. -/
def stepM [Letters] (g : Nat → Nat → Nat) (c : HCfg) : Prog (Except Panic HRes) :=
  match c.live with
  | [] => .ret (.ok (.done 1 c.ast))
  | (s, _) :: _ =>
    if get yyPact s ≤ yyFlag then defaultM g c s
    else match shiftOf s (fetchH c).2 with
      | some s' => .ret (.ok (.go (({ (fetchH c).1 with look := none } : HCfg).push s' { token := (fetchH c).1.lval })))
      | none => defaultM g (fetchH c).1 s

/-- One goroutine. -/
inductive HProc
  /-- has not yet called `Parse` on this AstNode -/
  | start (a : HAst)
  /-- inside the driver loop, at the start of a round -/
  | loop (c : HCfg)
  /-- inside a round, this is left to do -/
  | mid (p : Prog (Except Panic HRes))
  /-- `Parse` has returned, the AstNode is this -/
  | done (a : HAst)

/-- What one goroutine does when it is scheduled: the test for a blank text and the start of `yyParse`
(`/repo/ast/ast.go:38-42`, `/repo/ast/y.go:548-592`), the next access to memory or the end of a round of the driver, or nothing if `Parse` has
returned.  `g` as in `Heap.append`. -/
def HProc.move [Letters] (g : Nat → Nat → Nat) : HProc → Heap → Except Panic (HProc × Heap)
  | .start a, h => if a.ctl.code.all isUnicodeSpace then .ok (.done a, h) else .ok (.loop (initCfgH a []), h)
  | .loop c, h => .ok (.mid (stepM g c), h)
  | .mid (.ret r), h =>
    match r with
    | .error p => .error p
    | .ok (.go c) => .ok (.loop c, h)
    | .ok (.done _ a) => .ok (.done a, h)
  | .mid p, h => .ok (.mid (p.one h).1, (p.one h).2)
  | .done a, h => .ok (.done a, h)

/-- The process: its goroutines and its memory, or ended by a panic. -/
inductive HSys
  | running (procs : Nat → HProc) (h : Heap)
  | crashed (p : Panic)

/-- Goroutine `i` is scheduled. -/
def HSys.sched [Letters] (g : Nat → Nat → Nat) (i : Nat) : HSys → HSys
  | .crashed p => .crashed p
  | .running ps h => match (ps i).move g h with
    | .error p => .crashed p
    | .ok (q, h') => .running (fun j => if j = i then q else ps j) h'

/-- A schedule: the goroutines in the order in which they get the processor. -/
def HSys.exec [Letters] (g : Nat → Nat → Nat) : List Nat → HSys → HSys
  | [], s => s
  | i :: l, s => HSys.exec g l (s.sched g i)

end Verif
