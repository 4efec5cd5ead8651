import Verif
import Lean
open Lean

/-! Lists the axioms of every property theorem.  Run: cd lean && lake env lean ../tools/axioms.lean.txt -/
run_cmd do
  let env ← getEnv
  let mut out : Array String := #[]
  for (n, ci) in env.constants.map₁.toList do
    let .thmInfo _ := ci | continue
    let some i := env.getModuleIdxFor? n | continue
    let mod := env.header.moduleNames[i.toNat]!
    unless (`Verif.Props).isPrefixOf mod do continue
    let .str _ s := n | continue
    unless s.length > 4 && s.startsWith "C" && (s.drop 1).toString.front.isDigit do continue
    let ax ← Elab.Command.liftCoreM (collectAxioms n)
    let l := (ax.toList.map toString).mergeSort
    out := out.push s!"{s}\t{String.intercalate ", " l}"
  IO.FS.writeFile "/tmp/mut/axioms.txt" (String.intercalate "\n" (out.toList.mergeSort))
  logInfo m!"{out.size}"
