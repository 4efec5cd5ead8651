import Verif
import Lean
open Lean

partial def deps (env : Environment) (n : Name) (seen : NameSet) : NameSet := Id.run do
  if seen.contains n then return seen
  let some ci := env.find? n | return seen
  let some i := env.getModuleIdxFor? n | return seen
  unless (env.header.moduleNames[i.toNat]!).getRoot == `Verif do return seen
  let mut seen := seen.insert n
  for m in ci.getUsedConstantsAsSet do
    seen := deps env m seen
  return seen

run_cmd do
  let env ← getEnv
  let mut out : Array String := #[]
  for (n, ci) in env.constants.map₁.toList do
    let .thmInfo _ := ci | continue
    let some i := env.getModuleIdxFor? n | continue
    let mod := env.header.moduleNames[i.toNat]!
    unless (`Verif.Props).isPrefixOf mod do continue
    let .str _ s := n | continue
    unless s.length > 4 && s.startsWith "C" && (s.drop 1).toString.front.isDigit do continue
    let ds := deps env n {}
    let l := ds.toList.map fun d => s!"{env.header.moduleNames[(env.getModuleIdxFor? d).get!.toNat]!} {d}"
    out := out.push (String.intercalate "\t" (s!"{n}" :: l))
  IO.FS.writeFile "/tmp/mut/deps.txt" (String.intercalate "\n" out.toList)
  logInfo m!"{out.size}"
