import Lean
open Lean
-- prints, for every theorem named GeNSIT.Cnn_*, the axioms it depends on.  Run by tools/axioms.py; not part of the build.
partial def axiomsOf (env : Environment) (memo : IO.Ref NameSet) (acc : IO.Ref NameSet) (n : Name) : IO Unit := do
  if (← memo.get).contains n then return
  memo.modify (·.insert n)
  let some ci := env.find? n | return
  if ci matches .axiomInfo _ then acc.modify (·.insert n)
  let mut cs := ci.type.getUsedConstants
  if let some v := ci.value? (allowOpaque := true) then cs := cs ++ v.getUsedConstants
  if let .inductInfo i := ci then cs := cs ++ i.ctors.toArray
  for c in cs do axiomsOf env memo acc c
unsafe def main (args : List String) : IO UInt32 := do
  enableInitializersExecution
  initSearchPath (← findSysroot)
  let env ← importModules ((args.map fun m => ({module := m.toName} : Import)).toArray) {} 0
  -- memo of the constants known to be free of further axioms is not kept between theorems: sets are small
  for (n, ci) in env.constants.map₁.toList do
    if ci matches .thmInfo _ then
      if n.toString.startsWith "GeNSIT.C" then
        let memo ← IO.mkRef ({} : NameSet)
        let acc ← IO.mkRef ({} : NameSet)
        axiomsOf env memo acc n
        IO.println s!"{n} {(← acc.get).toList}"
  return 0
