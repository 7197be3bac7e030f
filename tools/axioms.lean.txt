import Lean
open Lean

/-! Lists the axioms of every property theorem: `lake env lean --run <copy of this file> > ../AXIOMS.txt`. -/

partial def axiomsOf (env : Environment) (n : Name) : StateM (NameSet × NameSet) Unit := do
  if (← get).1.contains n then return
  modify fun s => (s.1.insert n, s.2)
  let some c := env.find? n | return
  if let .axiomInfo _ := c then modify fun s => (s.1, s.2.insert n)
  let mut es := c.type.getUsedConstants
  if let some v := c.value? (allowOpaque := true) then es := es ++ v.getUsedConstants
  if let .inductInfo v := c then es := es ++ v.ctors.toArray
  for m in es do axiomsOf env m

def isProp (n : Name) : Bool :=
  match n with
  | .str (.str .anonymous "SmartDNN") s => s.startsWith "C" && (let r := (s.toList.drop 1).dropWhile Char.isDigit; r.length + 3 ≤ s.length && r.head? == some '_')
  | _ => false

unsafe def main : IO UInt32 := do
  initSearchPath (← findSysroot)
  let env ← importModules #[{module := `Verif}] {} 0
  let mut names := #[]
  for (n, c) in env.constants.map₁.toList do
    if let .thmInfo _ := c then
      if isProp n then names := names.push n
  names := names.qsort (fun a b => a.toString < b.toString)
  for n in names do
    let (_, (_, ax)) := (axiomsOf env n).run ({}, {})
    IO.println s!"{n.toString.drop 9}: {String.intercalate ", " ((ax.toList.map toString).toArray.qsort (· < ·)).toList}"
  return 0
