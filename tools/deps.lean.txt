import Verif
open Lean
/-- Print, for every theorem of the project, the project declarations its proof uses directly. -/
def main' : CoreM Unit := do
  let env ← getEnv
  for (n, ci) in env.constants.map₁.toList do
    if (`Fauxdoc).isPrefixOf n then
      let used := (ci.type.getUsedConstants ++ ((ci.value? (allowOpaque := true)).map (·.getUsedConstants)).getD #[])
        |>.filter fun c => (`Fauxdoc).isPrefixOf c
      IO.println s!"{n} {" ".intercalate (used.toList.map toString)}"
#eval main'
