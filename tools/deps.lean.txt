/-
Prints, for every constant of the development, its module and the constants of the development it uses.
Run from /verif/lean with `lake env lean ../tools/deps.lean.txt` after `lake build`.
-/
import Lean
import Verif
open Lean
run_cmd Elab.Command.liftTermElabM do
  let env ← getEnv
  let ok (m : Name) := m.getRoot == `Verif
  let h ← IO.FS.Handle.mk "/tmp/mut/deps.txt" .write
  for (n, c) in env.constants.map₁.toList do
    if let some i := env.getModuleIdxFor? n then
      let m := env.header.moduleNames[i.toNat]!
      if ok m then
        let us := c.type.getUsedConstants ++ (c.value?.map (·.getUsedConstants)).getD #[]
          ++ (match c with | .thmInfo t => t.value.getUsedConstants | _ => #[])
        let us := us.filter fun u => match env.getModuleIdxFor? u with
          | some j => ok env.header.moduleNames[j.toNat]!
          | none => false
        h.putStrLn s!"{m}\t{privateToUserName n}\t{" ".intercalate (us.toList.map fun u => toString (privateToUserName u))}"
