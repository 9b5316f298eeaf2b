"""Axioms used by the property theorems (run in /verif after `lake build`): prints each set of axioms with the number
of theorems that depend on exactly this set, and their names when there are few."""
import os, subprocess
SRC = r'''
import Verif
import Lean
open Lean Elab Command
run_cmd do
  let env ← getEnv
  let mut tbl : Std.HashMap String (Nat) := {}
  let mut per : Std.HashMap String (List String) := {}
  for (n, c) in env.constants.map₁.toList do
    if c matches .thmInfo _ then
      let s := n.getString!
      let some idx := env.getModuleIdxFor? n | continue
      let m := env.header.moduleNames[idx.toNat]!.toString
      if m.startsWith "Verif.Props" && s.startsWith "C" && ((s.toList.getD 1 'x').isDigit) then
        let axs ← collectAxioms n
        let ax := (axs.toList.map toString).mergeSort (· ≤ ·)
        let key := toString ax
        tbl := tbl.insert key ((tbl.getD key 0) + 1)
        per := per.insert key (s :: per.getD key [])
  for (k, v) in tbl.toList do
    logInfo m!"{k}: {v}\n{if v < 120 then toString (per.getD k []) else ""}"
'''
open('/tmp/ax.lean', 'w').write(SRC)
subprocess.run(['lake', 'env', 'lean', '/tmp/ax.lean'], cwd=os.path.join(os.path.dirname(os.path.dirname(os.path.abspath(__file__))), 'lean'))
