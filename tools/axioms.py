#!/usr/bin/env python3
"""Write AXIOMS.txt: for every property theorem Cnn_*, the axioms its proof depends on.
Runs `lean` on a temporary file outside the Lake project, after `lake build`."""
import subprocess, re, collections
SRC = '''import Verif
import Lean
open Lean
run_cmd do
  let env ← getEnv
  let mut out : Array (String × String) := #[]
  for (n, c) in env.constants.map₁.toList do
    match n with
    | .str p s =>
      if (`Verif).isPrefixOf p && (match s.toList with | 'C' :: d :: _ => d.isDigit | _ => false) then
        if let .thmInfo _ := c then
          let ax ← Lean.collectAxioms n
          out := out.push (toString n, ", ".intercalate ((ax.toList.map toString).mergeSort))
    | _ => pure ()
  for (a, b) in out.qsort (fun x y => x.1 < y.1) do
    IO.println s!"AX {a} : {b}"
'''
open('/tmp/axioms_report.lean', 'w').write(SRC)
r = subprocess.run('lake env lean /tmp/axioms_report.lean', shell=True, cwd='/verif/lean', capture_output=True, text=True)
rows = re.findall(r'^AX (\S+) : (.*)$', r.stdout, re.M)
if not rows: print(r.stdout[-2000:], r.stderr[-2000:])
cnt = collections.Counter(b for _, b in rows)
with open('/verif/AXIOMS.txt', 'w') as fh:
    fh.write('Axioms used by each property theorem (collectAxioms, generated by tools/axioms.py).\n')
    for k, v in cnt.most_common(): fh.write(f'  {v} theorems: {k or "(none)"}\n')
    fh.write('\n')
    for a, b in rows: fh.write(f'{a} : {b or "(none)"}\n')
print(len(rows), dict(cnt))
