"""Regenerate the list of axioms at the end of DESIGN.md (needs a finished build)."""
import json, os, shutil, subprocess
top = os.path.join(os.path.dirname(os.path.abspath(__file__)), "..")
claims = json.load(open(os.path.join(top, "MANIFEST.json")))["claims"]
names = [t for c in claims for t in c["theorems"]]
open("/tmp/claims.txt", "w").write("\n".join(names) + "\n")
shutil.copy(os.path.join(top, "tools", "axioms.lean.txt"), "/tmp/ax.lean")
out = subprocess.run(["lake", "env", "lean", "/tmp/ax.lean"], cwd=os.path.join(top, "lean"), capture_output=True, text=True, check=True).stdout
groups = {}
for line in out.splitlines():
    name, ax = line.split(":", 1)
    groups.setdefault(ax.strip(), []).append(name)
assert sum(map(len, groups.values())) == len(names)
path = os.path.join(top, "DESIGN.md")
text = open(path).read()
marker = "* Axioms of each claimed theorem (all of them Lean's standard three):\n\n"
head = text[:text.index(marker)] + marker
for ax in sorted(groups, key=lambda a: -len(groups[a])):
    shown = ", ".join("`%s`" % a.strip() for a in ax.split(",")) if ax else "no axioms"
    head += "  * %s: %s\n" % (shown, ", ".join(groups[ax]))
open(path, "w").write(head)
print({a: len(g) for a, g in groups.items()})
