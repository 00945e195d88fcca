"""Writes /verif/AXIOMS.md: the axioms of every theorem in the manifest, as printed by Lean. Run after a build."""
import os, re, subprocess, json
root = os.path.dirname(os.path.dirname(os.path.abspath(__file__)))
out = subprocess.run(["lake", "env", "lean", "/tmp/axioms.lean"], cwd=root + "/lean", capture_output=True, text=True).stdout
out = re.sub(r"\n\s+", " ", out)
ax = {}
for m in re.finditer(r"'(\S+)' (?:depends on axioms: \[([^\]]*)\]|does not depend on any axioms)", out):
    ax[m.group(1)] = m.group(2) or "none"
bad = {t: a for t, a in ax.items() if a != "none" and set(a.split(", ")) - {"propext", "Classical.choice", "Quot.sound"}}
claims = json.load(open(root + "/MANIFEST.json"))["claims"]
missing = [t for c in claims for t in c["theorems"] if t not in ax]
with open(root + "/AXIOMS.md", "w") as f:
    f.write("# Axioms of the theorems in MANIFEST.json\n\nOutput of `#print axioms`, one line per theorem.\n\n| property | theorem | axioms |\n|---|---|---|\n")
    for c in claims:
        for t in c["theorems"]:
            f.write("| %s | `%s` | %s |\n" % (c["property"], t, ax.get(t, "?")))
print("axioms of", len(ax), "theorems; unusual:", bad, "missing:", missing)
