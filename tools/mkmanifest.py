"""Writes /verif/MANIFEST.json from the table below and checks that every theorem named exists."""
import json, os, re, glob

CLAIMS = {}

def claim(prop, status, theorems, note):
    CLAIMS[prop] = dict(property=prop, status=status, theorems=theorems.split(), note=note)

exec(open(os.path.join(os.path.dirname(__file__), "claims.py")).read())

root = os.path.dirname(os.path.dirname(os.path.abspath(__file__)))
names = set()
for f in glob.glob(root + "/lean/Verif/**/*.lean", recursive=True):
    ns = []
    for line in open(f):
        m = re.match(r"namespace (\S+)", line)
        if m:
            ns.append(m.group(1))
        m = re.match(r"end (\S+)", line)
        if m and ns and ns[-1] == m.group(1):
            ns.pop()
        m = re.match(r"(?:@\[[^\]]*\] )?theorem (\S+)", line)
        if m:
            names.add(".".join(ns + [m.group(1)]))
out = []
for p in sorted(CLAIMS):
    c = CLAIMS[p]
    full = []
    for t in c["theorems"]:
        cand = [n for n in names if n.endswith("." + t)]
        assert len(cand) == 1, (p, t, cand)
        full.append(cand[0])
    c["theorems"] = full
    out.append(c)
json.dump({"claims": out}, open(root + "/MANIFEST.json", "w"), indent=1, ensure_ascii=False)
props = [json.loads(l)["id"] for l in open(root + "/properties.jsonl")]
print("claims", len(out), "missing", [p for p in props if p not in CLAIMS])
with open("/tmp/axioms.lean", "w") as f:
    f.write("import Verif\n")
    for c in out:
        for t in c["theorems"]:
            f.write("#print axioms %s\n" % t)
