"""Write AXIOMS.md: the axioms each theorem named in MANIFEST.json depends on, as printed by Lean."""
import json, re, subprocess, os, tempfile
root = os.path.dirname(os.path.dirname(os.path.abspath(__file__)))
claims = json.load(open(root + "/MANIFEST.json"))["claims"]
names = [(c["property"], t) for c in claims for t in c["theorems"]]
full = lambda t: t if t.startswith("Telefacts.") else "Telefacts." + t
with tempfile.NamedTemporaryFile("w", suffix=".lean", delete=False) as f:
    f.write("import Verif\n" + "".join("#print axioms %s\n" % full(t) for t in sorted({t for _, t in names})))
out = subprocess.run(["lake", "env", "lean", f.name], cwd=root + "/lean", capture_output=True, text=True).stdout
os.unlink(f.name)
out = re.sub(r"\n\s+", " ", out)
ax = {}
for l in out.splitlines():
    m = re.match(r"'(.*?)' depends on axioms: \[(.*)\]", l)
    if m: ax[m.group(1)] = m.group(2)
    m = re.match(r"'(.*?)' does not depend on any axioms", l)
    if m: ax[m.group(1)] = "none"
missing = [t for _, t in names if full(t) not in ax]
assert not missing, missing[:5]
with open(root + "/AXIOMS.md", "w") as f:
    f.write("# Axioms per theorem\n\nPrinted by `#print axioms`; written by `tools/gen_axioms.py`.\n\n| property | theorem | axioms |\n|---|---|---|\n")
    for p, t in names:
        f.write("| %s | %s | %s |\n" % (p, t, ax[full(t)]))
