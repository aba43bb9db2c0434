#!/usr/bin/env python3
# Single source for /verif/MANIFEST.json (run: python3 tools/gen_manifest.py).
# Checks that every named theorem exists in lean/Verif.
import json, os, re, glob
ROOT=os.path.join(os.path.dirname(os.path.abspath(__file__)),"..")
C=[]
def c(prop,status,theorems,note=""):
    C.append(dict(property=prop,status=status,theorems=["Telefacts."+t for t in theorems],note=note))
exec(open(os.path.join(ROOT,"tools","claims.py")).read())
names=set()
for f in glob.glob(os.path.join(ROOT,"lean/Verif/**/*.lean"),recursive=True):
    names|=set("Telefacts."+n for n in re.findall(r"^\s*theorem\s+(\S+)",open(f).read(),re.M))
props=[json.loads(l)["id"] for l in open(os.path.join(ROOT,"properties.jsonl"))]
bad=[t for x in C for t in x["theorems"] if t not in names]
assert not bad, bad
miss=[p for p in props if p not in [x["property"] for x in C]]
print("claims",len(C),"unclaimed",miss)
unused=sorted(n for n in names if re.match(r"Telefacts\.C\d\d+_",n) and not any(n in x["theorems"] for x in C))
print("theorems not in manifest",unused)
json.dump({"claims":C},open(os.path.join(ROOT,"MANIFEST.json"),"w"),indent=1,ensure_ascii=False)
