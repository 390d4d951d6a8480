#!/usr/bin/env python3
# Writes /verif/MANIFEST.json. Theorems are found by name: every theorem `Cnn_*`
# under lean/Verif/Props belongs to the claim Cnn; its namespace is that of the file.
import glob, json, os, re
root = os.path.dirname(os.path.dirname(os.path.abspath(__file__)))
PARTIAL = json.load(open(os.path.join(root, "tools", "notes.json")))
thms = {}
for f in sorted(glob.glob(os.path.join(root, "lean/Verif/Props/*.lean"))):
    scope = []
    for line in open(f):
        if m := re.match(r"namespace (\S+)", line):
            scope.append(m.group(1))
        elif scope and re.match(r"end " + re.escape(scope[-1]) + r"\s*$", line):
            scope.pop()
        elif m := re.match(r"theorem (C(\d\d)_\w+)", line):
            thms.setdefault("C" + m.group(2), []).append(".".join(scope + [m.group(1)]))
ids = [json.loads(l)["id"] for l in open(os.path.join(root, "properties.jsonl"))]
claims = []
for i in ids:
    n = PARTIAL.get(i, {})
    if i not in thms:
        continue
    claims.append(dict(property=i, status=n.get("status", "proved"), theorems=thms[i],
                       note=n.get("note", "")))
json.dump(dict(claims=claims), open(os.path.join(root, "MANIFEST.json"), "w"), indent=1)
print(len(claims), "claims;", "missing:", [i for i in ids if i not in thms])
