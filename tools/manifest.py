#!/usr/bin/env python3
"""Regenerates MANIFEST.json and lean/Verif.lean from the sources.

Theorems named Cxx_* in lean/Verif/Props are attached to property Cxx. A property is `proved` when it has theorems and none of
them is named *_partial or *_counterexample*; `partial` when some are; properties without theorems yet are left out.
Notes come from tools/notes.json.
"""
import json, re, pathlib
root = pathlib.Path(__file__).resolve().parent.parent
lean = root / "lean"
mods = sorted(str(p.relative_to(lean))[:-5].replace("/", ".") for p in (lean / "Verif").rglob("*.lean"))
order = {"Model": 0, "Spec": 1, "Proofs": 2, "Props": 3}
mods.sort(key=lambda m: (order.get(m.split(".")[1], 9), m))
(lean / "Verif.lean").write_text("".join(f"import {m}\n" for m in mods))
thms = {}
for f in sorted((lean / "Verif" / "Props").glob("*.lean")):
    scope = []  # open namespaces and sections
    for line in f.read_text().splitlines():
        if m := re.match(r"(namespace|section)\s*(\S*)$", line):
            scope.append(m.group(2) if m.group(1) == "namespace" else "")
        elif scope and line.split() in (["end"], ["end", scope[-1]]):
            scope.pop()
        elif m := re.match(r"theorem ((C\d\d+)_\w+)", line):
            thms.setdefault(m.group(2), []).append(".".join([x for x in scope if x] + [m.group(1)]))
notes = json.loads((root / "tools" / "notes.json").read_text())
claims = []
for line in (root / "properties.jsonl").read_text().splitlines():
    p = json.loads(line)["id"]
    if p not in thms:
        continue
    ts = thms[p]
    partial = any(re.search(r"_partial|_counterexample", t) for t in ts)
    claims.append({"property": p, "status": "partial" if partial else "proved", "theorems": ts, "note": notes.get(p, "")})
(root / "MANIFEST.json").write_text(json.dumps({"claims": claims}, indent=1) + "\n")
print(len(claims), "claims", sum(len(c["theorems"]) for c in claims), "theorems")
