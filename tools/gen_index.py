#!/usr/bin/env python3
"""Writes THEOREMS.md: for every property its status, its theorems with file and line, and their doc comments."""
import glob, json, os, re

root = os.path.dirname(os.path.dirname(os.path.abspath(__file__)))
where = {}
for path in sorted(glob.glob(os.path.join(root, "lean/Verif/**/*.lean"), recursive=True)):
    text = open(path).read()
    for m in re.finditer(r"^(?:@\[[^\]]*\]\s*)?(?:private |protected )?theorem\s+(?:[\w.]+\.)?(C\d+_\w+)", text, re.M):
        line = text.count("\n", 0, m.start()) + 1
        doc = ""
        before = text[:m.start()].rstrip()
        before = re.sub(r"(omit[^\n]*\sin|set_option[^\n]*\sin|open[^\n]*\sin)$", "", before).rstrip()
        if before.endswith("-/"):
            doc = before[before.rindex("/--") + 3:-2]
        doc = " ".join(doc.split())
        where.setdefault(m.group(1), (os.path.relpath(path, os.path.join(root, "lean")), line, doc))

props = [json.loads(l) for l in open(os.path.join(root, "properties.jsonl"))]
claims = {c["property"]: c for c in json.load(open(os.path.join(root, "MANIFEST.json")))["claims"]}
out = ["# Index of the theorems", "",
       "Written by tools/gen_index.py from properties.jsonl, MANIFEST.json and the doc comments.", ""]
missing = []
for p in props:
    c = claims[p["id"]]
    out += ["## %s %s" % (p["id"], p["title"]), "", "Status: %s." % c["status"] + (" " + c["note"] if c["note"] else ""), ""]
    for t in c["theorems"]:
        short = t.split(".")[-1]
        if short not in where:
            missing.append(t)
            continue
        f, line, doc = where[short]
        out.append("- `%s` (%s:%d). %s" % (short, f, line, doc))
    out.append("")
open(os.path.join(root, "THEOREMS.md"), "w").write("\n".join(out))
print(len(where), "theorems,", len(missing), "missing", missing[:5])
