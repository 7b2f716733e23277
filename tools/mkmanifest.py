#!/usr/bin/env python3
"""Builds MANIFEST.json from theorem names Cnn_* in lean/Verif/Props/*.lean and the notes below."""
import glob, json, re, os
root = os.path.join(os.path.dirname(os.path.abspath(__file__)), "..")
notes = json.load(open(os.path.join(root, "tools", "notes.json")))
props = [json.loads(l) for l in open(os.path.join(root, "properties.jsonl"))]
thms = {}
for f in sorted(glob.glob(os.path.join(root, "lean/Verif/Props/*.lean"))):
    s = open(f).read()
    ns = []
    for line in s.split("\n"):
        m = re.match(r"namespace (\S+)", line)
        if m: ns.append(m.group(1))
        m = re.match(r"end (\S+)", line)
        if m and ns and ns[-1] == m.group(1): ns.pop()
        m = re.match(r"(?:@\[.*?\] )?theorem (C(\d\d)_\S+)", line)
        if m: thms.setdefault("C" + m.group(2), []).append(".".join(ns + [m.group(1)]))
claims = []
for p in props:
    i = p["id"]
    t = thms.get(i, [])
    n = notes.get(i, {})
    st = n.get("status") or ("partial" if (not t or any("_partial" in x for x in t)) else "proved")
    claims.append(dict(property=i, status=st, theorems=t, note=n.get("note", "" if t else "not yet modelled")))
json.dump({"claims": claims}, open(os.path.join(root, "MANIFEST.json"), "w"), indent=1, ensure_ascii=False)
print({s: sum(c["status"] == s for c in claims) for s in ("proved", "partial", "not_applicable")}, "theorems:", sum(len(c["theorems"]) for c in claims))
