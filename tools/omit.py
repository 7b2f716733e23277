#!/usr/bin/env python3
"""Insert `omit [..] in` before theorems that the linter reports as not using section variables."""
import re, subprocess, sys
for _ in range(6):
    out = subprocess.run(["lake", "build"], cwd="/verif/lean", capture_output=True, text=True).stdout
    hits = re.findall(r"warning: (\S+?):(\d+):\d+: automatically included section variable\(s\) unused in theorem `[^`]*`:\n((?:  \S.*\n)+)", out)
    if not hits: break
    byfile = {}
    for f, l, vs in hits:
        byfile.setdefault(f, []).append((int(l), " ".join(v.strip() for v in vs.strip().split("\n"))))
    for f, ls in byfile.items():
        p = "/verif/lean/" + f
        lines = open(p).read().split("\n")
        for l, v in sorted(ls, reverse=True):
            i = l - 1
            if i > 0 and lines[i - 1].rstrip().endswith("-/"):
                while not lines[i - 1].lstrip().startswith("/--"): i -= 1
                i -= 1
            lines.insert(i, "omit %s in" % v)
        open(p, "w").write("\n".join(lines))
