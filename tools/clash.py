#!/usr/bin/env python3
"""List declaration names that occur in more than one module (all modules share the namespace Flatland)."""
import re, glob, os, collections
root = os.path.join(os.path.dirname(os.path.abspath(__file__)), "..", "lean", "Verif")
seen = collections.defaultdict(set)
for f in glob.glob(root + "/**/*.lean", recursive=True):
    ns = []
    for line in open(f):
        m = re.match(r"namespace (\S+)", line)
        if m: ns.append(m.group(1))
        if re.match(r"end (\S+)", line) and ns and line.split()[1] == ns[-1]: ns.pop()
        m = re.match(r"(?:@\[.*?\] )?(private )?(?:noncomputable )?(?:def|theorem|inductive|structure|abbrev|class|instance|opaque|lemma) ([^\s:({\[]+)", line)
        if m and not m.group(1): seen[".".join(ns + [m.group(2)])].add(os.path.relpath(f, root))
for k, v in sorted(seen.items()):
    if len(v) > 1: print(k, sorted(v))
