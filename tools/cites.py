#!/usr/bin/env python3
"""List the definitions of the model whose comment cites no file and lines of /repo."""
import glob, os, re
here = os.path.dirname(os.path.abspath(__file__))
total = bad = 0
for f in sorted(glob.glob(os.path.join(here, '../lean/Verif/Model/*.lean'))):
    s = open(f).read()
    for m in re.finditer(r'^(?:@\[[^\]]*\]\s*)?(?:private |noncomputable )*(def|structure|inductive|abbrev|class|instance)\s+(\S+)', s, re.M):
        total += 1
        pre = s[:m.start()].rstrip()
        doc = ''
        if pre.endswith('-/'):
            doc = pre[pre.rfind('/-'):]
            if doc.startswith('/-!'):
                doc = ''
        if not re.search(r'\w+\.py:\d+|no code|Python|python', doc):
            bad += 1
            print(os.path.basename(f), m.group(2), '' if doc else '(no comment)')
print(bad, 'of', total)
