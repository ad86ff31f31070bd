#!/usr/bin/env python3
"""Rewrites section 7 of DESIGN.md (the proved violations) from the doc comments of the theorems named C.._violation.."""
import pathlib, re
rows = []
for p in sorted(pathlib.Path('lean/Verif/Props').glob('*.lean')):
    t = p.read_text()
    for m in re.finditer(r'(?:/--((?:(?!-/).)*)-/\s*)?theorem (C(\d+)_violation\w*)', t, re.S):
        doc = re.sub(r'\s+', ' ', (m.group(1) or '').strip())
        rows.append((int(m.group(3)), m.group(2), doc))
rows.sort()
text = ''.join(f'* `{n}`: {d}\n' for _, n, d in rows)
design = pathlib.Path('DESIGN.md')
t = design.read_text()
a = t.index('<!-- findings'); a = t.index('\n', a) + 1
b = t.index('<!-- end of findings')
design.write_text(t[:a] + text + t[b:])
