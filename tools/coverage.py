#!/usr/bin/env python3
"""Which functions of /repo/parsevasp are cited in lean/Verif/Model? Prints those that are not, or the full table with -a."""
import ast, pathlib, re, sys
cites = {}
for p in sorted(pathlib.Path('lean/Verif').rglob('*.lean')):
    if p.parts[2] not in ('Model', 'Py'): continue
    for m in re.finditer(r'(\w+)\.py:((?:\d+(?:-\d+)?(?:, ?)?)+)', p.read_text()):
        for r in re.findall(r'\d+(?:-\d+)?', m.group(2)):
            a, _, b = r.partition('-')
            cites.setdefault(m.group(1), []).append((int(a), int(b or a), p.name))
for f in sorted(pathlib.Path('/repo/parsevasp').glob('*.py')):
    tree = ast.parse(f.read_text())
    for n in ast.walk(tree):
        if isinstance(n, ast.FunctionDef):
            hit = sum(len(set(range(max(a, n.lineno), min(b, n.end_lineno) + 1))) for a, b, q in cites.get(f.stem, []) if a <= n.end_lineno and b >= n.lineno and b - a < 900)
            mark = '' if hit else 'NOT CITED'
            if mark or '-a' in sys.argv:
                print(f'{f.name}:{n.lineno}-{n.end_lineno} {n.name} {mark} {hit}')
