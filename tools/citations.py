#!/usr/bin/env python3
"""Check the citations `file.py:a-b `name`` of lean/Verif/Model: the range must lie in the file and, where a function is named, overlap it."""
import ast, pathlib, re
defs, length = {}, {}
for f in pathlib.Path('/repo/parsevasp').glob('*.py'):
    src = f.read_text(); length[f.stem] = len(src.splitlines())
    for n in ast.walk(ast.parse(src)):
        if isinstance(n, (ast.FunctionDef, ast.ClassDef)):
            defs.setdefault((f.stem, n.name), []).append((n.lineno, n.end_lineno))
bad = 0
for p in sorted(pathlib.Path('lean/Verif').rglob('*.lean')):
    for i, line in enumerate(p.read_text().splitlines(), 1):
        for m in re.finditer(r'(\w+)\.py:((?:\d+(?:-\d+)?(?:,? (?:and )?|, ?)?)+)([^.;,]*)', line):
            f, tail = m.group(1), m.group(3)
            rs = [(int(a), int(b or a)) for a, b in re.findall(r'(\d+)(?:-(\d+))?', m.group(2))]
            if f not in length: continue
            for a, b in rs:
                if b > length[f] or a > b: bad += 1; print(f'{p}:{i}: beyond the file: {f}.py:{a}-{b}')
            for name in re.findall(r'`(\w+)', tail)[:1]:
                if (f, name) in defs and not any(a <= e and b >= s for s, e in defs[f, name] for a, b in rs):
                    bad += 1; print(f'{p}:{i}: {f}.py:{rs} is not in {name} {defs[f, name]}')
print(bad, 'doubtful citations')
