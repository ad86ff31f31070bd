#!/usr/bin/env python3
"""Regenerate MANIFEST.json and lean/Verif.lean from tools/status.txt and the theorems named Cnn_* in lean/Verif/Props."""
import re, json, pathlib
root = pathlib.Path(__file__).resolve().parent.parent
thms = {}
for f in sorted((root / 'lean/Verif/Props').glob('*.lean')):
    ns = []
    for line in f.read_text().splitlines():
        m = re.match(r'namespace (\S+)', line)
        if m: ns.append(m.group(1))
        m = re.match(r'end (\S+)', line)
        if m and ns and ns[-1] == m.group(1): ns.pop()
        m = re.match(r'theorem ((C\d{2,3})_\S+)', line)
        if m: thms.setdefault(m.group(2), []).append('.'.join(ns + [m.group(1)]))
claims = []
for line in (root / 'tools/status.txt').read_text().splitlines():
    if not line.strip(): continue
    cid, status, note = [x.strip() for x in line.split('|', 2)]
    claims.append(dict(property=cid, status=status, theorems=thms.pop(cid, []), note=note))
    if status != 'not_applicable' and not claims[-1]['theorems']: print('no theorem for', cid)
for k in thms: print('theorems without status line:', k)
claims.sort(key=lambda c: c['property'])
json.dump(dict(claims=claims), open(root / 'MANIFEST.json', 'w'), indent=1, ensure_ascii=False)
mods = sorted(str(p.relative_to(root / 'lean').with_suffix('')).replace('/', '.') for p in (root / 'lean/Verif').rglob('*.lean'))
(root / 'lean/Verif.lean').write_text(''.join('import %s\n' % m for m in mods))
print(len(claims), 'claims', sum(len(c['theorems']) for c in claims), 'theorems')
