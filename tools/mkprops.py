#!/usr/bin/env python3
"""tools/props.txt -> properties.jsonl (one JSON object per line)."""
import json, pathlib
root = pathlib.Path(__file__).resolve().parent
out = []
for l in (root / 'props.txt').read_text().splitlines():
    if not l.strip():
        continue
    f = [x.strip() for x in l.split(' | ')]
    assert len(f) == 6, (len(f), l)
    out.append(json.dumps(dict(id=f[0], title=f[1], statement=f[2], quantifier=f[3], why_tests_cant=f[4],
               anchors=[a.strip() for a in f[5].split(';')]), ensure_ascii=False))
(root.parent / 'properties.jsonl').write_text('\n'.join(out) + '\n')
print(len(out))
