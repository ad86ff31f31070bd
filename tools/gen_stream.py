#!/usr/bin/env python3
"""Generate lean/Verif/Model/StreamYml.lean from /repo/parsevasp/stream.yml."""
import re, pathlib
repo = pathlib.Path('/repo/parsevasp')
entries, cur = [], None
for l in (repo / 'stream.yml').read_text().splitlines():
    if not l.strip() or l.startswith('#'): continue
    if m := re.fullmatch(r'(\w+):', l):
        cur = []; entries.append((m.group(1), cur)); continue
    m = re.fullmatch(r'  (\w+): (.*)', l)
    k, v = m.groups()
    if v.startswith('"'): v = '.str c!' + v
    elif v.lower() in ('true', 'false'): v = '.bool ' + v.lower()
    else: v = '.str c!"%s"' % v
    cur.append((k, v))
out = ['import Verif.Model.Stream', '/-! Generated by tools/gen_stream.py: the content of /repo/parsevasp/stream.yml. Do not edit. -/',
       'set_option autoImplicit false', 'namespace Verif.Stream', 'open Verif', '',
       '/-- /repo/parsevasp/stream.yml:1-202, stream.py:125-134 `_load_config_from_file`: what `yaml.safe_load` makes of the file. -/',
       'def streamYml (Rx : Type) : Config Rx := [']
out.append(',\n'.join('  (c!"%s", [%s])' % (n, ', '.join('(c!"%s", %s)' % kv for kv in c)) for n, c in entries) + ']')
out += ['', 'end Verif.Stream', '']
pathlib.Path(__file__).resolve().parent.parent.joinpath('lean/Verif/Model/StreamYml.lean').write_text('\n'.join(out))
print(len(entries))
