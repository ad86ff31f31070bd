#!/usr/bin/env python3
"""Generate lean/Verif/Model/Tables.lean from /repo/parsevasp (incar.yml top-level keys, constants.elements)."""
import re, pathlib
repo = pathlib.Path('/repo/parsevasp')
tags = [l[:-1] for l in (repo / 'incar.yml').read_text().splitlines() if re.fullmatch(r"[A-Za-z_0-9]+:", l)]
el = re.findall(r"^    '(\w+)': (\d+),", (repo / 'constants.py').read_text(), re.M)
out = ['import Verif.Py.Str', '/-! Generated by tools/gen_tables.py: data tables of /repo/parsevasp. Do not edit. -/', 'namespace Verif', '']
out.append('/-- Top-level keys of /repo/parsevasp/incar.yml (the keys of `constants.incar_tags`, constants.py:128-131). -/')
out.append('def incarTags : List Str := [')
out.append(',\n'.join('  c!"%s"' % t for t in tags) + ']')
out.append('')
out.append('/-- /repo/parsevasp/constants.py:6-126 `elements`: lower-case symbol and atomic number. -/')
out.append('def elementTable : List (Str × Nat) := [')
out.append(',\n'.join('  (c!"%s", %s)' % (a, b) for a, b in el) + ']')
out += ['', 'end Verif', '']
pathlib.Path(__file__).resolve().parent.parent.joinpath('lean/Verif/Model/Tables.lean').write_text('\n'.join(out))
print(len(tags), len(el))
