#!/bin/sh
# Prints the set of axioms used by the theorems of MANIFEST.json (after `lake build` in lean/).
cd "$(dirname "$0")/../lean" || exit 1
f=$(mktemp --suffix=.lean)
{ echo "import Verif"; python3 -c "
import json
for c in json.load(open('../MANIFEST.json'))['claims']:
    for t in c['theorems']: print('#print axioms', t)"; } > "$f"
lake env lean "$f" | tr '\n' ' ' | sed "s/'Verif/\n'Verif/g" | sed "s/.*depends on axioms: //; s/.*does not depend.*/none/" | sort | uniq -c
rm -f "$f"
