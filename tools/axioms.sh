#!/bin/sh
# Prints the axioms of every theorem named in MANIFEST.json to AXIOMS.txt. Needs a finished 'lake build'.
cd "$(dirname "$0")/.." || exit 1
t=$(mktemp --suffix=.lean)
{
  echo 'import Verif'
  python3 - <<'P'
import json
seen = set()
for c in json.load(open('MANIFEST.json'))['claims']:
    for t in c['theorems']:
        if t not in seen:
            seen.add(t)
            print('#print axioms', t)
P
} > "$t"
(cd lean && lake env lean "$t") | tr '\n' ' ' | sed "s/ '/\n'/g; s/  */ /g" > AXIOMS.txt
echo >> AXIOMS.txt
rm -f "$t"
sed -E "s/.*(depends on axioms: .*|does not depend.*)/\1/" AXIOMS.txt | sort | uniq -c
