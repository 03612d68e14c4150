#!/bin/sh
# prints the axioms of all the theorems of MANIFEST.json (to run after lake build)
cd "$(dirname "$0")/../lean" || exit 1
python3 -c "
import json
for c in json.load(open('../MANIFEST.json'))['claims']:
    for t in c['theorems']: print('#print axioms ' + t)
" > /tmp/axioms_body.txt
(echo "import Verif"; cat /tmp/axioms_body.txt) > /tmp/axioms.lean
lake env lean /tmp/axioms.lean
