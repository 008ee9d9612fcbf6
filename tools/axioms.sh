#!/bin/bash
# print the axioms of every theorem named in MANIFEST.json
cd "$(dirname "$0")/../lean" && { echo 'import Verif'; python3 -c "
import json
for c in json.load(open('../MANIFEST.json'))['claims']:
  for t in c['theorems']: print('#print axioms',t)"; } > /tmp/ax.lean && lake env lean /tmp/ax.lean
