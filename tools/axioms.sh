#!/bin/sh
# Prints the axioms each theorem of MANIFEST.json depends on. Needs a built lean/.
cd "$(dirname "$0")/../lean" || exit 1
f=$(mktemp --suffix=.lean)
python3 - > "$f" <<'E'
import json
print("import Verif")
for c in json.load(open("../MANIFEST.json"))["claims"]:
    for t in c["theorems"]: print("#print axioms", t)
E
lake env lean "$f"
rm -f "$f"
