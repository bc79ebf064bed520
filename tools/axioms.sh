#!/bin/sh
# Prints the axioms every theorem named in MANIFEST.json depends on, and the set of all axioms used.
# Run after `lake build` in /verif/lean.
cd "$(dirname "$0")/../lean" || exit 1
f=$(mktemp --suffix=.lean)
python3 - > "$f" <<'PY'
import json
print("import Verif")
for c in json.load(open("../MANIFEST.json"))["claims"]:
    for t in c["theorems"]: print(f"#print axioms {t}")
PY
lake env lean "$f" | tee /tmp/axioms.txt | cut -c1-200
echo "all axioms used:"
grep -o "\[.*\]" /tmp/axioms.txt | tr -d "[]" | tr "," "\n" | tr -d " " | sort | uniq -c
rm -f "$f"
