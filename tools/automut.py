#!/usr/bin/env python3
"""Write one-place edits of every definition of the model, for mutate.py.

usage: automut.py OUT.json [per definition]
The edits are those of a careless programmer: another comparison, another operator, a dropped check, a swapped field.
"""
import json, re, glob, random, sys
random.seed(1)
per = int(sys.argv[2]) if len(sys.argv) > 2 else 2
done = {(m["file"], m["old"], m["new"]) for m in json.load(open("seeded/mutations.json"))}
DEF = re.compile(r"^(?:@\[[^\]]*\]\s*)?(?:private\s+|noncomputable\s+)*def\s+([^\s:({\[]+)")
OPS = [(" + ", " - ", "adds where it subtracts"), (" - ", " + ", "subtracts where it adds"), (" * ", " + ", "multiplies"), (" < ", " ≤ ", "boundary"), (" ≤ ", " < ", "boundary"),
       (" ≠ ", " = ", "comparison"), (" = ", " ≠ ", "comparison"), (" ∧ ", " ∨ ", "both conditions"), (" && ", " || ", "both conditions"), (" || ", " && ", "either condition"), ("¬ ", "", "negated check"), ("!", "", "negated check"),
       (" ∉ ", " ∈ ", "membership"), (" ∈ ", " ∉ ", "membership"), (".erase ", ".insert ", "set"), ("myId", "sender", "whose id"), ("sender", "r.ctx.myId", "whose id"), ("r.ctx.myId", "sender", "whose id"),
       ("guilty", "reportedBy", "whose id"), ("capXs", "capYs", "which map"), ("capKs", "capGs", "which value"), ("hat", "", "which instance"), (".alpha", ".beta", "which share"), (".gamma", ".k", "which secret"),
       ("true", "false", "constant"), ("false", "true", "constant"), (" 0", " 1", "constant"), (" 1", " 2", "constant"), ("0,", "1,", "constant"), (".L ", ".LP ", "which bound"), ("EPS", "L", "which bound"), (".panic", ".err ()", "kind of failure"),
       (".p ", ".q ", "which prime"), ("psi0", "psi1", "which proof"), (".s ", ".t ", "which base"), (" % 2 = 1", " % 2 = 0", "parity"), (" • ", " + ", "scaled")]
out = []; n = 0
for f in sorted(glob.glob("lean/Verif/Model/*.lean")):
    key = "Model/" + f.split("/")[-1]; src = open(f).read(); ls = src.split("\n")
    if key in ("Model/Out.lean", "Model/BMap.lean"): continue
    i = 0
    while i < len(ls):
        m = DEF.match(ls[i])
        if not m: i += 1; continue
        j = i + 1
        while j < len(ls) and ls[j].strip() and not re.match(r"^(/--|theorem|def|structure|end|variable|namespace|section|inductive|private|noncomputable|@\[)", ls[j]): j += 1
        a = i - 1; doc = []
        while a >= 0 and ls[a].strip() and not ls[a].strip().startswith("/--"): doc.insert(0, ls[a]); a -= 1
        if a >= 0: doc.insert(0, ls[a])
        docs = re.sub(r"\s+", " ", " ".join(doc)).strip("/- ")
        cand = []
        for k in range(i, j):
            line = ls[k]; body = line
            off = 0
            if k == i:
                if ":=" not in line: continue
                off = line.index(":=") + 2
            elif ":=" not in "\n".join(ls[i:k]) and "|" not in line: continue
            for (x, y, w) in OPS:
                p = line.find(x, off)
                while p >= 0:
                    cand.append((k, line, line[:p] + y + line[p + len(x):], w))
                    p = line.find(x, p + 1)
            if re.match(r"^\s+else if .* then \.err", line): cand.append((k, line, None, "dropped check"))
            mm = re.match(r"^(\s+)if (.*) then (\.err .*)$", line)
        random.shuffle(cand); got = 0
        for k, line, new, w in cand:
            if got >= per: break
            if new is None: old_t, new_t = line + "\n", ""
            else:
                old_t, new_t = line, new
            if src.count(old_t) != 1:
                # widen the context with the line before
                pre = ls[k - 1] + "\n"
                old_t, new_t = pre + old_t, pre + new_t
                if src.count(old_t) != 1: continue
            if (key, old_t, new_t) in done: continue
            n += 1; got += 1
            out.append({"id": f"A{n:04d}", "file": key, "def": m.group(1), "old": old_t, "new": new_t, "claim": f"automatic edit ({w}) of: {docs}", "property": "?"})
        i = j
json.dump(out, open(sys.argv[1], "w"), indent=1, ensure_ascii=False)
print(len(out))
