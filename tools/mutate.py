#!/usr/bin/env python3
"""Apply wrong-program edits to a scratch copy of the model, rebuild, and record which theorems fail.

usage: mutate.py MUTATIONS.json [id ...]
Each mutation: {"id", "file" (under lean/Verif), "def", "old", "new", "claim", "property"}.
Results are appended to /verif/seeded/LOG.jsonl.
"""
import json, os, re, subprocess, sys, shutil
REPO = "/verif"; MUT = os.environ.get("MUT", "/tmp/mut"); LOG = "/verif/seeded/LOG.jsonl"
DECL = re.compile(r"^(?:@\[[^\]]*\]\s*)?(?:private\s+|protected\s+|noncomputable\s+)*(theorem|lemma|def|example|instance|structure|abbrev)\b\s*([^\s:({\[]*)")

SRC = MUT + ".head/lean"

def sync():
    """Bring the scratch copy to the last commit."""
    shutil.rmtree(MUT + ".head", ignore_errors=True); os.makedirs(MUT + ".head")
    subprocess.run(f"git -C {REPO} archive HEAD lean | tar -x -C {MUT}.head", shell=True, check=True)
    for d, dirs, fs in os.walk(SRC):
        if ".lake" in dirs: dirs.remove(".lake")
        t = MUT + d[len(SRC):]; os.makedirs(t, exist_ok=True)
        for f in fs:
            c = open(f"{d}/{f}", "rb").read()
            if not os.path.exists(f"{t}/{f}") or open(f"{t}/{f}", "rb").read() != c: open(f"{t}/{f}", "wb").write(c)
    if not os.path.exists(MUT + "/.lake"):
        shutil.copytree(REPO + "/lean/.lake", MUT + "/.lake", symlinks=True)

def decl_at(path, line):
    ls = open(path).read().split("\n")
    for i in range(min(line, len(ls)) - 1, -1, -1):
        m = DECL.match(ls[i])
        if m:
            return m.group(1), m.group(2), i
    return ("?", "?", 0)

def build():
    r = subprocess.run(["lake", "build"], cwd=MUT, capture_output=True, text=True)
    return r.returncode, r.stdout + r.stderr

def closure_table():
    p = MUT + "/dump.lean"
    open(p, "w").write('''import Verif
open Lean
def isV (env : Environment) (n : Name) : Bool := match env.getModuleIdxFor? n with
  | some i => (`Verif).isPrefixOf env.header.moduleNames[i.toNat]! | none => false
run_cmd do
  let env ← getEnv
  for (n, ci) in env.constants.map₁.toList do
    if isV env n && !(privateToUserName n).isInternal then
      let us := (ci.type.getUsedConstants ++ ((ci.value? (allowOpaque := true)).map (·.getUsedConstants) |>.getD #[])).filter (isV env)
      IO.println s!"{privateToUserName n}\\t{" ".intercalate (us.toList.map fun u => toString (privateToUserName u))}"
''')
    r = subprocess.run(["lake", "env", "lean", "dump.lean"], cwd=MUT, capture_output=True, text=True)
    os.remove(p)
    g = {}
    for l in r.stdout.split("\n"):
        if "\t" in l:
            a, b = l.split("\t"); g[a] = b.split()
    assert g, r.stdout[:500] + r.stderr[:500]
    return g

TOP = re.compile(r"^(/--|@\[|private|protected|noncomputable|theorem|lemma|def|example|instance|structure|abbrev|section|end|namespace|open|variable|set_option|attribute|/-!)")

def drop_failing(bad_lines):
    """Remove the failing declarations (examples and their lemmas), so that the modules after them are checked too."""
    by = {}
    for f, line in bad_lines: by.setdefault(f, set()).add(decl_at(f"{MUT}/{f}", line)[2])
    for f, starts in by.items():
        ls = open(f"{MUT}/{f}").read().split("\n"); dead = set()
        for i in starts:
            a = i
            while a > 0 and ls[a - 1].strip() and not DECL.match(ls[a - 1]): a -= 1
            b = i + 1
            while b < len(ls) and not TOP.match(ls[b]): b += 1
            dead |= set(range(a, b))
        open(f"{MUT}/{f}", "w").write("\n".join(l for k, l in enumerate(ls) if k not in dead))

def main():
    muts = json.load(open(sys.argv[1])); ids = set(sys.argv[2:])
    done = set()
    if os.path.exists(LOG):
        done = {json.loads(l).get("id") for l in open(LOG) if l.strip()}
    os.makedirs(MUT, exist_ok=True); sync()
    rc, out = build()
    assert rc == 0, out[-2000:]
    g = closure_table()
    rev = {}
    for a, bs in g.items():
        for b in bs: rev.setdefault(b, set()).add(a)
    short = {}
    for a in g: short.setdefault(a.split(".")[-1], []).append(a)
    for m in muts:
        if ids and m["id"] not in ids: continue
        if not ids and m["id"] in done: continue
        path = f"{MUT}/Verif/{m['file']}"; orig = open(path).read()
        if orig.count(m["old"]) < 1 or (orig.count(m["old"]) > 1 and not m.get("all")):
            print("SKIP", m["id"], "matches:", orig.count(m["old"])); continue
        open(path, "w").write(orig.replace(m["old"], m["new"]))
        bad = []
        for attempt in range(6):
            rc, out = build(); lines = []
            for mm in re.finditer(r"error: (Verif/\S+?\.lean):(\d+):", out):
                k, n, _ = decl_at(f"{MUT}/{mm.group(1)}", int(mm.group(2)))
                lines.append((mm.group(1), int(mm.group(2))))
                e = (mm.group(1), k, n)
                if e not in bad: bad.append(e)
            if rc == 0 or not lines or any(k == "def" for _, k, _ in bad) or any(re.match(r"C\d{2,3}_", n) for _, _, n in bad): break
            drop_failing(lines)
        open(path, "w").write(orig); sync()
        if any(k == "def" for _, k, _ in bad):
            print("BADMUT", m["id"], bad, out[:1500]); continue
        direct = [n for _, k, n in bad if k in ("theorem", "lemma")]
        seen, st = set(), []
        for n in direct:
            for a in short.get(n.split(".")[-1], []): st.append(a)
        while st:
            a = st.pop()
            if a in seen: continue
            seen.add(a); st += list(rev.get(a, ()))
        props = sorted({a.split(".")[-1] for a in seen if ".Props." in a and re.match(r"C\d{2,3}_", a.split(".")[-1])})
        exs = sum(1 for _, k, _ in bad if k == "example")
        rec = {"id": m["id"], "definition": m["def"], "edit": f"{m['file']}: `{m['old']}` -> `{m['new']}`", "claim_broken": m["claim"], "property": m["property"],
               "failed_directly": direct, "theorems_failed": props, "examples_failed": exs, "theorems_tightened": m.get("tightened", [])}
        if m.get("note"): rec["note"] = m["note"]
        if not props: rec["verdict"] = "SURVIVED"
        with open(LOG, "a") as f: f.write(json.dumps(rec, ensure_ascii=False) + "\n")
        print(m["id"], "SURVIVED" if not props else "killed", props[:6], "direct:", direct[:4], flush=True)
main()
