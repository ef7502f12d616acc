#!/usr/bin/env python3
"""Apply the seeded bugs of seeded/mutations_*.py (lists M of dicts file, old, new, claim, [tightened]) to a scratch copy of the
model (/tmp/mut/lean), rebuild, and append the outcome to seeded/LOG.jsonl.  Usage: mutate.py seeded/mutations_x.py [indices]"""
import sys, os, re, json, subprocess, runpy
ROOT = os.path.join(os.path.dirname(os.path.abspath(__file__)), "..")
SCR = "/tmp/mut/lean"
def sync():
    if not os.path.exists(SCR):
        os.makedirs("/tmp/mut", exist_ok=True)
        subprocess.run(["cp", "-a", ROOT + "/lean", "/tmp/mut/"], check=True)
    want = {}
    for d, _, fs in os.walk(ROOT + "/lean/Verif"):
        for f in fs: want[os.path.relpath(os.path.join(d, f), ROOT + "/lean")] = open(os.path.join(d, f)).read()
    want["Verif.lean"] = open(ROOT + "/lean/Verif.lean").read()
    for k, v in want.items():
        t = os.path.join(SCR, k)
        if not os.path.exists(t) or open(t).read() != v:
            os.makedirs(os.path.dirname(t), exist_ok=True)
            open(t, "w").write(v)
def enclosing(f, line):
    ls = open(f).read().split("\n")
    for i in range(min(line, len(ls)) - 1, -1, -1):
        m = re.match(r"\s*(?:@\[[^\]]*\]\s*)?(?:private )?(?:noncomputable )?(theorem|lemma|def|instance|example|structure|abbrev)\s*([^\s:({\[]*)", ls[i])
        if m: return m.group(2) if m.group(1) != "example" else "example@%s:%d" % (os.path.basename(f), i + 1)
    return "?"
def main():
    spec = runpy.run_path(sys.argv[1])["M"]
    idx = [int(x) for x in sys.argv[2:]] or range(len(spec))
    sync()
    subprocess.run(["lake", "build"], cwd=SCR, stdout=subprocess.DEVNULL, stderr=subprocess.DEVNULL)
    for k in idx:
        m = spec[k]
        f = os.path.join(SCR, "Verif", m["file"])
        src = open(f).read()
        if src.count(m["old"]) != 1:
            print(k, "PATTERN count", src.count(m["old"]), m["old"][:60]); continue
        pos = src.index(m["old"])
        ls = src[:pos].count("\n") + 1
        d = m.get("def") or enclosing(f, ls)
        open(f, "w").write(src.replace(m["old"], m["new"]))
        r = subprocess.run(["lake", "build"], cwd=SCR, capture_output=True, text=True)
        out = r.stdout + r.stderr
        failed = []
        for e in re.finditer(r"error: (Verif/[^:]+):(\d+):\d+", out):
            n = enclosing(os.path.join(SCR, e.group(1)), int(e.group(2)))
            if n not in failed: failed.append(n)
        open(f, "w").write(src)
        rec = {"definition": d + " (" + m["file"] + ")", "edit": m.get("edit") or (m["old"] + "  ==>  " + m["new"]), "claim": m["claim"],
               "theorems_failed": failed, "theorems_tightened": m.get("tightened", []), "note": m.get("note", "")}
        print(k, d, "->", failed if failed else "SURVIVED", flush=True)
        with open(ROOT + "/seeded/LOG.jsonl", "a") as g: g.write(json.dumps(rec, ensure_ascii=False) + "\n")
main()
