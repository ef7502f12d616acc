#!/usr/bin/env python3
"""Automatic small edits of the definitions in the model files, in a scratch copy (default /tmp/auto/lean); builds and stops at the first
error outside the edited file.  Usage: automutate.py SEED PER_DEF OUT.jsonl Model/File.lean ...  (edits that do not compile are skipped)"""
import sys, os, re, json, subprocess, random, signal
ROOT = os.path.join(os.path.dirname(os.path.abspath(__file__)), "..")
BASE = os.environ.get("AUTO", "/tmp/auto")
SCR = BASE + "/lean"
SWAP = [(r"≤", "<"), (r"(?<![<])<(?![;>|$])", "≤"), (r"≥", ">"), (r"FV\.le\b", "FV.lt"), (r"FV\.lt\b", "FV.le"), (r"FV\.ge\b", "FV.le"),
  (r" \+ ", " - "), (r" - ", " + "), (r" \* ", " / "), (r" / ", " * "), (r"\btrue\b", "false"), (r"\bfalse\b", "true"),
  (r"\.castSucc", ".succ"), (r"\.succ\b", ".castSucc"), (r"\b0\b", "1"), (r"\b1\b", "0"), (r"\b2\b", "3"), (r"&&", "||"), (r"\|\|", "&&"), (r"∧", "∨"),
  (r"∨", "∧"), (r"\.dropLast", ".tail"), (r"\.tail", ".dropLast"), (r"\.typeError", ".valueError"), (r"\.valueError", ".typeError"),
  (r"\.fst\b", ".snd"), (r"\.snd\b", ".fst"), (r"\.1\b", ".2"), (r"\.2\b", ".1"), (r"\bmin\b", "max"), (r"\bmax\b", "min"), (r" = ", " ≠ "),
  (r" ≠ ", " = "), (r" == ", " != "), (r" != ", " == "), (r"∀", "∃"), (r"\.all\b", ".any"), (r"\.any\b", ".all"), (r"\.nan\b", ".pinf"), (r"\.pinf\b", ".ninf"),
  (r"cos\b", "sin"), (r"sin\b", "cos"), (r"\.head", ".getLast"), (r"some\b", "none"), (r"\bi\b", "0"), (r"\bj\b", "i"), (r"!\(", "("), (r"¬", ""),
  (r"\bnone\b", "some 0"), (r"swap ", ""), (r"\.reverse", ""), (r"\bIF\b", "IF")]
def sync():
    if not os.path.exists(SCR):
        os.makedirs(BASE, exist_ok=True)
        subprocess.run(["cp", "-a", ROOT + "/lean", BASE + "/"], check=True)
    want = {}
    for d, _, fs in os.walk(ROOT + "/lean/Verif"):
        for f in fs: want[os.path.relpath(os.path.join(d, f), ROOT + "/lean")] = open(os.path.join(d, f)).read()
    want["Verif.lean"] = open(ROOT + "/lean/Verif.lean").read()
    for k, v in want.items():
        t = os.path.join(SCR, k)
        if not os.path.exists(t) or open(t).read() != v:
            os.makedirs(os.path.dirname(t), exist_ok=True); open(t, "w").write(v)
HEAD = re.compile(r"^(?:@\[[^\]]*\]\s*)?(?:private )?(?:noncomputable )?(theorem|lemma|def|instance|example|structure|abbrev|inductive|namespace|section|end|open|variable|/-|set_option|deriving|import|attribute|universe|mutual)\s*([^\s:({\[]*)", re.M)
def blocks(src):
    hs = list(HEAD.finditer(src))
    for a, m in enumerate(hs):
        if m.group(1) in ("def", "abbrev", "instance"):
            end = hs[a + 1].start() if a + 1 < len(hs) else len(src)
            yield m.group(2), m.start(), end
def enclosing(f, line):
    ls = open(f).read().split("\n")
    for i in range(min(line, len(ls)) - 1, -1, -1):
        m = re.match(r"\s*(?:@\[[^\]]*\]\s*)?(?:private )?(?:noncomputable )?(theorem|lemma|def|instance|example|structure|abbrev)\s*([^\s:({\[]*)", ls[i])
        if m: return m.group(2) if m.group(1) != "example" else "example@%s:%d" % (os.path.basename(f), i + 1)
    return "?"
def build(rel):
    p = subprocess.Popen(["lake", "build"], cwd=SCR, stdout=subprocess.PIPE, stderr=subprocess.STDOUT, text=True, start_new_session=True)
    res = ("ok", "")
    for line in p.stdout:
        e = re.match(r"error: (Verif/[^:]+):(\d+):\d+", line)
        if e:
            if e.group(1) == "Verif/" + rel:
                n = enclosing(os.path.join(SCR, e.group(1)), int(e.group(2)))
                ls = open(os.path.join(SCR, e.group(1))).read().split("\n")
                res = ("model", n)
            else: res = ("caught", enclosing(os.path.join(SCR, e.group(1)), int(e.group(2))))
            try: os.killpg(p.pid, signal.SIGKILL)
            except ProcessLookupError: pass
            break
    p.wait()
    return res
def main():
    seed, per, out, files = int(sys.argv[1]), int(sys.argv[2]), sys.argv[3], sys.argv[4:]
    rnd = random.Random(seed)
    sync()
    subprocess.run(["lake", "build"], cwd=SCR, stdout=subprocess.DEVNULL, stderr=subprocess.DEVNULL)
    done = set()
    if os.path.exists(out):
        for l in open(out):
            r = json.loads(l); done.add((r["file"], r["edit"]))
    for rel in files:
        f = os.path.join(SCR, "Verif", rel)
        src = open(f).read()
        for name, a, b in list(blocks(src)):
            body = src[a:b]
            k = re.search(r":=|\n  \||\bwhere\b", body)
            if not k: continue
            off = k.start()
            cands = []
            for rx, new in SWAP:
                for m in re.finditer(rx, body):
                    if m.start() < off: continue
                    pre = body[:m.start()]
                    if pre.count('"') % 2: continue
                    cands.append((m.start(), m.end(), new))
            for m in re.finditer(r'"([^"]+)"', body):
                if m.start() >= off: cands.append((m.start(), m.end(), '"' + m.group(1) + 'X"'))
            rnd.shuffle(cands)
            n = 0
            for (s, e, new) in cands:
                if n >= per: break
                line = body[body.rfind("\n", 0, s) + 1: (body.find("\n", e) if body.find("\n", e) > 0 else len(body))].strip()
                ns = src[:a] + body[:s] + new + body[e:] + src[b:]
                nline = ns[ns.rfind("\n", 0, a + s) + 1: ns.find("\n", a + s + len(new))].strip()
                edit = line + "  ==>  " + nline
                if (rel, edit) in done: n += 1; continue
                open(f, "w").write(ns)
                r = build(rel)
                open(f, "w").write(src)
                if r[0] == "model" and r[1] == name: continue
                n += 1
                print(rel, name, r, edit if r[0] == "ok" else "", flush=True)
                with open(out, "a") as g: g.write(json.dumps({"file": rel, "def": name, "edit": edit, "result": r[0], "first": r[1]}, ensure_ascii=False) + "\n")
main()
