#!/usr/bin/env python3
"""Mutation testing of the theorems.  Usage: mutate.py OUT.jsonl [--per-def K] [--workers W] [--files A,B] [--seed S]
[--only LOG.jsonl]

Works on a scratch copy (/tmp/mut/base) of a built project, from which the `example`s are removed, so that only theorems
can notice a mutant.  For each definition of the model it makes up to K small edits; each is compiled with everything that
depends on it until something fails.  Outcomes: invalid (the model itself does not compile), killed (with the failing
declarations), survived.  With --only, just the mutants that LOG.jsonl says were not detected."""
import argparse, glob, json, os, random, re, shutil, subprocess, sys, time
from concurrent.futures import ThreadPoolExecutor
from threading import Lock

root = os.path.dirname(os.path.dirname(os.path.abspath(__file__)))
S = "/tmp/mut"
base = f"{S}/base"


def strip_examples(t):
    t = re.sub(r"(?m)^/--(?:(?!-/)[\s\S])*-/\s*\n(?=example\b)", "", t)
    out, skip = [], False
    for l in t.split("\n"):
        if re.match(r"example\b", l):
            skip = True
        elif skip and l and not l[0].isspace() and not l.startswith("|"):
            skip = False
        if not skip:
            out.append(l)
    return "\n".join(out)


def mods():
    r = {}
    for f in glob.glob(f"{base}/Verif/**/*.lean", recursive=True):
        m = os.path.relpath(f, base)[:-5].replace("/", ".")
        r[m] = [l.split()[1] for l in open(f) if l.startswith("import Verif")]
    return r


def lean(worker, mod, src, top=base):
    o = f"{S}/w{worker}/Verif"
    p = mod.replace(".", "/")
    dst = f"{S}/w{worker}/{p}.olean"
    if os.path.lexists(dst):
        os.unlink(dst)
    env = dict(os.environ, LEAN_PATH=f"{S}/w{worker}:" + MATHPATH, LEAN_NUM_THREADS="1")
    t = time.time()
    try:
        r = subprocess.run([LEAN, "-R", top, "-o", dst, src], cwd=top, env=env, capture_output=True, text=True, timeout=900)
        return r.returncode == 0, r.stdout + r.stderr, time.time() - t
    except subprocess.TimeoutExpired:
        return False, "timeout", time.time() - t


def blocks(text):
    """(name, start line, end line) of the definitions"""
    ls = text.split("\n")
    res, ns = [], []
    i = 0
    while i < len(ls):
        m = re.match(r"namespace (\S+)", ls[i])
        if m:
            ns.append(m.group(1))
        m = re.match(r"end (\S+)", ls[i])
        if m and ns:
            ns.pop()
        m = re.match(r"(?:@\[[^\]]*\] )?(?:private |protected )?(?:def|abbrev|instance) (\S+)", ls[i])
        if m:
            j = i + 1
            while j < len(ls) and (not ls[j] or ls[j][0].isspace() or ls[j].startswith("|")):
                if not ls[j].strip() and (j + 1 >= len(ls) or (ls[j + 1] and not ls[j + 1][0].isspace())):
                    break
                j += 1
            res.append((".".join(ns[1:] + [m.group(1)]), i, j))
            i = j
            continue
        i += 1
    return res


def num(s, d):
    v = int(s, 16 if s.startswith("0x") else 10) + d
    if v < 0:
        return None
    return hex(v) if s.startswith("0x") else str(v)


OPS = [
    ("constant plus one", r"(?<![\w.!\[])(0x[0-9A-Fa-f]+|\d+)(?![\w.])", lambda m: num(m.group(1), 1)),
    ("constant minus one", r"(?<![\w.!\[])(0x[0-9A-Fa-f]+|\d+)(?![\w.])", lambda m: num(m.group(1), -1)),
    ("boundary", r" < ", lambda m: " ≤ "),
    ("boundary", r" ≤ ", lambda m: " < "),
    ("boundary", r" > ", lambda m: " ≥ "),
    ("boundary", r" ≥ ", lambda m: " > "),
    ("comparison reversed", r" == ", lambda m: " != "),
    ("comparison reversed", r" != ", lambda m: " == "),
    ("comparison reversed", r" (<|≤) ", lambda m: " > " if m.group(1) == "<" else " ≥ "),
    ("and/or", r" && ", lambda m: " || "),
    ("and/or", r" \|\| ", lambda m: " && "),
    ("and/or", r" ∧ ", lambda m: " ∨ "),
    ("and/or", r" ∨ ", lambda m: " ∧ "),
    ("condition dropped", r" && [\w.']+(?: [\w.']+)*(?=\s)", lambda m: ""),
    ("boolean", r"\btrue\b", lambda m: "false"),
    ("boolean", r"\bfalse\b", lambda m: "true"),
    ("condition negated", r"\bif (?!h )([^:]+?) then", lambda m: f"if ¬ ({m.group(1)}) then"),
    ("condition always true", r"\bif (?!h )([^:]+?) then", lambda m: "if True then"),
    ("condition always false", r"\bif (?!h )([^:]+?) then", lambda m: "if False then"),
    ("not dropped", r"!(?=[\w(])", lambda m: ""),
    ("arithmetic", r" \+ ", lambda m: " - "),
    ("arithmetic", r" - ", lambda m: " + "),
    ("arithmetic", r" \* ", lambda m: " + "),
    ("arithmetic", r" / ", lambda m: " % "),
    ("append dropped", r" \+\+ (?:\[[^\]]*\]|[\w.']+)", lambda m: ""),
    ("append swapped", r"([\w.']+|\[[^\]]*\]) \+\+ ([\w.']+|\[[^\]]*\])", lambda m: f"{m.group(2)} ++ {m.group(1)}"),
    ("other error", r"\.error \.(\w+)", lambda m: ".error .fuel"),
    ("take/drop", r"\.take\b", lambda m: ".drop"),
    ("take/drop", r"\.drop\b", lambda m: ".take"),
    ("component", r"\.1\b", lambda m: ".2"),
    ("component", r"\.2\b", lambda m: ".1"),
    ("some/none", r"\bsome [\w.']+", lambda m: "none"),
    ("isSome/isNone", r"isSome", lambda m: "isNone"),
    ("isSome/isNone", r"isNone", lambda m: "isSome"),
    ("arguments swapped", r"(?<=[( ])([a-z][\w.']*) ([a-z][\w.']*) ([a-z][\w.']*)(?=[\s),])", lambda m: f"{m.group(1)} {m.group(3)} {m.group(2)}"),
    ("field dropped", r", \w+ := [\w.']+(?= ?[,}])", lambda m: ""),
    ("field dropped", r"\{ ([\w.]+) with \w+ := [^{},]+ \}", lambda m: m.group(1)),
    ("field dropped", r"with \w+ := [^{},]+, ", lambda m: "with "),
    ("line dropped", r"\n[ ]+(?:let [^\n]*|[a-z][\w.]* [^\n|=]*)(?=\n)", lambda m: ""),
]


def code_only(text):
    """blank out comments (same length)"""
    t = re.sub(r"/-.*?-/", lambda m: re.sub(r"[^\n]", " ", m.group(0)), text, flags=re.S)
    return re.sub(r"--[^\n]*", lambda m: " " * len(m.group(0)), t)


def mutants(path):
    text = open(path).read()
    masked = code_only(text)
    ls = text.split("\n")
    off = [0]
    for l in ls:
        off.append(off[-1] + len(l) + 1)
    res = []
    for name, a, b in blocks(masked):
        s, e = off[a], min(off[b], len(text))
        body = masked[s:e]
        k = body.find(":=")
        k2 = body.find("\n  |")
        st = min(x for x in (k if k >= 0 else len(body), k2 if k2 >= 0 else len(body)))
        ms = []
        for op, rx, f in OPS:
            for m in re.finditer(rx, body):
                if m.start() < st:
                    continue
                r = f(m)
                if r is None or r == m.group(0):
                    continue
                new = text[:s + m.start()] + r + text[s + m.end():]
                ln = body.rfind("\n", 0, m.start()) + 1
                le = body.find("\n", m.end())
                line = text[s + ln:s + (le if le >= 0 else len(body))].strip()
                ms.append((op, f"`{m.group(0).strip()}` to `{r.strip()}` in `{line[:160]}`", new))
        res.append((name, ms))
    return res


def main():
    ap = argparse.ArgumentParser()
    ap.add_argument("out")
    ap.add_argument("--per-def", type=int, default=3)
    ap.add_argument("--workers", type=int, default=3)
    ap.add_argument("--files", default="")
    ap.add_argument("--defs", default="")
    ap.add_argument("--seed", type=int, default=1)
    ap.add_argument("--skip", default="", help="comma separated earlier outputs")
    ap.add_argument("--only", default="", help="try again the undetected mutants of this log")
    a = ap.parse_args()
    global LEAN, MATHPATH
    LEAN = subprocess.run(["lake", "env", "which", "lean"], cwd=f"{root}/lean", capture_output=True, text=True).stdout.strip()
    MATHPATH = subprocess.run(["lake", "env", "printenv", "LEAN_PATH"], cwd=f"{root}/lean", capture_output=True, text=True).stdout.strip()
    MATHPATH = ":".join(p for p in MATHPATH.split(":") if not os.path.realpath(p).startswith(os.path.realpath(f"{root}/lean")))
    shutil.rmtree(base, ignore_errors=True)
    shutil.copytree(f"{root}/lean", base, ignore=shutil.ignore_patterns(".lake"))
    for f in glob.glob(f"{base}/Verif/**/*.lean", recursive=True):
        t = open(f).read()
        open(f, "w").write(strip_examples(t))
    for x in ("RepoTests",):
        p = f"{base}/Verif/Props/{x}.lean"
        if os.path.exists(p):
            os.unlink(p)
    deps = mods()
    # first build of the stripped copy
    order, seen = [], set()

    def visit(m):
        if m in seen or m not in deps:
            return
        seen.add(m)
        for d in deps[m]:
            visit(d)
        order.append(m)

    for m in sorted(deps):
        visit(m)
    shutil.rmtree(f"{S}/w_base", ignore_errors=True)
    for m in order:
        os.makedirs(os.path.dirname(f"{S}/w_base/{m.replace('.', '/')}"), exist_ok=True)
    cost, done, lock = {}, set(), Lock()
    pending = list(order)
    t0 = time.time()
    with ThreadPoolExecutor(4) as ex:
        running = {}
        while pending or running:
            for m in [m for m in pending if all(d in done or d not in deps for d in deps[m])][:4 - len(running)]:
                pending.remove(m)
                running[m] = ex.submit(lean, "_base", m, f"{base}/{m.replace('.', '/')}.lean")
            time.sleep(0.05)
            for m in [m for m, f in running.items() if f.done()]:
                ok, o, t = running.pop(m).result()
                if not ok:
                    print("BASE FAILS", m, o[:3000])
                    sys.exit(1)
                done.add(m)
                cost[m] = t
    print("base built", round(time.time() - t0), "s", flush=True)
    rdeps = {m: set() for m in deps}
    for m in order:  # transitive dependents
        st = [m]
        while st:
            x = st.pop()
            for y in deps:
                if x in deps[y] and y not in rdeps[m]:
                    rdeps[m].add(y)
                    st.append(y)
    old = set()
    for f in a.skip.split(","):
        if f:
            for l in open(f):
                d = json.loads(l)
                old.add((d["definition"], d["edit"]))
    again = set()
    if a.only:
        a.per_def = 10 ** 6
        for l in open(a.only):
            d = json.loads(l)
            if not d["detected"] and not d["tightened"]:
                again.add((d["definition"].split(".")[-1], re.sub(r"^[^:]*: ", "", d["edit"])))
    rng = random.Random(a.seed)
    jobs = []
    files = [f"{base}/Verif/Basic.lean"] + sorted(glob.glob(f"{base}/Verif/Model/*.lean"))
    for f in files:
        if a.files and os.path.basename(f)[:-5] not in a.files.split(","):
            continue
        for name, ms in mutants(f):
            if a.defs and name not in a.defs.split(","):
                continue
            ms = [m for m in ms if (name, m[0] + ": " + m[1]) not in old]
            if a.only:
                ms = [m for m in ms if (name.split(".")[-1], m[1]) in again]
                if not ms:
                    continue
            rng.shuffle(ms)
            jobs.append((f, name, ms))
    print(len(jobs), "definitions", sum(min(len(j[2]), a.per_def) for j in jobs), "mutants", flush=True)
    rng.shuffle(jobs)
    free = list(range(a.workers))
    for w in free:
        shutil.rmtree(f"{S}/w{w}", ignore_errors=True)
    outf = open(a.out, "a")

    def declat(mod, txt, ln):
        ls = txt.split("\n")[:ln]
        for l in reversed(ls):
            m = re.match(r"(?:@\[[^\]]*\] )?(?:private )?(?:theorem|lemma|def|instance|abbrev) (\S+)", l)
            if m:
                return m.group(1)
        return "?"

    def job(j):
        f, name, ms = j
        with lock:
            w = free.pop()
        try:
            mod = os.path.relpath(f, base)[:-5].replace("/", ".")
            n = 0
            for op, desc, new in ms:
                if n >= a.per_def:
                    break
                shutil.rmtree(f"{S}/w{w}", ignore_errors=True)
                subprocess.run(["cp", "-rs", f"{S}/w_base", f"{S}/w{w}"])
                src = f"{S}/s{w}/{mod.replace('.', '/')}.lean"
                os.makedirs(os.path.dirname(src), exist_ok=True)
                open(src, "w").write(new)
                ok, o, t = lean(w, mod, src, f"{S}/s{w}")
                rec = {"definition": name, "file": os.path.relpath(f, base), "edit": f"{op}: {desc}"}
                if not ok:
                    continue
                n += 1
                todo = [m for m in order if m in rdeps[mod]]
                built = set()
                rec["outcome"] = "survived"
                t0 = time.time()
                while todo:
                    ready = [m for m in todo if all(d not in rdeps[mod] or d in built for d in deps[m])]
                    m = min(ready, key=lambda m: (cost[m]))
                    todo.remove(m)
                    ok, o, t = lean(w, m, f"{base}/{m.replace('.', '/')}.lean")
                    if not ok:
                        txt = open(f"{base}/{m.replace('.', '/')}.lean").read()
                        rec["outcome"] = "killed"
                        rec["module"] = m
                        rec["failed"] = sorted({declat(m, txt, int(x)) for x in re.findall(r":(\d+):\d+: error", o)})
                        break
                    built.add(m)
                rec["secs"] = round(time.time() - t0)
                with lock:
                    outf.write(json.dumps(rec, ensure_ascii=False) + "\n")
                    outf.flush()
        except Exception as e:
            print("EXC", name, repr(e), flush=True)
        finally:
            with lock:
                free.append(w)

    with ThreadPoolExecutor(a.workers) as ex:
        list(ex.map(job, jobs))
    print("done", flush=True)


main()
