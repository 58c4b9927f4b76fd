#!/usr/bin/env python3
"""Regenerate the table in DESIGN.md of which header lines of /repo the model cites, from the comments of the model."""
import re, glob, os

root = os.path.dirname(os.path.dirname(os.path.abspath(__file__)))
inc = "/repo/include/Caitlyn/"
byname = {}
for f in sorted(glob.glob(inc + "**/*.h", recursive=True)):
    byname.setdefault(os.path.basename(f), []).append(f)
cited, models = {}, {}
for f in sorted(glob.glob(f"{root}/lean/Verif/Model/*.lean")):
    for block in re.findall(r"/-[-!](?:(?!-/).)*-/", open(f).read(), re.S):
        cur = None
        for m in re.finditer(r"((?:\w+/)?\w+\.h):?\s*|(\d+)-(\d+)|(?<![\w.])(\d+)(?![\w.])", block):
            if m.group(1):
                cur = m.group(1)
                continue
            lines = range(int(m.group(2)), int(m.group(3)) + 1) if m.group(2) else [int(m.group(4))] if cur else []
            if cur and lines:
                base = cur.split("/")[-1]
                for h in byname.get(base, []):
                    if len(byname[base]) == 1 or "/" not in cur or h.endswith(cur):
                        cited.setdefault(h, set()).update(lines)
                        models.setdefault(h, set()).add(os.path.basename(f)[:-5])
skip = re.compile(r"\s*(#|//|\*|/\*|__CAITLYN|public:|private:|protected:|template|using |class |struct |friend |};?$)")


def ranges(xs):
    out = []
    for x in xs:
        if out and x - out[-1][1] <= 3:
            out[-1][1] = x
        else:
            out.append([x, x])
    return ", ".join(str(a) if a == b else f"{a}-{b}" for a, b in out)


rows = []
for h in sorted(f for fs in byname.values() for f in fs):
    lines = open(h).read().split("\n")
    code = [i for i, l in enumerate(lines, 1) if i > 17 and re.search(r"[\w;]", l) and not skip.match(l)]
    unc = [i for i in code if i not in cited.get(h, set())]
    if not code:
        continue
    rows.append(f"| {h[len(inc):]} | {', '.join(sorted(models.get(h, [])))} | {len(code) - len(unc)} of {len(code)} | "
                f"{ranges(unc)} |")
design = open(f"{root}/DESIGN.md").read()
a, b = "<!-- generated: coverage -->\n", "<!-- end coverage -->\n"
pre, rest = design.split(a, 1)
table = "| header | model | lines of code cited | not cited |\n|---|---|---|---|\n" + "\n".join(rows) + "\n"
open(f"{root}/DESIGN.md", "w").write(pre + a + table + b + rest.split(b, 1)[1])
print("\n".join(r for r in rows if not r.endswith("|  |")))
