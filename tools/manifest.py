#!/usr/bin/env python3
"""Regenerate MANIFEST.json and the generated part of DESIGN.md from the theorems in lean/Verif/Props, their
comments and notes.json."""
import json, re, glob, os
from collections import Counter

root = os.path.dirname(os.path.dirname(os.path.abspath(__file__)))
props = [json.loads(l) for l in open(f"{root}/properties.jsonl") if l.strip()]
thms, docs = {}, {}


def namespace(text):
    """The namespace at the end of this part of a file."""
    stack, text = [], re.sub(r"/-[\s\S]*?-/", "", text)
    for m in re.finditer(r"^(namespace|section|noncomputable section|mutual|end)\b *(\S*)", text, re.M):
        if m.group(1) != "end":
            stack.append(m.group(2) if m.group(1) == "namespace" else "")
        else:
            stack.pop()
    return "".join(x + "." for x in stack if x)


for f in sorted(glob.glob(f"{root}/lean/Verif/Props/*.lean")):
    text = open(f).read()
    for m in re.finditer(r"(?:/--((?:(?!-/).)*)-/\s*\n)?theorem (C(\d+)_[\w.']+)", text, re.S):
        name = namespace(text[:m.start()]) + m.group(2)
        thms.setdefault("C" + m.group(3), []).append(name)
        docs[name] = re.sub(r"\s+", " ", (m.group(1) or "").strip())
notes = json.load(open(f"{root}/tools/notes.json"))
claims = []
for p in props:
    i = p["id"]
    t = thms.get(i, [])
    n = notes.get(i, {})
    if isinstance(n, str):
        n = {"note": n}
    if "status" in n:
        st = n["status"]
    elif not t:
        st = "not_applicable"
    elif any("_partial" in x or "_fails" in x for x in t):
        st = "partial"
    else:
        st = "proved"
    note = n.get("note", "")
    if not note and st == "partial":
        note = " ".join(f"[{x.split('.')[-1]}] {docs[x]}" for x in t if "_partial" in x or "_fails" in x)
    if not note and st == "proved":
        note = " ".join(f"[{x.split('.')[-1]}] {docs[x]}" for x in t)
    claims.append({"property": i, "status": st, "theorems": t, "note": note or "Not modelled."})
json.dump({"claims": claims}, open(f"{root}/MANIFEST.json", "w"), indent=1, ensure_ascii=False)
print(Counter(c["status"] for c in claims), "theorems:", sum(len(c["theorems"]) for c in claims))
for k in thms:
    if k not in {p["id"] for p in props}:
        print("no property for", k)
for x, d in docs.items():
    if not d:
        print("no comment:", x)

# section 5 of DESIGN.md
title = {p["id"]: p["title"] for p in props}
out = []
for p in props:
    fs = [x for x in thms.get(p["id"], []) if "_fails" in x]
    if fs:
        out.append(f"* **{p['id']}, {p['title']}.**")
        out += [f"  * `{x.split('.')[-1]}`: {docs[x]}" for x in fs]
design = open(f"{root}/DESIGN.md").read()
a, b = "<!-- generated: disagreements -->\n", "<!-- end generated -->\n"
if a in design:
    pre, rest = design.split(a, 1)
    design = pre + a + "\n".join(out) + "\n" + b + rest.split(b, 1)[1]
    open(f"{root}/DESIGN.md", "w").write(design)
