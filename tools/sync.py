#!/usr/bin/env python3
"""Regenerate lean/Verif.lean (imports) and MANIFEST.json from tools/claims.py.

Theorem names listed in claims.py are checked to occur in the Lean sources, and every
theorem named Cnn_... in the sources must be listed.
"""
import json, os, re, sys
root = os.path.dirname(os.path.dirname(os.path.abspath(__file__)))
lean = os.path.join(root, "lean")
mods = []
names = {}
for d, _, fs in os.walk(os.path.join(lean, "Verif")):
    for f in sorted(fs):
        if not f.endswith(".lean"):
            continue
        p = os.path.join(d, f)
        mods.append(os.path.relpath(p, lean)[:-5].replace("/", "."))
        ns = []
        for line in open(p, encoding="utf8"):
            m = re.match(r"namespace\s+(\S+)", line)
            if m:
                ns.append(m.group(1))
            m = re.match(r"end\s+(\S+)", line)
            if m and ns and ns[-1] == m.group(1):
                ns.pop()
            m = re.match(r"(?:@\[[^\]]*\]\s*)?(?:private |protected )?theorem\s+(\S+)", line)
            if m:
                names[".".join(ns + [m.group(1)])] = p
mods.sort()
open(os.path.join(lean, "Verif.lean"), "w").write("".join(f"import {m}\n" for m in mods))
sys.path.insert(0, os.path.join(root, "tools"))
sys.dont_write_bytecode = True
from claims import claims
out = []
bad = 0
listed = set()
for pid, (status, ths, note) in sorted(claims.items(), key=lambda kv: int(kv[0][1:])):
    full = []
    for t in ths:
        cand = [n for n in names if n == t or n.endswith("." + t)]
        if len(cand) != 1:
            print("PROBLEM", pid, t, cand); bad = 1
        else:
            full.append(cand[0]); listed.add(cand[0])
    out.append({"property": pid, "status": status, "theorems": full, "note": note})
for n in names:
    if re.match(r"C\d+_", n.split(".")[-1]) and n not in listed:
        print("UNLISTED", n); bad = 1
props = [json.loads(l)["id"] for l in open(os.path.join(root, "properties.jsonl"))]
miss = [p for p in props if p not in claims]
if miss:
    print("no claim yet:", " ".join(miss))
json.dump({"claims": out}, open(os.path.join(root, "MANIFEST.json"), "w"), indent=1)
sys.exit(bad)
