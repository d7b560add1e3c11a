"""Append finished seeded-bug runs to /verif/seeded/LOG.jsonl.

usage: mutlog.py OUT.jsonl [TIGHTENED.json]     (the second file maps a claim text to the theorems added because of it)
"""
import json, os, re, sys

def definition(path, old):
    """Name of the definition that contains the edited text."""
    s = open(os.path.join('/verif/lean', path)).read()
    i = s.find(old)
    name = None
    for m in re.finditer(r"^\s*(?:noncomputable |partial |private )*(?:def|structure|inductive|abbrev|instance)\s+([^\s:({\[]+)", s, re.M):
        if m.start() > i + len(old):
            break
        if m.start() <= i or old[:m.start() - i].strip() == '':
            name = m.group(1)
    return name

tight = json.load(open(sys.argv[2])) if len(sys.argv) > 2 else {}
with open('/verif/seeded/LOG.jsonl', 'a') as f:
    for l in open(sys.argv[1]):
        r = json.loads(l)
        if 'error' in r:
            continue
        f.write(json.dumps({
            "definition": f"{r['file'][:-5].replace('/', '.')}: {definition(r['file'], r['old'])}",
            "edit": f"{r['old']}  =>  {r['new']}",
            "claim": r['claim'],
            "survived": r['exit'] == 0,
            "failed": r['failed'],
            "tightened": tight.get(r['claim'], [])}, ensure_ascii=False) + "\n")
