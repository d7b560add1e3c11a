#!/usr/bin/env python3
"""Write AXIOMS.md: the axioms each theorem of MANIFEST.json depends on (run in /verif after `lake build`)."""
import json, re, subprocess
claims = json.load(open('MANIFEST.json'))['claims']
names = [t for c in claims for t in c['theorems']]
src = 'import Verif\n' + ''.join(f'#print axioms {n}\n' for n in names)
open('/tmp/axioms.lean', 'w').write(src)
out = subprocess.run(['lake', 'env', 'lean', '/tmp/axioms.lean'], cwd='lean', capture_output=True, text=True).stdout
out = re.sub(r'\n\s+', ' ', out)
groups = {}
for line in out.splitlines():
    m = re.match(r"'([^']+(?:'[^ ]*)?)' depends on axioms: \[(.*)\]", line)
    if m:
        groups.setdefault(m.group(2), []).append(m.group(1))
        continue
    m = re.match(r"'(.+)' does not depend on any axioms", line)
    if m:
        groups.setdefault('none', []).append(m.group(1))
        continue
    raise SystemExit('unexpected: ' + line)
with open('AXIOMS.md', 'w') as f:
    f.write('# Axioms of the theorems in MANIFEST.json\n\nGenerated by `tools/axioms.py` from `#print axioms`.\n')
    for k in sorted(groups, key=len):
        f.write(f'\n## {k}\n\n' + ''.join(f'* `{n}`\n' for n in groups[k]))
print({k: len(v) for k, v in groups.items()}, len(names))
