"""Append a property, its plan row and Props entry: JSON {property fields..., row, module, issues} on stdin."""
import json,sys,re
D=json.load(sys.stdin)
s=open('DESIGN.md').read()
for d in D:
    with open('properties.jsonl','a') as f:
        f.write(json.dumps({k:d[k] for k in ['id','title','statement','quantifier','why_tests_cant','anchors']})+"\n")
    n=int(d['id'][1:]); prev="| C%02d |"%(n-1)
    i=s.index("\n"+prev)+1; j=s.index("\n",i)
    s=s[:j+1]+"| %s | %s |\n"%(d['id'],d['row'])+s[j+1:]
    m=re.search(r"`[A-Za-z]+` C%02d\."%(n-1),s)
    if m and d.get('module'):
        s=s[:m.end()-1]+", `%s` %s."%(d['module'],d['id'])+s[m.end():]
    elif d.get('module'): print('Props list: add by hand')
    for t in d.get('issues',[]):
        k=max(int(x) for x in re.findall(r"^(\d+)\. ",s[s.index("## 5."):],re.M))+1
        s=s.rstrip("\n")+"\n%d. %s\n"%(k,t)
open('DESIGN.md','w').write(s)
