# usage: python3 /tmp/addclaims.py < json {id:[status,[names],note]}
import json,sys
p='/verif/tools/claims.py'
d={}
exec(open(p).read(),d)
c=d['claims']
for k,v in json.load(sys.stdin).items(): c[k]=tuple(v)
with open(p,'w') as f:
    f.write("claims = {\n")
    for k in sorted(c):
        st,th,n=c[k]
        f.write(f'"{k}": ({json.dumps(st)}, {json.dumps(th)}, {json.dumps(n, ensure_ascii=False)}),\n')
    f.write("}\n")
