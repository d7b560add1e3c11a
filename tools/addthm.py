# usage: addthm.py C22 name name ...   append theorems to a claim of tools/claims.py
import json, sys, subprocess
d = {}
exec(open('/verif/tools/claims.py').read(), d)
st, th, n = d['claims'][sys.argv[1]]
th = list(th) + [x for x in sys.argv[2:] if x not in th]
subprocess.run([sys.executable, '/verif/tools/addclaims.py'], input=json.dumps({sys.argv[1]: [st, th, n]}), text=True, check=True)
