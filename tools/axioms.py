# regenerates AXIOMS.md: run in /verif after `lake build`
import json,subprocess,re
m=json.load(open('/verif/MANIFEST.json'))
names=[t for c in m['claims'] for t in c['theorems']]
src="import Verif\n"+"".join(f"#print axioms {n}\n" for n in names)
open('/tmp/ax.lean','w').write(src)
o=subprocess.run(['lake','env','lean','/tmp/ax.lean'],cwd='/verif/lean',capture_output=True,text=True).stdout
o=re.sub(r',\s*\n\s*',', ',o)
g={}
for n in names:
    mm=re.search(r"'"+re.escape(n)+r"' (does not depend on any axioms|depends on axioms: \[([^\]]*)\])",o)
    k=mm.group(2) if mm.group(2) else '(none)'
    k=', '.join(sorted(k.split(', ')))
    g.setdefault(k,[]).append(n.replace('Auburn.',''))
with open('/verif/AXIOMS.md','w') as f:
    f.write("# Axioms of every theorem in MANIFEST.json (from `#print axioms`)\n\nAll names are in namespace `Auburn`. Generated by tools/axioms.py.\n")
    for k in sorted(g,key=len):
        f.write(f"\n## {k} — {len(g[k])} theorems\n\n"+', '.join(g[k])+"\n")
print({k:len(v) for k,v in g.items()})
