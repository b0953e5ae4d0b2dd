import re,json,glob
notes=json.load(open('/tmp/w/notes.json'))
th={}
for f in sorted(glob.glob('/verif/lean/Verif/Props/*.lean')+glob.glob('/verif/lean/Verif/Ieee/*.lean')):
    s=open(f).read()
    for m in re.finditer(r'^theorem (C\d{2,3}_\w+)',s,re.M):
        th.setdefault(m.group(1).split('_')[0],[]).append('Auburn.'+m.group(1))
claims=[]
for line in open('/verif/properties.jsonl'):
    p=json.loads(line)['id']
    n=notes.get(p,{})
    if p in th:
        claims.append({"property":p,"status":n.get("status","proved"),"theorems":th[p],"note":n.get("note","")})
    else:
        pass
json.dump({"claims":claims},open('/verif/MANIFEST.json','w'),indent=1,ensure_ascii=False)
print(len(claims),sum(len(c['theorems']) for c in claims),[c['property'] for c in claims if c['status']!='proved'])
print('missing',[json.loads(l)['id'] for l in open('/verif/properties.jsonl') if json.loads(l)['id'] not in th])
