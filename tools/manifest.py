import json,re,glob
notes=json.load(open('/verif/tools/notes.json'))
th={}
for f in sorted(glob.glob('/verif/lean/Verif/Props/*.lean')):
    ns=[]
    for l in open(f):
        m=re.match(r'namespace (\S+)',l)
        if m: ns.append(m.group(1))
        m=re.match(r'end (\S+)',l)
        if m and ns and ns[-1]==m.group(1): ns.pop()
        m=re.match(r'theorem (C(\d\d+)_\w+)',l)
        if m: th.setdefault('C'+m.group(2),[]).append('.'.join(ns+[m.group(1)]))
claims=[]
props=[json.loads(l) for l in open('/verif/properties.jsonl')]
for p in props:
    i=p['id']
    n=notes.get(i)
    if i in th:
        st=n.get('status') if n and n.get('status') else ('partial' if all(t.endswith('_partial') for t in th[i]) else 'proved')
        claims.append({"property":i,"status":st,"theorems":th[i],"note":n['note'] if n else ''})
    elif n: claims.append({"property":i,"status":n['status'],"theorems":[],"note":n['note']})
json.dump({"claims":claims},open('/verif/MANIFEST.json','w'),indent=1,ensure_ascii=False)
print(len(claims),'claims; missing:',[p['id'] for p in props if p['id'] not in [c['property'] for c in claims]])
