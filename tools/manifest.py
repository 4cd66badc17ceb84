import json,re,glob,collections
# theorem naming convention: C<nn>_name in Verif/Props/*.lean ; status & notes below
notes=json.load(open('/verif/tools/notes.json'))
th=collections.OrderedDict()
for f in sorted(glob.glob('/verif/lean/Verif/Props/*.lean')):
    s=open(f).read()
    for m in re.finditer(r'^theorem (C(\d{2,3})_\w+)',s,re.M):
        th.setdefault('C'+m.group(2),[]).append('Oxsx.'+m.group(1))
props=[json.loads(l)['id'] for l in open('/verif/properties.jsonl')]
claims=[]
for p in props:
    if p in th:
        st,note=notes.get(p,["proved",""])
        claims.append(dict(property=p,status=st,theorems=th[p],note=note))
    elif p in notes:
        claims.append(dict(property=p,status=notes[p][0],theorems=[],note=notes[p][1]))
json.dump({"claims":claims},open('/verif/MANIFEST.json','w'),indent=1)
print(len(claims),'claims;',sum(len(c['theorems']) for c in claims),'theorems; missing:',[p for p in props if p not in th and p not in notes])
