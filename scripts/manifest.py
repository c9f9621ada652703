import json,re,glob
# statuses and notes
S=json.load(open('/verif/scripts/status.json'))
thms={}
for f in sorted(glob.glob('/verif/lean/Verif/Props/*.lean')):
    for m in re.finditer(r'^theorem\s+(C\d\d\w*)',open(f).read(),re.M):
        n=m.group(1); thms.setdefault(n[:3],[]).append('Verif.Props.'+n)
claims=[]
for l in open('/verif/properties.jsonl'):
    p=json.loads(l); i=p['id']
    if i in S:
        st,note=S[i]
        claims.append(dict(property=i,status=st,theorems=thms.get(i,[]),note=note))
    elif i in thms: print('no status for',i)
json.dump({"claims":claims},open('/verif/MANIFEST.json','w'),indent=1)
print(len(claims),'claims')
