import re,json,glob,os
os.chdir('/verif')
props=[json.loads(l)['id'] for l in open('properties.jsonl')]
th={}
for f in sorted(glob.glob('lean/Verif/Props/*.lean')):
    s=open(f).read()
    for m in re.finditer(r'^theorem (c(\d\d)_\w+)',s,re.M):
        th.setdefault('C'+m.group(2),[]).append('Verif.Props.'+m.group(1))
exec(open('/tmp/gen/notes.py').read())
claims=[]
for p in props:
    if p in th:
        claims.append(dict(property=p,status=STATUS.get(p,'proved'),theorems=th[p],note=NOTES.get(p,'')))
    else: print('no theorems',p)
json.dump({'claims':claims},open('MANIFEST.json','w'),indent=1)
print(len(claims))
