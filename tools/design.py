import json
from plan import PLAN
m={c['property']:c for c in json.load(open('/verif/MANIFEST.json'))['claims']}
ps=[json.loads(l) for l in open('/verif/properties.jsonl')]
ps.sort(key=lambda d:d['id'])
o=open('/tmp/gen/design_head.md').read()
o+='## Plan and result per property\n\n| id | property | what is modelled, how it is proved | status | theorems |\n|---|---|---|---|---|\n'
for d in ps:
    i=d['id']; c=m[i]
    assert i in PLAN, i
    note=(' *Scope:* '+c['note']) if c['note'] else ''
    o+=f"| {i} | {d['title']} | {PLAN[i]}.{note} | {c['status']} | {', '.join('`'+t.split('.')[-1]+'`' for t in c['theorems'])} |\n".replace('~','\\~')
o+=open('/tmp/gen/design_tail.md').read()
open('/verif/DESIGN.md','w').write(o)
