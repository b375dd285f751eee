import json,glob
T={'m025':['c53_floor','c53_floor_finite (new); retried as n001, fails c53_floor'],'m053':['c48_all_orders (new); retried in batch 2'],'m054':['c49_cut (new); retried in batch 2']}
import os
if os.path.exists('/tmp/mut/tight.json'): T.update(json.load(open('/tmp/mut/tight.json')))
out=[]
for f in sorted(glob.glob('/tmp/mut/r*.jsonl')):
    for l in open(f):
        x=json.loads(l)
        out.append(dict(id=x['id'],definition=x['file']+': '+x['definition'],edit=x['old']+'  ->  '+x['new'],breaks=x['claim'],theorems_failed=x['failed'],survived=x['survived'],tightened=T.get(x['id'],[])))
N={'auA009':'no change of meaning','auA010':'only the kind of error changes','auA028':'only the kind of error changes','auA031':'default of an index that is always present','auA038':'no change of meaning','auA042':'default value that no caller in the model uses','auA045':'cells of absent samples, multiplied by a zero yield','auA047':'no change of meaning','auA052':'only the kind of error changes','auA064':'POI without initial value (rejected by numpy before)','auA068':'no change of meaning','auA071':'no change of meaning','auA077':'only the kind of error changes','auA097':'only the kind of error changes','auA105':'no change of meaning','auA127':'the case c = 0 is excluded before','auA138':'default value that no caller in the model uses','auA141':'default value that no caller in the model uses','auA147':'no change of meaning','auA177':'default of an index that is always present','auA183':'no change of meaning','auA187':'only the kind of error changes','auA191':'no change of meaning','auA194':'only the kind of error changes','auA195':'value at zero expected yield, where the NLL is infinite'}
N.update(json.load(open('/tmp/mut2/notes.json')) if os.path.exists('/tmp/mut2/notes.json') else {})
for f in sorted(glob.glob('/tmp/mut2/ra*.jsonl')):
    for l in open(f):
        x=json.loads(l)
        if not x['survived'] and all(t.startswith('Model/') for t in x['failed']): continue
        tt=T.get(x['id'],[])
        if x['survived'] and not tt and x['id'] in N: tt=['none needed: '+N[x['id']]]
        out.append(dict(id=x['id'],definition=x['file']+': '+x['definition'],edit=x['old'].strip()+'  ->  '+x['new'].strip(),breaks='automatic edit of the definition',theorems_failed=x['failed'],survived=x['survived'],tightened=tt))
open('/verif/seeded/LOG.jsonl','w').write(''.join(json.dumps(o)+'\n' for o in out))
print(len(out),[o['id'] for o in out if o['survived'] and not o['tightened']])
