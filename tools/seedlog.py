"""Append the results of a mutation run (out*.jsonl of the runner) to seeded/LOG.jsonl."""
import json,sys
src=sys.argv[1]; tight=json.load(open(sys.argv[2])) if len(sys.argv)>2 else {}
for l in open(src):
    r=json.loads(l)
    print(json.dumps(dict(definition=r['def'],file='lean/Verif/'+r['file'],edit=f"{r['old']}  ==>  {r['new']}",claim_broken=r['claim'],
      theorems_failed=r['failed'],theorems_tightened=tight.get(r['def']+'|'+r['new'],[]),
      note=tight.get('note:'+r['def']+'|'+r['new'], 'build stops at the first failing modules; theorems downstream of them are not reached' if r['failed'] else 'survived')),ensure_ascii=False))
