#!/usr/bin/env python3
"""Appends the results of tools/mutate.py (/tmp/mut/out.jsonl) to seeded/LOG.jsonl (entries already there are skipped)."""
import json, os
L='/verif/seeded/LOG.jsonl'
os.makedirs('/verif/seeded',exist_ok=True)
have=set(json.loads(l)['id'] for l in open(L)) if os.path.exists(L) else set()
with open(L,'a') as f:
    for l in open('/tmp/mut/out.jsonl'):
        d=json.loads(l)
        if 'error' in d or d['id'] in have: continue
        have.add(d['id'])
        ed=d.get('edits')
        f.write(json.dumps({"id":d['id'],"definition":d['def'],"file":d.get('file') or ed[0]['file'],"edit":d['edit'],
          "old":d.get('old') or [e['old'] for e in ed],"new":d['new'] if 'new' in d else [e['new'] for e in ed],"claim_broken":d['claim'],
          "lemmas_broken_directly":d['broken'],"theorems_failed":d['failed'],
          "theorems_about_it_still_true":d['survived'],"theorems_tightened":d.get('tightened',[]),"note":d.get('note',"the surviving theorems state facts that remain true of the edited program")},ensure_ascii=False)+"\n")
