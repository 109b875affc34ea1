#!/usr/bin/env python3
"""append the results of mutation runs (*.res.jsonl) to seeded/LOG.jsonl; usage: gen_log.py results.jsonl [notes.json]"""
import json, sys
notes = json.load(open(sys.argv[2])) if len(sys.argv) > 2 else {}
out = open('/verif/seeded/LOG.jsonl', 'a')
for l in open(sys.argv[1]):
    r = json.loads(l)
    n = notes.get(str(r['idx']), {})
    out.write(json.dumps({
        'definition': f"Verif/Model/{r['file']}.lean: {r['definition']}",
        'edit': f"replace `{r['old']}` by `{r['new']}`",
        'claim': (r['claim'] if r['claim'] != '-' else 'a variation, no single claim in mind') + (f" ({', '.join(r['props'])})" if r['props'] else ''),
        'failed': [x.split(':')[-1] for x in r['failed']],
        'property_theorems_lost': [x.replace('Oelint.', '') for x in r['aff']],
        'tightened': n.get('tightened', []),
        **({'note': n['note']} if 'note' in n else {})}, ensure_ascii=False) + '\n')
