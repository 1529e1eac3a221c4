#!/usr/bin/env python3
"""Append the results of a mutation run to seeded/LOG.jsonl.  usage: mutlog.py mutants.json results.out"""
import json, sys
M = {m['id']: m for m in json.load(open(sys.argv[1]))}
R = {}
for l in open(sys.argv[2]):
    r = json.loads(l); R[r['id']] = r
with open('/verif/seeded/LOG.jsonl', 'a') as f:
    for i, m in M.items():
        r = R.get(i)
        if not r or r['status'] != 'ok': continue
        f.write(json.dumps({'definition': f"{m['definition']} (lean/Verif/{m['file']})", 'edit': m['edit'],
            'claim': m['breaks'], 'theorems_failed': r['failed'],
            'theorems_tightened': m.get('tightened', [])}, ensure_ascii=False) + '\n')
