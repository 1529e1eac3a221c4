#!/usr/bin/env python3
"""Writes MANIFEST.json from tools/claims.txt:  one line per property
Cnn | status | note      (theorems = every theorem in lean/Verif/Props whose name starts with Cnn_)"""
import json, re, glob, os
root = os.path.dirname(os.path.dirname(os.path.abspath(__file__)))
thms = {}
for f in sorted(glob.glob(root + '/lean/Verif/Props/*.lean')):
    ns = []
    for line in open(f):
        m = re.match(r'namespace (\S+)', line)
        if m: ns.append(m.group(1))
        m = re.match(r'end (\S+)', line)
        if m and ns and ns[-1] == m.group(1): ns.pop()
        m = re.match(r'(?:@\[[^\]]*\] )?theorem (C\d\d_\S+)', line)
        if m:
            thms.setdefault(m.group(1)[:3], []).append('.'.join(ns + [m.group(1)]))
claims = []
for line in open(root + '/tools/claims.txt'):
    line = line.strip()
    if not line or line.startswith('#'): continue
    pid, status, note = [x.strip() for x in line.split('|', 2)]
    claims.append({"property": pid, "status": status, "theorems": thms.get(pid, []), "note": note})
    if status != 'not_applicable' and not thms.get(pid): print('WARNING no theorem for', pid)
ids = [json.loads(l)['id'] for l in open(root + '/properties.jsonl')]
done = {c['property'] for c in claims}
for i in ids:
    if i not in done: print('missing claim', i)
json.dump({"claims": claims}, open(root + '/MANIFEST.json', 'w'), indent=1)
print(len(claims), 'claims', sum(len(c['theorems']) for c in claims), 'theorems')
