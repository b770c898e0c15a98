"""Regenerates MANIFEST.json. Theorems are collected by the prefix cNN_ from lean/Verif/Props."""
import json, re, glob
STATUS = {}   # property -> (status, note)
exec(open('/verif/tools/status.py').read())
names = {}
for f in sorted(glob.glob('/verif/lean/Verif/Props/*.lean')):
    ns = []
    for line in open(f):
        m = re.match(r'namespace (\S+)', line)
        if m: ns.append(m.group(1))
        m = re.match(r'end (\S+)', line)
        if m and ns and ns[-1] == m.group(1): ns.pop()
        m = re.match(r'(?:@\[[^\]]*\] )?theorem (c(\d\d)_\S+)', line)
        if m: names.setdefault('C'+m.group(2), []).append('.'.join(ns+[m.group(1)]))
claims = []
for l in open('/verif/properties.jsonl'):
    p = json.loads(l)['id']
    if p in STATUS:
        st, note = STATUS[p]
        claims.append(dict(property=p, status=st, theorems=names.get(p, []), note=note))
json.dump({"claims": claims}, open('/verif/MANIFEST.json','w'), indent=1, ensure_ascii=False)
print(len(claims), 'claims;', sum(len(c['theorems']) for c in claims), 'theorems; without status:', [p for p in sorted(names) if p not in STATUS])
