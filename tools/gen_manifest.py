#!/usr/bin/env python3
"""Regenerates MANIFEST.json from the property theorems in lean/Verif/**/Props*.lean.

A property is `partial` when one of its theorems is named `..._partial` or when a witness of a violation exists, unless
tools/status.json overrides it; notes come from tools/status.json as well."""
import json, os, re
root = os.path.dirname(os.path.dirname(os.path.abspath(__file__)))
status = json.load(open(os.path.join(root, 'tools', 'status.json')))
thms = {}
for d, _, fs in os.walk(os.path.join(root, 'lean', 'Verif')):
    for f in sorted(fs):
        if not f.endswith('.lean'):
            continue
        ns = []
        for line in open(os.path.join(d, f)):
            m = re.match(r'namespace (\S+)', line)
            if m:
                ns.append(m.group(1))
            m = re.match(r'end (\S+)', line)
            if m and ns and ns[-1] == m.group(1):
                ns.pop()
            m = re.match(r'(?:protected )?theorem (C\d+)_(\S+)', line)
            if m:
                thms.setdefault(m.group(1), []).append('.'.join(ns + [m.group(1) + '_' + m.group(2)]))
claims = []
for line in open(os.path.join(root, 'properties.jsonl')):
    if not line.strip():
        continue
    pid = json.loads(line)['id']
    st = status.get(pid, {})
    ts = sorted(thms.pop(pid, []))
    if ts:
        auto = 'partial' if any(t.endswith('_partial') or 'witness' in t or 'negation' in t for t in ts) else 'proved'
        claims.append({'property': pid, 'status': st.get('status', auto), 'theorems': ts, 'note': st.get('note', '')})
    elif st:
        claims.append({'property': pid, 'status': st.get('status', 'not_applicable'), 'theorems': [], 'note': st.get('note', '')})
for pid in thms:
    print('no such property:', pid, thms[pid])
json.dump({'claims': claims}, open(os.path.join(root, 'MANIFEST.json'), 'w'), indent=1, ensure_ascii=False)
open(os.path.join(root, 'MANIFEST.json'), 'a').write('\n')
print(len(claims), 'claims,', sum(len(c['theorems']) for c in claims), 'theorems')
