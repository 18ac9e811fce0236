#!/usr/bin/env python3
"""Regenerate MANIFEST.json: theorems named Cnn_* in lean/Verif/Props are claimed
for property Cnn.  Statuses and notes come from tools/status.json."""
import json, re, glob, os
root = os.path.join(os.path.dirname(os.path.abspath(__file__)), '..')
thms = {}
for f in sorted(glob.glob(root + '/lean/Verif/Props/**/*.lean', recursive=True)):
    ns = []
    for line in open(f):
        m = re.match(r'namespace\s+(\S+)', line)
        if m: ns.append(m.group(1))
        m = re.match(r'end\s+(\S+)\s*$', line)
        if m and ns and ns[-1] == m.group(1): ns.pop()
        m = re.match(r'(?:@\[[^\]]*\]\s*)?theorem\s+(C\d\d+\w*)', line)
        if m: thms.setdefault(re.match(r'C\d+', m.group(1)).group(0), []).append('.'.join(ns + [m.group(1)]))
st = json.load(open(root + '/tools/status.json'))
claims = []
for line in open(root + '/properties.jsonl'):
    pid = json.loads(line)['id']
    t = thms.get(pid, [])
    s = st.get(pid)
    if s and s[0] == 'not_applicable':
        claims.append({'property': pid, 'status': s[0], 'theorems': [], 'note': s[1]})
    elif s and t:
        claims.append({'property': pid, 'status': s[0], 'theorems': t, 'note': s[1]})
    elif t:
        print('no status for', pid)
json.dump({'claims': claims}, open(root + '/MANIFEST.json', 'w'), indent=1)
print(len(claims), 'claims', sum(len(c['theorems']) for c in claims), 'theorems')
