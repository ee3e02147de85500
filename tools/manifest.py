#!/usr/bin/env python3
"""Generate MANIFEST.json: theorem names are collected from the Props modules by prefix; statuses and notes are below."""
import re, json, glob, os
root = os.path.dirname(os.path.dirname(os.path.abspath(__file__)))
names = {}
for f in sorted(glob.glob(root + '/lean/Verif/Props/*.lean')):
    src = open(f).read()
    for m in re.finditer(r'^theorem (C\d+)(_\S+)', src, re.M):
        stack = []
        for k, n in re.findall(r'^(namespace|end) (\S+)', src[:m.start()], re.M):
            if k == 'namespace':
                stack.append(n)
            elif stack and stack[-1] == n:
                stack.pop()
        ns = '.'.join(stack)
        names.setdefault(m.group(1), []).append(f'{ns}.{m.group(1)}{m.group(2)}')
notes = json.load(open(root + '/tools/notes.json'))
claims = []
for l in open(root + '/properties.jsonl'):
    pid = json.loads(l)['id']
    if pid in notes and (pid in names or notes[pid]['status'] == 'not_applicable'):
        claims.append({'property': pid, 'status': notes[pid]['status'], 'theorems': names.get(pid, []), 'note': notes[pid]['note']})
json.dump({'claims': claims}, open(root + '/MANIFEST.json', 'w'), indent=1, ensure_ascii=False)
print(len(claims), 'claims;', 'theorems without note:', sorted(set(names) - set(notes)))
