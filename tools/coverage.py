#!/usr/bin/env python3
"""Print, for every source file of /repo, the line ranges that no definition of the model cites."""
import re, glob, collections
cov = collections.defaultdict(set)
for f in sorted(glob.glob('/verif/lean/Verif/**/*.lean', recursive=True)):
    last = None
    for line in open(f):
        for m in re.finditer(r'(src/[a-z0-9_]+\.(?:cpp|hpp))(?::([0-9,\- ]+))?', line):
            last = m.group(1)
            if m.group(2):
                for r in re.findall(r'(\d+)(?:-(\d+))?', m.group(2)):
                    a = int(r[0]); b = int(r[1] or r[0])
                    cov[last].update(range(a, b + 1))
        if 'Counter.lean' in f:
            for r in re.findall(r'\((\d+)-(\d+)(?:, (\d+)-(\d+))?\)', line):
                cov['src/counter.cpp'].update(range(int(r[0]), int(r[1]) + 1))
                if r[2]: cov['src/counter.cpp'].update(range(int(r[2]), int(r[3]) + 1))
for p in sorted(glob.glob('/repo/src/*.[ch]pp')):
    n = 'src/' + p.split('/')[-1]
    lines = open(p).read().split('\n')
    code = [i + 1 for i, l in enumerate(lines) if l.strip() and not l.strip().startswith('//') and not l.strip().startswith('#')]
    miss = [i for i in code if i not in cov[n]]
    rs = []
    for i in miss:
        if rs and i - rs[-1][1] <= 2: rs[-1][1] = i
        else: rs.append([i, i])
    print(f"{n}: {len(code) - len(miss)}/{len(code)} lines cited; not cited: " + ', '.join(f"{a}-{b}" if a != b else str(a) for a, b in rs))
