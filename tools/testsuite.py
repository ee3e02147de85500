"""Writes lean/Verif/Check/Test0.lean: the expectations of the repository's own tests (src/test0.cpp, test_homfa.sh), on the files of /repo/test,
as statements about the model."""
import re
T = '/repo/test/'


def text(name):
    s = open(T + name).read()
    return '"' + s.replace('\\', '\\\\').replace('"', '\\"').replace('\t', '\\t').replace('\n', '\\n') + '".toList'


def inp(name):
    b = open(T + name, 'rb').read()
    return b


def period(b):
    """b = pre ++ k copies of p ++ ... : greedy run-length coding with periods up to 10"""
    out = []
    i = 0
    while i < len(b):
        best = None
        for p in range(1, 11):
            k = 1
            while b[i + k * p:i + (k + 1) * p] == b[i:i + p]:
                k += 1
            if k > 1 and (best is None or k * p > best[0] * len(best[1])):
                best = (k, b[i:i + p])
        if best is None:
            best = (1, b[i:i + 1])
        out.append(best)
        i += best[0] * len(best[1])
    return out


def lean_bytes(b):
    parts = []
    for k, p in period(b):
        l = '[' + ', '.join('%d#8' % x for x in p) + ']'
        parts.append(l if k == 1 else '(List.replicate %d %s).flatten' % (k, l))
    return ' ++ '.join(parts)


src = open('/repo/src/test0.cpp').read()
out = ['''import Verif.Model.SpecTools
import Verif.Model.Ltl
import Verif.Model.Commands
/-!
# The repository's own tests, run on the model

Generated by tools/testsuite.py from src/test0.cpp, test_homfa.sh and the files of test/.  These are checks that the model agrees with the expectations
the authors of the code wrote down; they are evidence for the model, not proofs of properties.
-/

namespace Homfa.Check
''']
for i in ['01', '01_rev', '02', '03', '04', '05', '06', '07', '08', '09', '10']:
    out.append('/-- test/%s.spec -/\ndef spec%s : List Char := %s\n' % (i, i, text(i + '.spec')))
funs = re.split(r'\nvoid ', src)
n = 0
for f in funs:
    name = f.split('(')[0]
    if name not in ('test_graph_dump', 'test_graph_reversed', 'test_graph_minimized', 'test_negated'):
        continue
    out.append('/-! `%s` -/\n' % name)
    for m in re.finditer(r'from_file\("test/(\w+)\.spec"\)(.*?)expected_dump\(\{(.*?)\}\)', f, re.S):
        items = re.findall(r'"([^"]*)"', m.group(3))
        exp = ''.join('\\t'.join(items[j:j + 3]) + '\\n' for j in range(0, len(items), 3))
        op = {'test_graph_dump': 'pure g', 'test_graph_reversed': 'g.reversed', 'test_graph_minimized': 'g.minimized',
              'test_negated': 'g.negated'}[name]
        out.append('example : (do let g ← Graph.fromIstream spec%s; let g ← (%s : Res Graph); g.dump) =\n    .ok "%s".toList := by decide +kernel\n'
                   % (m.group(1), op, exp))
        n += 1
# monitors
mons = {
    '!F(p0 & Xp1)': ('{ out := [[(.node 0 .tt .ff, 0), (.node 0 .ff .tt, 1)], [(.node 0 (.node 1 .tt .ff) .ff, 0), (.node 0 .ff (.node 1 .tt .ff), 1)]], '
                     'init := 0, varOf := some }', 2),
    'G(p0 -> p1 W p2)': ('{ out := [[(.node 0 .tt (.node 2 .ff .tt), 0), (.node 0 .ff (.node 1 .ff (.node 2 .tt .ff)), 1)],\n'
                         '      [(.node 2 .ff .tt, 0), (.node 1 .ff (.node 2 .tt .ff), 1)]], init := 0, varOf := some }', 3),
    'G(p3 | p4 | (p0 & p1 & p2))': ('{ out := [[(.node 0 (.node 3 (.node 4 .ff .tt) .tt) (.node 1 (.node 3 (.node 4 .ff .tt) .tt) '
                                    '(.node 2 (.node 3 (.node 4 .ff .tt) .tt) .tt)), 0)]], init := 0, varOf := some }', 5),
    'G(p3 & p4)': ('{ out := [[(.node 3 .ff (.node 4 .ff .tt), 0)]], init := 0, varOf := some }', 5),
}
out.append('/-! `test_monitor`, with the monitors of the formulas written out (p0, p1, ... are the variables 0, 1, ...). -/\n')
for m in re.finditer(r'from_ltl_formula\(\s*"([^"]*)", (\d), false\)(.*?)expected_dump\(\{(.*?)\}\)', src, re.S):
    items = re.findall(r'"([^"]*)"', m.group(4))
    exp = ''.join('\\t'.join(items[j:j + 3]) + '\\n' for j in range(0, len(items), 3))
    mon, ap = mons[m.group(1)]
    assert ap == int(m.group(2))
    out.append('/-- %s -/\nexample : (do\n    let g ← Graph.fromMonitor %s %d false\n    g.dump) =\n    .ok "%s".toList := by decide +kernel\n' % (m.group(1), mon, ap, exp))
    n += 1
# test_homfa.sh
sh = open('/repo/test_homfa.sh').read()
out.append('/-! test_homfa.sh: `run plain` (the encrypted runs print the same by C36-C39). -/\n')
for m in re.finditer(r'check_(true|false)\s+dfa-plain (\d+) test/(\w+)\.spec test/([\w-]+)\.in', sh):
    b = inp(m.group(4) + '.in')
    out.append('/-- %s -/\nexample : doRunPlain spec%s (some (%s)) %s =\n    .ok [\'%s\'] := by decide +kernel\n'
               % (m.group(4) + '.in', m.group(3), lean_bytes(b), m.group(2), '1' if m.group(1) == 'true' else '0'))
    n += 1
out.append('/-- spec2att, att2spec: nine lines -/\nexample : (do let a ← doSpec2att spec01; let s ← doAtt2spec a; pure (s.count \'\\n\')) = (.ok 9 : Res Nat) := by decide +kernel\n')
out.append('end Homfa.Check\n')
open('/verif/lean/Verif/Check/Test0.lean', 'w').write('\n'.join(out))
print(n + 1, 'checks')
