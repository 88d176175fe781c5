#!/usr/bin/env python3
"""Rewrites the axiom table at the end of DESIGN.md (after `lake build`)."""
import os, re, subprocess, collections
root = os.path.dirname(os.path.dirname(os.path.abspath(__file__)))
import tempfile
t = tempfile.mkdtemp(); p = os.path.join(t, 'A.lean')
open(p, 'w').write(open(os.path.join(root, 'tools', 'Axioms.lean.txt')).read())
out = subprocess.run(['lake', 'env', 'lean', '--run', p, 'Verif'], cwd=os.path.join(root, 'lean'), capture_output=True, text=True)
assert out.returncode == 0, out.stderr
groups = collections.defaultdict(list)
for l in out.stdout.splitlines():
    n, ax = l.split(' ', 1)
    if re.match(r'GeNSIT\.C\d+_', n) and '.' not in n[len('GeNSIT.'):]:
        groups[', '.join(sorted(x.strip() for x in ax.strip('[]').split(',') if x.strip()))].append(n[len('GeNSIT.'):])
s = open(os.path.join(root, 'DESIGN.md')).read()
mark = '<!-- axioms -->'
s = s[:s.index(mark) + len(mark)] + '\n\n'
for k in sorted(groups, key=lambda k: k.count(',') + bool(k)):
    s += '* **%s** (%d): %s\n\n' % (k or 'no axioms', len(groups[k]), ', '.join(sorted(groups[k], key=lambda x: (int(re.match(r'C(\d+)', x).group(1)), x))))
open(os.path.join(root, 'DESIGN.md'), 'w').write(s)
print({k: len(v) for k, v in groups.items()})
