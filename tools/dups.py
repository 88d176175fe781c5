#!/usr/bin/env python3
"""Lists declaration names used in more than one module (they would clash when everything is imported)."""
import re, glob, collections
d = collections.defaultdict(set)
for f in glob.glob('/verif/lean/Verif/**/*.lean', recursive=True):
    ns = []
    for l in open(f):
        m = re.match(r'namespace (\S+)', l)
        if m: ns.append(m.group(1))
        m = re.match(r'end (\S+)', l)
        if m and ns and ns[-1] == m.group(1): ns.pop()
        m = re.match(r'(?:@\[[^\]]*\] *)?(?:noncomputable )?(?:theorem|def|abbrev|inductive|structure|lemma|instance) ([^\s:({\[]+)', l)
        if m: d['.'.join(ns) + '.' + m.group(1)].add(f)
for k, v in d.items():
    if len(v) > 1: print(k, sorted(v))
