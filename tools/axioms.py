#!/usr/bin/env python3
"""Rewrites the axiom list at the end of DESIGN.md (after tools/manifest.py and lake build)."""
import os, re, subprocess
V = os.path.dirname(os.path.dirname(os.path.abspath(__file__)))
out = subprocess.run('lake env lean /tmp/Axioms.lean', shell=True, cwd=V + '/lean',
                     capture_output=True, text=True).stdout
by = {}
for name, ax in re.findall(r"'CP\.(\S+)' (?:depends on axioms: \[([^\]]*)\]|does not depend on any axioms)", out):
    by.setdefault(re.sub(r'\s+', ' ', ax) or 'none', []).append(name)
assert set(x for k in by for x in k.split(', ')) <= {'propext', 'Classical.choice', 'Quot.sound', 'none'}, by
mark = '## Axioms per theorem\n'
s = open(V + '/DESIGN.md').read()
s = s[:s.index(mark)] if mark in s else s.rstrip() + '\n\n'
s += mark + '\nFrom `#print axioms` (names are in the namespace `CP`).\n'
for k in sorted(by):
    s += '\n* %s: %s.\n' % (k, ', '.join('`%s`' % n for n in by[k]))
open(V + '/DESIGN.md', 'w').write(s)
print({k: len(v) for k, v in by.items()})
