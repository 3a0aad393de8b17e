#!/usr/bin/env python3
"""Writes lean/Verif/Audit.lean: for every theorem of the manifest, the axioms it depends on, checked by the build.
Run from /verif after `lake build` and tools/manifest.py."""
import json, re, subprocess, os
thms = []
for c in json.load(open('MANIFEST.json'))['claims']:
    for t in c['theorems']:
        if t not in thms:
            thms.append(t)
mods = [l for l in open('lean/Verif.lean').read().split('\n') if l.startswith('import') and 'Audit' not in l]
tmp = '/tmp/audit_tmp.lean'
open(tmp, 'w').write('\n'.join(mods) + '\n' + ''.join('#print axioms %s\n' % t for t in thms))
out = subprocess.run(['lake', 'env', 'lean', tmp], cwd='lean', capture_output=True, text=True).stdout
out = re.sub(r'^\S*audit_tmp\.lean:\d+:\d+: info: ', '', out, flags=re.M)
ax = {}
for m in re.finditer(r"^'([^']+(?:'[^' ]*)*)' (does not depend on any axioms|depends on axioms: \[[^\]]*\])", out, re.M):
    ax[m.group(1)] = re.sub(r'\s+', ' ', m.group(2))
missing = [t for t in thms if t not in ax]
assert not missing, missing
allowed = {'propext', 'Classical.choice', 'Quot.sound'}
for t in thms:
    m = re.search(r'\[(.*)\]', ax[t])
    assert not m or set(m.group(1).split(', ')) <= allowed, (t, ax[t])
s = '\n'.join(mods) + '''

/-! The axioms each theorem of the manifest depends on: the build fails if one of them changes.  Written by tools/audit.py. -/

set_option linter.style.longLine false

'''
s = s.replace("set_option linter.style.longLine false\n\n", "")
for t in thms:
    s += "/-- info: '%s' %s -/\n#guard_msgs (whitespace := lax) in\n#print axioms %s\n\n" % (t, ax[t], t)
open('lean/Verif/Audit.lean', 'w').write(s.rstrip('\n') + '\n')
from collections import Counter
print(Counter(ax[t] for t in thms))
