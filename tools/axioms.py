#!/usr/bin/env python3
"""Writes AXIOMS.md: the axioms each theorem of MANIFEST.json depends on, as Lean's `#print axioms` reports them.
Run after `lake build` in lean/."""
import json, os, re, subprocess, tempfile
ROOT = os.path.dirname(os.path.dirname(os.path.abspath(__file__)))
manifest = json.load(open(ROOT + '/MANIFEST.json'))
names = [t for c in manifest['claims'] for t in c['theorems']]
with tempfile.NamedTemporaryFile('w', suffix='.lean', delete=False) as f:
    f.write('import Verif\n' + ''.join('#print axioms %s\n' % n for n in names))
out = subprocess.run(['lake', 'env', 'lean', f.name], cwd=ROOT + '/lean', capture_output=True, text=True).stdout
ax = {}
for m in re.finditer(r"'(\S+?)' (does not depend on any axioms|depends on axioms: \[([^\]]*)\])", out):
    ax[m.group(1)] = m.group(3) or ''
groups = {}
for n in names:
    groups.setdefault(re.sub(r'\s+', ' ', ax[n]), []).append(n)
with open(ROOT + '/AXIOMS.md', 'w') as g:
    g.write('# Axioms\n\nGenerated by `tools/axioms.py` from `#print axioms`. No theorem uses any other axiom.\n')
    for k in sorted(groups, key=len):
        g.write('\n## %s (%d theorems)\n\n' % (k or 'none', len(groups[k])))
        for n in groups[k]:
            g.write('* `%s`\n' % n)
print({k or 'none': len(v) for k, v in groups.items()})
