#!/usr/bin/env python3
"""Writes lean/Verif/Conformance/ToyDict.lean: /repo/dev_data/toy_dict.xml as a term of the model's type of XML elements."""
import os, sys
import xml.etree.ElementTree as ET
root = os.path.dirname(os.path.dirname(os.path.abspath(__file__)))
src = sys.argv[1] if len(sys.argv) > 1 else '/repo/dev_data/toy_dict.xml'
def s(t): return '(c!"%s")' % t.replace('\\', '\\\\').replace('"', '\\"').replace('\n', '\\n').replace('\t', '\\t')
def attrs(e): return '[' + ', '.join('(%s, %s)' % (s(k), s(v)) for k, v in e.attrib.items()) + ']'
def text(e): return 'none' if e.text is None else '(some %s)' % s(e.text)
def term(e, ind):
    if e.tag in ('g', 'f', 'l') and e.text is None:
        kids = ', '.join(term(c, ind) for c in e)
        if e.tag == 'g': return 'g %s' % s(e.attrib['v']) if list(e.attrib) == ['v'] and not kids else full(e, ind)
        if list(e.attrib) == ['t']: return '%s %s [%s]' % (e.tag, s(e.attrib['t']), kids)
    return full(e, ind)
def full(e, ind):
    kids = [('\n' + ' ' * (ind + 2)) + term(c, ind + 2) for c in e]
    return '.mk %s %s %s [%s]' % (s(e.tag), attrs(e), text(e), ','.join(kids))
doc = ET.parse(src).getroot()
defs = []
parts = []
for c in doc:
    kids = list(c)
    if c.tag in ('restrictions', 'link_types'):
        pass
    n = 0
    names = []
    for i in range(0, len(kids), 8):
        nm = '%s%d' % (c.tag.replace('_', ''), n); n += 1
        names.append(nm)
        defs.append('def %s : List Elem := [%s]\n' % (nm, ','.join('\n  ' + term(k, 2) for k in kids[i:i+8])))
    parts.append('\n  .mk %s %s %s (%s)' % (s(c.tag), attrs(c), text(c), ' ++ '.join(names)))
out = '''/-
/repo/dev_data/toy_dict.xml as an element of the model (generated by tools/toydict.py; the texts between child elements are left out).
-/
import Verif.Model.Xml

namespace Verif.ToyDict

/-- A grammeme of a lemma or of a form. -/
def g (v : Str) : Elem := .mk (c!"g") [(c!"v", v)] none []
/-- A form. -/
def f (t : Str) (gs : List Elem) : Elem := .mk (c!"f") [(c!"t", t)] none gs
/-- The head of a lemma. -/
def l (t : Str) (gs : List Elem) : Elem := .mk (c!"l") [(c!"t", t)] none gs

'''
out += '\n'.join(defs)
out += '\n/-- The document. -/\ndef doc : Elem := .mk %s %s %s [%s]\n' % (s(doc.tag), attrs(doc), text(doc), ','.join(parts))
out += '\nend Verif.ToyDict\n'
open(root + '/lean/Verif/Conformance/ToyDict.lean', 'w').write(out)
