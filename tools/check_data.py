"""Compares the constants copied into the model with the literals in /repo (a test of the transcription, not a proof).
Reads both as text: the Python sources are parsed with `ast` and never executed."""
import ast, re, sys

REPO, LEAN = '/repo/pymorphy2/', '/verif/lean/Verif/Model/'
bad = 0


def assigned(path, name, cls=None):
    tree = ast.parse(open(REPO + path, encoding='utf8').read())
    body = tree.body
    if cls:
        body = next(n for n in body if isinstance(n, ast.ClassDef) and n.name == cls).body
    return [n.value for n in body if isinstance(n, ast.Assign) and any(getattr(t, 'id', None) == name for t in n.targets)][-1]


def literal(path, name, cls=None):
    v = assigned(path, name, cls)
    if isinstance(v, ast.Call):  # frozenset([...]), set([...])
        v = v.args[0]
    return ast.literal_eval(v)


def lean(path, name):
    s = open(LEAN + path, encoding='utf8').read()
    m = re.search(r'^def %s\b.*?(?=^/--|^def |^end |\Z)' % re.escape(name), s, re.M | re.S)
    return re.findall(r'c!"((?:[^"\\]|\\.)*)"', m.group(0))


def check(what, a, b):
    global bad
    ok = a == b
    bad += not ok
    print('ok  ' if ok else 'DIFF', what, len(a))


for lang in ('ru', 'uk'):
    cfg = 'lang/%s/config.py' % lang
    check(lang + ' initials', list(literal(cfg, 'INITIAL_LETTERS')), lean('LangData.lean', lang + 'InitialLetters'))
    check(lang + ' particles', literal(cfg, 'PARTICLES_AFTER_HYPHEN'), lean('LangData.lean', lang + 'Particles'))
    sub = literal(cfg, 'CHAR_SUBSTITUTES')
    src = open(LEAN + 'LangData.lean', encoding='utf8').read()
    m = re.search(r"def %sSubst .*if c = '(.)' then \['(.)'\] else \[\]" % lang, src)
    check(lang + ' substitutes', sub, {m.group(1): m.group(2)})
check('ru prefixes', literal('lang/ru/config.py', 'KNOWN_PREFIXES'), lean('LangData.lean', 'ruKnownPrefixes'))

# uk: the value of two comprehensions over literals
tree = ast.parse(open(REPO + 'lang/uk/_prefixes.py', encoding='utf8').read())
env = {}
for n in tree.body:
    if isinstance(n, ast.Assign):
        env[n.targets[0].id] = n.value
    if isinstance(n, ast.AugAssign):
        env[n.target.id + '+'] = n.value
dash = ast.literal_eval(env['_DASH_PREFIXES'].func.value if isinstance(env['_DASH_PREFIXES'], ast.Call) else env['_DASH_PREFIXES'])
lists = [x for v in env.values() for x in ast.walk(v) if isinstance(x, ast.List)]
extra = ast.literal_eval(max(lists, key=lambda l: len(l.elts)))
known1 = [line.strip() + '-' for line in dash.splitlines() if line.strip()]
known = known1 + [p for p in extra if p not in set(known1)]
check('uk prefixes', known, lean('LangData.lean', 'ukKnownPrefixes'))

for name in ('PARTS_OF_SPEECH', 'ANIMACY', 'GENDERS', 'NUMBERS', 'CASES', 'ASPECTS', 'TRANSITIVITY', 'PERSONS', 'TENSES', 'MOODS', 'VOICES', 'INVOLVEMENT'):
    check(name, set(literal('tagset.py', name, 'OpencorporaTag')), set(lean('Tag.lean', name)))
check('NON_PRODUCTIVE', set(literal('tagset.py', '_NON_PRODUCTIVE_GRAMMEMES', 'OpencorporaTag')), set(lean('Tag.lean', 'NON_PRODUCTIVE')))
rare = literal('tagset.py', 'RARE_CASES', 'OpencorporaTag')
l = lean('Tag.lean', 'RARE_CASES')
check('RARE_CASES', rare, dict(zip(l[::2], l[1::2])))
sys.exit(bad)
