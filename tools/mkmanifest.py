#!/usr/bin/env python3
"""Regenerate MANIFEST.json and lean/Verif/Axioms.lean from the theorem names in
lean/Verif/Props and the status notes in tools/notes.json."""
import glob, json, os, re
root = os.path.dirname(os.path.dirname(os.path.abspath(__file__)))
notes = json.load(open(root + '/tools/notes.json'))
thms = {}
mods = []
for p in sorted(glob.glob(root + '/lean/Verif/Props/**/*.lean', recursive=True)):
    mods.append(os.path.relpath(p, root + '/lean')[:-5].replace('/', '.'))
    ns = []
    for line in open(p):
        m = re.match(r'namespace (\S+)', line)
        if m: ns.append(m.group(1))
        m = re.match(r'end (\S+)', line)
        if m and ns and ns[-1] == m.group(1): ns.pop()
        m = re.match(r'theorem (C\d\d+)(_\S+)', line)
        if m: thms.setdefault(m.group(1), []).append('.'.join(ns + [m.group(1) + m.group(2)]))
claims = []
for line in open(root + '/properties.jsonl'):
    d = json.loads(line)
    i = d['id']
    if i in thms:
        n = notes.get(i, {})
        names = thms[i]
        st = n.get('status') or ('partial' if any('_partial' in x or '_violated' in x for x in names) else 'proved')
        claims.append({'property': i, 'status': st, 'theorems': names, 'note': n.get('note', '')})
    elif i in notes:
        claims.append({'property': i, 'status': notes[i]['status'], 'theorems': [], 'note': notes[i]['note']})
    else:
        print('no theorem yet for', i)
json.dump({'claims': claims}, open(root + '/MANIFEST.json', 'w'), indent=1, ensure_ascii=False)
with open(root + '/lean/Verif/Axioms.lean', 'w') as f:
    for m in mods: f.write('import %s\n' % m)
    f.write('/-\nAxioms of every property theorem (generated by tools/mkmanifest.py).\n'
            'Expected: at most propext, Classical.choice, Quot.sound.\n-/\n')
    for i in sorted(thms):
        for t in thms[i]: f.write('#print axioms %s\n' % t)
with open(root + '/lean/Verif.lean', 'w') as f:
    for m in mods: f.write('import %s\n' % m)
    f.write('import Verif.Axioms\n')
