#!/usr/bin/env python3
"""Seeded-bug check.  Reads a JSON list of mutations from a file:
  {"file": "Model/X.lean", "def": "name", "old": "...", "new": "...", "claim": "...", "props": ["Props/X.lean"]}
For each, builds one concatenated Lean file (model, spec, lemmas, props, with the edit applied) in a
scratch directory, and reports which property theorems no longer have a complete proof.
Appends one line per mutation to seeded/LOG.jsonl unless --dry is given."""
import json, os, re, subprocess, sys
root = os.path.dirname(os.path.dirname(os.path.abspath(__file__)))
lean = root + '/lean'
def closure(rel, seen, order, ext):
    if rel in seen: return
    seen.add(rel)
    src = open(lean + '/Verif/' + rel).read()
    for m in re.finditer(r'^import (\S+)', src, re.M):
        n = m.group(1)
        if n.startswith('Verif.'): closure(n[6:].replace('.', '/') + '.lean', seen, order, ext)
        elif n not in ext: ext.append(n)
    order.append(rel)
def names(rel):
    ns, out = [], []
    for line in open(lean + '/Verif/' + rel):
        m = re.match(r'namespace (\S+)', line)
        if m: ns.append(m.group(1))
        m = re.match(r'end (\S+)', line)
        if m and ns and ns[-1] == m.group(1): ns.pop()
        m = re.match(r'theorem (C\d\d+_\S+)', line)
        if m: out.append('.'.join(ns + [m.group(1)]))
    return out
def run(mu):
    seen, order, ext = set(), [], []
    for p in mu['props']: closure(p, seen, order, ext)
    # files that do not depend on the mutated one are imported as compiled modules
    def deps(rel, acc):
        for m in re.finditer(r'^import Verif\.(\S+)', open(lean + '/Verif/' + rel).read(), re.M):
            r = m.group(1).replace('.', '/') + '.lean'
            if r not in acc: acc.add(r); deps(r, acc)
        return acc
    target = mu.get('file')
    affected = [r for r in order if r == target or target in deps(r, set())]
    ext = ext + ['Verif.' + r[:-5].replace('/', '.') for r in order if r not in affected]
    body, hit = [], 0
    for rel in affected:
        src = open(lean + '/Verif/' + rel).read()
        if target == rel:
            hit = src.count(mu['old'])
            if hit != 1: return None, 'pattern found %d times' % hit
            src = src.replace(mu['old'], mu['new'])
        src = re.sub(r'^import .*$', '', src, flags=re.M)
        body.append('section\n' + src + '\nend\n')
    allp = [n for p in mu['props'] for n in names(p)]
    txt = ''.join('import %s\n' % e for e in ext) + '\n'.join(body)
    for n in allp: txt += '#print axioms %s\n' % n
    os.makedirs('/tmp/mut', exist_ok=True)
    open('/tmp/mut/M%d.lean' % os.getpid(), 'w').write(txt)
    r = subprocess.run(['lake', 'env', 'lean', '/tmp/mut/M%d.lean' % os.getpid()], cwd=lean, capture_output=True, text=True)
    out = r.stdout + r.stderr
    open('/tmp/mut/out%d.txt' % os.getpid(), 'w').write(out)
    failed = []
    for n in allp:
        m = re.search(r"'%s' (depends on axioms: \[[^\]]*\]|does not depend)" % re.escape(n), out)
        # a lemma whose proof the kernel rejected is listed like an axiom
        used = set(re.split(r'[,\s]+', m.group(1).split('[')[1].rstrip(']').strip())) if m and '[' in m.group(1) else set()
        if not m or used - {'propext', 'Classical.choice', 'Quot.sound', ''}: failed.append(n)
    return failed, ''
def main():
    muts = json.load(open(sys.argv[1]))
    dry = '--dry' in sys.argv
    for mu in muts:
        failed, err = run(mu)
        if failed is None:
            print('ERROR', mu['def'], mu['old'], err); continue
        print('%-22s | %s -> %s | %s | FAILED %d: %s' % (mu['def'], mu['old'][:40].replace('\n', ' '), mu['new'][:40].replace('\n', ' '), mu['claim'][:60], len(failed), [f.split('.')[-1] for f in failed]), flush=True)
        if not dry and failed:
            rec = {'definition': mu['def'], 'edit': '%s  =>  %s' % (mu['old'], mu['new']), 'claim_broken': mu['claim'],
                   'theorems_failed': failed, 'theorems_tightened': mu.get('tightened', [])}
            open(root + '/seeded/LOG.jsonl', 'a').write(json.dumps(rec, ensure_ascii=False) + '\n')
main()
