#!/usr/bin/env python3
"""Consistency check for /verif (not part of the proofs).

* every property id appears in MANIFEST.json and vice versa;
* every theorem named in MANIFEST.json exists and depends only on the standard
  axioms (propext, Classical.choice, Quot.sound);
* every anchor in properties.jsonl exists in /repo;
* no forbidden word in the Lean sources.
"""
import json, os, re, subprocess, sys, tempfile

ROOT = os.path.dirname(os.path.dirname(os.path.abspath(__file__)))
LEAN = os.path.join(ROOT, 'lean')
bad = []
props = [json.loads(l) for l in open(os.path.join(ROOT, 'properties.jsonl')) if l.strip()]
man = json.load(open(os.path.join(ROOT, 'MANIFEST.json')))['claims']
pid = [p['id'] for p in props]
mid = [c['property'] for c in man]
if len(set(pid)) != len(pid): bad.append('duplicate property ids')
if len(set(mid)) != len(mid): bad.append('duplicate manifest ids')
if set(pid) != set(mid): bad.append('ids differ: %s' % (set(pid) ^ set(mid)))
for p in props:
    for k in ('id', 'title', 'statement', 'quantifier', 'why_tests_cant', 'anchors'):
        if not p.get(k): bad.append('%s lacks %s' % (p['id'], k))
    for a in p['anchors']:
        f, s = a.split(':', 1)
        fp = os.path.join('/repo', f)
        if not os.path.exists(fp): bad.append('%s: no file %s' % (p['id'], f)); continue
        t = open(fp).read()
        if f.endswith('.cpp'):
            if s not in t: bad.append('%s: no symbol %s' % (p['id'], a))
            continue
        for part in s.split('.'):
            if not re.search(r'(def|class) %s\b' % re.escape(part), t):
                bad.append('%s: no symbol %s' % (p['id'], a))
thms = []
for c in man:
    if c['status'] in ('proved', 'partial') and not c['theorems']:
        bad.append('%s has no theorems' % c['property'])
    thms += c['theorems']
for d, _, fs in os.walk(os.path.join(LEAN, 'Verif')):
    for f in fs:
        if f.endswith('.lean'):
            t = open(os.path.join(d, f)).read()
            for w in ('sorry', 'admit', 'native_decide', 'bv_decide', 'implemented_by', 'unsafe', 'maxHeartbeats 0'):
                if re.search(r'\b%s\b' % w, t): bad.append('%s contains %s' % (f, w))
            if re.search(r'^\s*(private\s+)?axiom\b', t, re.M): bad.append('%s declares an axiom' % f)
if '--no-lean' not in sys.argv:
    with tempfile.NamedTemporaryFile('w', suffix='.lean', delete=False) as fh:
        fh.write('import Verif\n')
        for t in sorted(set(thms)): fh.write('#print axioms %s\n' % t)
    out = subprocess.run(['lake', 'env', 'lean', fh.name], cwd=LEAN, capture_output=True, text=True).stdout
    os.unlink(fh.name)
    for m in re.finditer(r"error: (.*)", out): bad.append(m.group(1))
    for m in re.finditer(r"depends on axioms: \[([^\]]*)\]", out):
        for a in re.split(r',\s*', m.group(1).replace('\n', ' ').strip()):
            if a not in ('propext', 'Classical.choice', 'Quot.sound'): bad.append('axiom ' + a)
    n = len(re.findall(r"depends on axioms|does not depend", out))
    print('%d theorems checked of %d' % (n, len(set(thms))))
    if n != len(set(thms)): bad.append('some theorems not found')
print('\n'.join(bad) if bad else 'ok')
sys.exit(1 if bad else 0)
