#!/usr/bin/env python3
"""Mutation tests of the theorems (not part of the proofs).

usage: mut.py < spec.json    spec: list of {"file","definition","old","new","edit","claim","targets"}
A scratch copy of the Lean project (/tmp/mut/lean) is edited, the modules in `targets` (default: all)
are rebuilt, and the theorems whose proofs no longer check are listed.  One line per attempt is
appended to /verif/seeded/LOG.jsonl; `SURVIVED` on the screen means that everything still builds.
`NO VERDICT`: the build stopped without a failing proof (e.g. out of memory); not logged.
"""
import json, os, re, subprocess, sys
SRC = '/verif/lean'
DST = '/tmp/mut/lean'
os.makedirs('/tmp/mut', exist_ok=True)
subprocess.run(['rsync', '-a', '--delete', SRC + '/', DST + '/'], check=True) if subprocess.run(['which', 'rsync'], capture_output=True).returncode == 0 else subprocess.run('rm -rf %s && cp -a %s %s' % (DST, SRC, DST), shell=True, check=True)
specs = json.load(sys.stdin)
NAMES = [t for c in json.load(open('/verif/MANIFEST.json'))['claims'] for t in c['theorems']]

def tainted(path):
    """listed theorems of the broken file that rest on a lemma whose proof no longer checks"""
    src = open(os.path.join(DST, path)).read()
    here = [t for t in NAMES if re.search(r'(theorem|lemma)\s+(\S*\.)?' + re.escape(t.split('.')[-1]) + r'(?![\w\'])', src)]
    if not here: return []
    tmp = '/tmp/mut/probe.lean'
    open(tmp, 'w').write(src + '\n' + '\n'.join('#print axioms _root_.' + t for t in here) + '\n')
    out = subprocess.run(['lake', 'env', 'lean', tmp], cwd=DST, capture_output=True, text=True)
    if out.returncode not in (0, 1): return []  # stopped from outside (memory): says nothing
    txt = out.stdout + out.stderr
    good = set(re.findall(r"'(\S+)' does not depend on any axioms", txt))
    for n, ax in re.findall(r"'(\S+)' depends on axioms: \[([^\]]*)\]", txt):
        if 'sorryAx' not in ax: good.add(n)
    return [t.split('.')[-1] for t in here if t not in good]

for m in specs:
    f = os.path.join(DST, 'Verif', m['file'])
    orig = open(f).read()
    if orig.count(m['old']) < 1:
        print('NOT FOUND', m['file'], m['old']); continue
    open(f, 'w').write(orig.replace(m['old'], m['new'], m.get('count', 1)))
    tg = m.get('targets', [])
    out = subprocess.run(['lake', 'build'] + tg, cwd=DST, capture_output=True, text=True)
    txt = out.stdout + out.stderr
    failed = []
    deffail = False
    for path, line in re.findall(r'error: (Verif/[^:\s]+\.lean):(\d+):', txt):
        ls = open(os.path.join(DST, path)).read().split('\n')
        for i in range(int(line) - 1, -1, -1):
            k = re.match(r'\s*(?:noncomputable |private |protected )*(theorem|lemma|def|structure|example|instance|abbrev)\b\s*([^\s:({\[]*)', ls[i])
            if k:
                nm = k.group(2) if k.group(1) != 'example' else 'example (%s)' % os.path.basename(path)
                if k.group(1) in ('def', 'structure', 'abbrev'): deffail = True
                if nm not in failed: failed.append(nm)
                break
    if failed and not deffail:
        for path in dict.fromkeys(p for p, _ in re.findall(r'error: (Verif/[^:\s]+\.lean):(\d+):', txt)):
            failed += [t for t in tainted(path) if t not in failed]
    open(f, 'w').write(orig)
    status = 'SURVIVED' if out.returncode == 0 else ('DEFINITION BROKEN' if deffail else ('killed' if failed else 'NO VERDICT'))
    print(status, '|', m['definition'], '|', m['edit'], '|', failed[:12], flush=True)
    if deffail or (out.returncode != 0 and not failed):
        print(txt[-1500:]); continue
    rec = {'definition': m['definition'], 'edit': m['edit'], 'claim_broken': m['claim'],
           'theorems_failed': failed, 'theorems_tightened': m.get('tightened', [])}
    if out.returncode == 0:
        rec['note'] = m.get('note', 'survived; to be tightened')
    with open('/verif/seeded/LOG.jsonl', 'a') as g: g.write(json.dumps(rec) + '\n')
