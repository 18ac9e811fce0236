#!/usr/bin/env python3
"""Mutation testing of the theorems.

usage: mutate.py FILE.json    (list of {"file","old","new","definition","edit","claim"})

An entry may have "more": further edits of helper definitions in Proof/ that mirror the
model (loop relations), so that the mutation reaches the theorems that state the claim.

For each entry: copy lean/ to a scratch directory, apply the edit to the model, rebuild,
collect the declarations with errors, and list the property theorems whose proofs
(transitively) use one of them.  Prints one JSON line per entry; with -a appends to
seeded/LOG.jsonl.  With -q an entry is done as soon as a theorem of its claim has failed
(the list of theorems is then not complete).
"""
import json, os, re, subprocess, sys, shutil
ROOT = os.environ.get('MUT_ROOT', '/verif/lean')
SCR = '/tmp/mut/lean'
BASE = '/tmp/mut/base'  # copy of ROOT at the start
DEPS = '/tmp/mut/deps.json'

def deps():
    """name -> set of constants used, for all theorems of the project"""
    os.makedirs('/tmp/mut', exist_ok=True)
    src = '''import Verif
open Lean
run_cmd do
  let env ← getEnv
  let mut out : Array String := #[]
  for (n, c) in env.constants.map₁.toList do
    if let some idx := env.getModuleIdxFor? n then
      let m := env.header.moduleNames[idx.toNat]!
      if m.getRoot == `Verif then
        let used := (match c.value? (allowOpaque := true) with | some v => v.getUsedConstants | none => #[]) ++ c.type.getUsedConstants
        let used := used.filter fun u => match env.getModuleIdxFor? u with
          | some i => (env.header.moduleNames[i.toNat]!).getRoot == `Verif
          | none => false
        out := out.push s!"{n}\\t{m}\\t{" ".intercalate (used.toList.map toString)}"
  IO.FS.writeFile "/tmp/mut/deps.txt" ("\\n".intercalate out.toList)
'''
    open('/tmp/mut/deps.lean', 'w').write(src)
    subprocess.run(['lake', 'env', 'lean', '/tmp/mut/deps.lean'], cwd=ROOT, check=True)
    d = {}
    for l in open('/tmp/mut/deps.txt'):
        a = l.rstrip('\n').split('\t')
        d[a[0]] = a[2].split() if len(a) > 2 else []
    return d

def decl_at(path, line):
    ls = open(path).read().split('\n')
    ns = []
    name = None
    for i, l in enumerate(ls[:line]):
        m = re.match(r'namespace\s+(\S+)', l)
        if m: ns.append(m.group(1))
        m = re.match(r'end\s+(\S+)', l)
        if m and ns and ns[-1] == m.group(1): ns.pop()
        m = re.match(r'(?:@\[[^\]]*\]\s*)?(?:private |protected |noncomputable )*(theorem|def|inductive|structure|abbrev|instance|example)\b\s*([^\s:({\[]*)', l)
        if m:
            name = m.group(2) if m.group(1) != 'example' else 'example:%d' % (i + 1)
            if m.group(1) != 'example': name = '.'.join(ns + [name])
    return name

DECL = r'(?:@\[[^\]]*\]\s*)?(?:private |protected |noncomputable )*(theorem|def|inductive|structure|abbrev|instance|example)\b'

def decl_line(path, line):
    ls = open(path).read().split('\n')
    for i in range(line - 1, -1, -1):
        if re.match(DECL, ls[i]): return i
    return None

def close(spots):
    """replace the proofs that failed by sorry, in the scratch copy, so that the files that
    import them are checked too"""
    done = False
    for path in {p for p, _ in spots}:
        ls = open(path).read().split('\n')
        for _, i in sorted((s for s in spots if s[0] == path and s[1] is not None), reverse=True):
            if not re.match(DECL, ls[i]).group(1) in ('theorem', 'example'): continue
            j = i + 1
            while j < len(ls) and not re.match(r'[^\s|]', ls[j]): j += 1
            body = '\n'.join(ls[i:j])
            cut = body.find(':= by')
            if cut < 0: cut = body.find(':=\n')
            if cut < 0:
                m = re.search(r'\n *\| ', body)
                cut = m.start() if m else body.find(':=')
            if cut < 0: continue
            # keep the number of lines, so that positions stay valid
            ls[i:j] = (body[:cut] + ' := by sorry').split('\n') + [''] * (body.count('\n') - body[:cut].count('\n'))
            done = True
        open(path, 'w').write('\n'.join(ls))
    return done

def run(mut, d, quick=False):
    if os.path.exists(SCR): shutil.rmtree(SCR)
    subprocess.run(['cp', '-a', BASE, SCR], check=True)
    for e in [mut] + mut.get('more', []):
        p = os.path.join(SCR, e['file'])
        t = open(p).read()
        assert t.count(e['old']) >= 1, 'pattern not found: ' + e['old']
        t = t.replace(e['old'], e['new'], 1 if not e.get('all') else -1)
        open(p, 'w').write(t)
    failed = []
    stuck = set()
    for _ in range(12):
        r = subprocess.run(['lake', 'build'] + mut.get('targets', []), cwd=SCR, capture_output=True, text=True)
        errs = re.findall(r'^error: (Verif/\S+?\.lean):(\d+):\d+', r.stdout + r.stderr, re.M)
        if not errs:
            if r.returncode == 0: break
            sys.stderr.write('build failed without an error in a file:\n' + (r.stdout + r.stderr)[-2000:] + '\n')
            continue
        spots = set()
        for f, l in errs:
            path = os.path.join(SCR, f)
            n = decl_at(path, int(l))
            tag = n if n and not n.startswith('example') else f + ':' + str(n)
            if tag not in failed: failed.append(tag)
            spots.add((path, decl_line(path, int(l))))
        if quick and any(h.startswith('Tpl.Props.' + mut['claim'] + '_') for h in hits(failed, d)): break
        if spots <= stuck or not close(spots - stuck): break
        stuck |= spots
    return failed, hits(failed, d)

def hits(failed, d):
    """the property theorems that use one of the declarations"""
    fs = set(failed)
    props = [n for n in d if re.match(r'Tpl\.Props\.C\d+_', n) and '._' not in n and '.match' not in n]
    hit = []
    for pn in props:
        seen = set(); todo = [pn]
        while todo:
            x = todo.pop()
            if x in seen: continue
            seen.add(x)
            todo += d.get(x, [])
        base = {re.sub(r'\._.*|\.match_\d+.*|\.proof_\d+.*', '', x) for x in seen}
        if (seen | base) & fs: hit.append(pn)
    return sorted(set(hit))

def main():
    app = '-a' in sys.argv
    muts = json.load(open([a for a in sys.argv[1:] if a not in ('-a', '-q')][0]))
    subprocess.run(['lake', 'build'], cwd=ROOT, check=True, capture_output=True)
    d = deps()
    if os.path.exists(BASE): shutil.rmtree(BASE)
    subprocess.run(['cp', '-a', ROOT, BASE], check=True)
    for m in muts:
        failed, hit = run(m, d, '-q' in sys.argv)
        short = [h.replace('Tpl.Props.', '') for h in hit]
        rec = {'definition': m['definition'], 'edit': m['edit'], 'claim': m['claim'], 'theorems_failed': short,
               'lemmas_failed': failed[:12], 'theorems_tightened': m.get('tightened', [])}
        if m.get('note'): rec['note'] = m['note']
        print(json.dumps(rec)); sys.stdout.flush()
        if app:
            open('/verif/seeded/LOG.jsonl', 'a').write(json.dumps(rec) + '\n')

main()
