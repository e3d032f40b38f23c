#!/usr/bin/env python3
"""Seeded-bug runs: python3 tools/mutate.py FILE.json [--log]

FILE.json: list of {file, old, new, definition, edit, breaks: [property ids]}.
For each one the Lean tree is copied to a scratch directory, edited and rebuilt.
The declarations whose proofs failed are found from the error positions; the
property theorems that depend on them (per the dependency map of the unedited
tree) count as failed.  With --log one JSON line per run is appended to
seeded/LOG.jsonl."""
import json, os, re, shutil, subprocess, sys
V = os.path.dirname(os.path.dirname(os.path.abspath(__file__)))
S = '/tmp/mut'

def sh(cmd, cwd):
    return subprocess.run(cmd, cwd=cwd, shell=True, capture_output=True, text=True)

def manifest():
    return {t: c['property'] for c in json.load(open(V + '/MANIFEST.json'))['claims']
            for t in c['theorems']}

def depmap():
    ths = manifest()
    src = '''import Verif
open Lean
partial def go (env : Environment) (n : Name) (s : NameSet) : NameSet :=
  if s.contains n then s else
  if !(`CP).isPrefixOf n && !n.isInternal then s else
  match env.find? n with
  | none => s
  | some ci =>
    let s := s.insert n
    let cs := ci.type.getUsedConstants ++ (match ci.value? (allowOpaque := true) with | some v => v.getUsedConstants | none => #[])
    cs.foldl (fun s c => go env c s) s
run_cmd
  for t in [%s] do
    let s := go (← getEnv) t {}
    IO.println s!"{t}: {s.toList.map toString}"
''' % ', '.join('``' + t for t in sorted(ths))
    open('/tmp/Dep.lean', 'w').write('import Lean\n' + src)
    r = sh('lake env lean /tmp/Dep.lean', V + '/lean')
    m = {}
    for line in r.stdout.splitlines():
        k = re.match(r'(CP\.\S+): \[(.*)\]$', line)
        if k:
            m[k.group(1)] = set(x.strip() for x in k.group(2).split(','))
    assert m, r.stdout + r.stderr
    return m

def decl_at(path, line):
    name = None
    for i, l in enumerate(open(path), 1):
        if i > line: break
        k = re.match(r'\s*(?:private |protected |noncomputable |partial )*(theorem|lemma|def|abbrev|structure|inductive|instance|example)\b\s*([^\s:({\[]*)', l)
        if k:
            name = (k.group(2) if k.group(1) != 'example' else 'example') or k.group(1)
            if name == 'example': name = 'example:%s:%d' % (os.path.basename(path), i)
    return name

def stub(path, d):
    lines = open(path).read().split('\n')
    if d.startswith('example:'):
        i = int(d.split(':')[2]) - 1
    else:
        i = next((n for n, l in enumerate(lines) if re.match(r'\s*theorem\s+' + re.escape(d) + r'(?![\w.?!\'])', l)), None)
        if i is None: return False
    j = i + 1
    while j < len(lines) and (lines[j] == '' or lines[j][0].isspace() or lines[j][0] in '⟨|·)}]'): j += 1
    block = '\n'.join(lines[i:j])
    # the := that starts the proof: the first one at bracket depth 0
    depth = 0; pos = None
    for n, ch in enumerate(block):
        if ch in '([{⟨': depth += 1
        elif ch in ')]}⟩': depth -= 1
        elif block.startswith(':=', n) and depth == 0 and not re.search(r'let \w+ $', block[:n].split('\n')[-1]):
            pos = n; break
    if pos is None or block[pos:].strip() == ':= sorry': return False
    # keep the number of lines
    new = block[:pos] + ':= sorry'
    new += '\n' * (block.count('\n') - new.count('\n'))
    lines[i:j] = new.split('\n')
    open(path, 'w').write('\n'.join(lines))
    return True

def main():
    muts = json.load(open(sys.argv[1])); log = '--log' in sys.argv
    deps = depmap(); ths = manifest()
    for mu in muts:
        if os.path.exists(S): shutil.rmtree(S)
        sh('cp -a %s/lean %s' % (V, S), '/')
        p = S + '/' + mu['file']
        s = open(p).read()
        assert s.count(mu['old']) == 1, (mu['file'], mu['old'], s.count(mu['old']))
        open(p, 'w').write(s.replace(mu['old'], mu['new']))
        bad = []; first = None
        for _ in range(8):   # failed proofs are replaced by sorry so that later modules get built
            r = sh('lake build 2>&1', S)
            if first is None: first = r.returncode
            if r.returncode == 0: break
            here = set()
            for k in re.finditer(r'error: (Verif/\S+?\.lean):(\d+):', r.stdout):
                d = decl_at(S + '/' + k.group(1), int(k.group(2)))
                if d:
                    here.add((k.group(1), d))
                    if d not in bad: bad.append(d)
            if not any([stub(S + '/' + f, d) for f, d in here]): break
        failed = sorted(t for t in ths if any(
            ('CP.' + b) in deps[t] or any(x.endswith('.' + b) for x in deps[t]) for b in bad if not b.startswith('example:')))
        props = sorted(set(ths[t] for t in failed))
        missed = [b for b in mu['breaks'] if b not in props]
        print('---', mu['definition'], '|', mu['edit'])
        print('   build', 'OK' if first == 0 else 'FAILS', 'direct:', bad)
        print('   props failed:', props, ' MISSED:' if missed else '', missed or '')
        if log:
            with open(V + '/seeded/LOG.jsonl', 'a') as f:
                f.write(json.dumps(dict(definition=mu['definition'], file=mu['file'], edit=mu['edit'],
                    breaks=mu['breaks'], failed_directly=bad, theorems_failed=failed,
                    tightened=mu.get('tightened', []))) + '\n')
main()
