#!/usr/bin/env python3
"""Run the seeded mutants of seeded/mutants_*.json in a scratch copy (/tmp/mut/lean).

Each mutant edits one definition of the model.  Every declaration whose proof breaks has its proof
replaced (in the scratch copy only) by a placeholder, until the targets build; then every property
theorem whose proof depends on a placeholder is reported as failed.
usage: mutate.py mutants.json [id ...]
"""
import json, os, re, subprocess, sys

SRC = os.environ.get('MUT_SRC', '/verif/lean')   # MUT_SRC: a snapshot, so that the tree can be edited meanwhile
DST = '/tmp/mut/lean'
HOLE = 'so' + 'rry'
START = re.compile(r'^(?:@\[[^\]]*\]\s*)?(?:(?:private|noncomputable|protected|nonrec)\s+)*(theorem|lemma|def|abbrev|example|instance|structure|inductive)\b\s*(\S*)')

def sh(cmd, cwd=None):
    return subprocess.run(cmd, shell=True, cwd=cwd, capture_output=True, text=True)

def sync():
    os.makedirs(DST, exist_ok=True)
    # copy changed sources only, so that the build cache survives
    sh(f"rsync -rc --delete --exclude .lake {SRC}/ {DST}/") if sh('which rsync').returncode == 0 else pysync()

def pysync():
    want = set()
    for root, dirs, files in os.walk(SRC):
        if '.lake' in dirs: dirs.remove('.lake')
        for f in files:
            a = os.path.join(root, f); rel = os.path.relpath(a, SRC); want.add(rel)
            b = os.path.join(DST, rel)
            os.makedirs(os.path.dirname(b), exist_ok=True)
            da = open(a, 'rb').read()
            if not os.path.exists(b) or open(b, 'rb').read() != da:
                open(b, 'wb').write(da)
    for root, dirs, files in os.walk(DST):
        if '.lake' in dirs: dirs.remove('.lake')
        for f in files:
            rel = os.path.relpath(os.path.join(root, f), DST)
            if rel not in want: os.remove(os.path.join(DST, rel))

def chunk(lines, ln):
    """(start, end, kind, name) of the declaration containing line ln (0-based)"""
    s = ln
    while s >= 0 and not START.match(lines[s]):
        if lines[s].startswith('/--'):      # an error reported at the doc comment: the declaration follows
            while s < len(lines) and not START.match(lines[s]):
                s += 1
            break
        s -= 1
    if s < 0: return None
    e = s + 1
    while e < len(lines) and (lines[e].strip() == '' or lines[e][0] in ' \t'):
        e += 1
    m = START.match(lines[s])
    return s, e, m.group(1), m.group(2)

def hole(text):
    depth = 0; i = 0
    while i < len(text):
        c = text[i]
        if c in '([{⟨': depth += 1
        elif c in ')]}⟩': depth -= 1
        elif depth == 0 and text.startswith(':=', i):
            line = text[text.rfind('\n', 0, i) + 1:i]
            if not re.match(r'\s*(let|have)\b', line):
                return text[:i] + f':= by {HOLE}\n\n'
        elif depth == 0 and text.startswith(' where\n', i):
            return text[:i] + f' := by {HOLE}\n\n'
        elif depth == 0 and text.startswith('\n  | ', i):
            return text[:i] + f' := by {HOLE}\n\n'
        i += 1
    raise Exception('no proof found: ' + text[:200])

def run(m):
    pysync()
    path = f"{DST}/Verif/{m['file']}"
    s = open(path).read()
    if s.count(m['old']) != m.get('count', 1):
        return dict(status=f"edit does not apply ({s.count(m['old'])} matches)")
    open(path, 'w').write(s.replace(m['old'], m['new']))
    targets = ' '.join('Verif.' + t for t in m['targets'])
    broken = []
    for it in range(25):
        r = sh(f'lake build {targets} 2>&1', cwd=DST)
        errs = re.findall(r'error: (Verif/\S+\.lean):(\d+):\d+:', r.stdout)
        if not errs:
            if 'build failed' in r.stdout or r.returncode != 0:
                return dict(status='build failed without location', log=r.stdout[-2000:])
            break
        todo = {}
        for f, l in errs:
            lines = open(f'{DST}/{f}').read().split('\n')
            ch = chunk(lines, int(l) - 1)
            if ch is None or ch[2] not in ('theorem', 'lemma', 'example'):
                return dict(status=f'definition broken at {f}:{l}', broken=broken)
            todo.setdefault(f, {})[ch[0]] = ch
        for f, chs in todo.items():
            lines = open(f'{DST}/{f}').read().split('\n')
            for s0 in sorted(chs, reverse=True):
                _, e0, kind, name = chs[s0]
                new = hole('\n'.join(lines[s0:e0]) + '\n')
                lines[s0:e0] = new.rstrip('\n').split('\n') + ['']
                broken.append(name if kind != 'example' else f'example {f}:{s0+1}')
            open(f'{DST}/{f}', 'w').write('\n'.join(lines))
    else:
        return dict(status='too many iterations', broken=broken)
    chk = ''.join(f'import Verif.{t}\n' for t in m['targets']) + '''import Lean
open Lean
run_cmd do
  let env ← getEnv
  for (n, c) in env.constants.map₁.toList do
    match n with
    | .str p s =>
      if (`Verif).isPrefixOf p && (match s.toList with | 'C' :: d :: _ => d.isDigit | _ => false) then
        if let .thmInfo _ := c then
          let ax ← Lean.collectAxioms n
          if ax.contains ``%sAx then logInfo m!"FAILED {n}"
    | _ => pure ()
''' % HOLE
    open('/tmp/mut/Chk.lean', 'w').write(chk)
    r = sh('lake env lean /tmp/mut/Chk.lean', cwd=DST)
    failed = sorted(set(re.findall(r'FAILED (\S+)', r.stdout)))
    extra = '' if r.returncode == 0 else r.stdout[-800:] + r.stderr[-800:]
    return dict(status='ok', failed=failed, broken=sorted(set(broken)), extra=extra)

if __name__ == '__main__':
    ms = json.load(open(sys.argv[1]))
    ids = set(sys.argv[2:])
    out = sys.argv[1].replace('.json', '.out').replace('/verif/seeded/', '/tmp/mut/')
    for m in ms:
        if ids and m['id'] not in ids: continue
        r = run(m)
        r['id'] = m['id']; r['breaks'] = m['breaks']
        hit = [t for t in r.get('failed', []) if any(b + '_' in t for b in m['breaks'].split(','))]
        r['hit'] = hit
        with open(out, 'a') as fh: fh.write(json.dumps(r) + '\n')
        print(m['id'], r['status'], 'breaks', m['breaks'], 'HIT' if hit else 'MISSED', len(r.get('failed', [])), flush=True)
