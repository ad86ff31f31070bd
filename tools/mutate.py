#!/usr/bin/env python3
"""Apply each wrong edit of seeded/mutants/<name>.json to a scratch copy (/tmp/mut), rebuild, log what failed to seeded/LOG.jsonl.
A mutant: {"def", "file" (under lean/Verif), "old", "new", "edit", "claim"}. Usage: mutate.py NAME [first [last]]"""
import json, os, pathlib, re, shutil, signal, subprocess, sys, time
root = pathlib.Path(__file__).resolve().parent.parent
base = pathlib.Path('/tmp/mut_src')   # the last commit
scratch = pathlib.Path('/tmp/mut')
name = sys.argv[1]
mutants = json.loads((root / 'seeded/mutants' / f'{name}.json').read_text())
lo = int(sys.argv[2]) if len(sys.argv) > 2 else 0
hi = int(sys.argv[3]) if len(sys.argv) > 3 else len(mutants)

def export():
    shutil.rmtree(base, ignore_errors=True)
    base.mkdir()
    subprocess.run(f'git -C {root} archive HEAD lean | tar x -C {base}', shell=True, check=True)

def copy():
    scratch.mkdir(exist_ok=True)
    for p in list(scratch.rglob('*.lean')):
        if '.lake' not in p.parts and not (base / 'lean' / p.relative_to(scratch)).exists():
            p.unlink()
    for p in (base / 'lean').rglob('*'):
        rel = p.relative_to(base / 'lean')
        if rel.parts[0] == '.lake' or p.is_dir():
            continue
        q = scratch / rel
        q.parent.mkdir(parents=True, exist_ok=True)
        if not q.exists() or q.read_bytes() != p.read_bytes():
            shutil.copyfile(p, q)

def theorem_at(path, line):
    ls = (scratch / path).read_text().splitlines()
    for i in range(min(line, len(ls)) - 1, -1, -1):
        m = re.match(r'(?:theorem|def|example|instance|structure|inductive)\s*(\S*)', ls[i])
        if m:
            return m.group(1).rstrip(':') if not ls[i].startswith('example') else f'example@{path}'
    return path

def targets(claim):
    """The modules with the theorems of the claim."""
    r = []
    for p in sorted((scratch / 'Verif/Props').glob('*.lean')):
        if any(re.search(rf'^theorem {c}_', p.read_text(), re.M) for c in re.findall(r'C\d+', claim)):
            r.append('Verif.Props.' + p.stem)
    return r

def build(mods=()):
    """`lake build`; stopped 40 seconds after the first error outside the model."""
    log = pathlib.Path('/tmp/mut.log')
    with open(log, 'w') as f:
        p = subprocess.Popen(['nice', '-n', '10', 'lake', 'build', *mods], cwd=scratch, stdout=f, stderr=subprocess.STDOUT, start_new_session=True)
        first = None
        while p.poll() is None:
            time.sleep(2)
            if first is None and re.search(r'^error: Verif/', log.read_text(), re.M):
                first = time.time()
            if first is not None and time.time() - first > 40:
                os.killpg(p.pid, signal.SIGKILL)
                p.wait()
    out = log.read_text()
    failed = []
    for m in re.finditer(r'^error: (Verif/\S+?\.lean):(\d+):\d+', out, re.M):
        t = theorem_at(m.group(1), int(m.group(2)))
        if t not in failed:
            failed.append(t)
    return p.returncode, failed, out

export()
copy()
if not (scratch / '.lake').exists():
    shutil.copytree(root / 'lean/.lake', scratch / '.lake', symlinks=True)
for i, m in enumerate(mutants[lo:hi], lo):
    copy()
    f = scratch / 'Verif' / m['file']
    s = f.read_text()
    if s.count(m['old']) < 1:
        print(i, 'NOT FOUND', m['edit']); continue
    f.write_text(s.replace(m['old'], m['new'], 1))
    mods = targets(m['claim'])
    rc, failed, out = build(mods) if mods else build()
    if rc == 0 and mods:
        rc, failed, out = build()
    model_broken = [t for t in failed if re.search(r'^error: Verif/Model', out, re.M)]
    rec = {"definition": m['def'], "edit": m['edit'], "claim": m['claim'], "theorems_failed": failed, "theorems_tightened": []}
    if model_broken and re.search(r'^error: Verif/Model', out, re.M):
        print(i, 'MUTANT DOES NOT COMPILE', m['edit'], failed); continue
    print(i, 'SURVIVED' if rc == 0 else 'killed', m['claim'], m['edit'], failed[:6], flush=True)
    with open(root / 'seeded/LOG.jsonl', 'a') as log:
        log.write(json.dumps(rec, ensure_ascii=False) + '\n')
copy()
