"""Run wrong programs against the theorems, in a scratch copy outside /verif.

usage: mutate.py SCRATCH_LEAN_DIR MUTANTS.py OUT.jsonl [first [last]]

MUTANTS.py defines M = [(definition, file, old, new, claim), ...]. Each edit is applied alone to a fresh copy of the
sources; the whole library is rebuilt with --no-ansi; declarations with errors are collected by line number. Modules
that import a failing module are not checked by lake; their property theorems are counted as `blocked`. With MUT_GRACE
set, `stopped` records that the build was cut short after a property theorem failed, so `failed` may be incomplete.
With MUT_CACHE set to a built copy, every mutant starts from its build output."""
import json, os, re, signal, subprocess, sys, shutil, threading, time

scratch, mfile, out = sys.argv[1:4]
first = int(sys.argv[4]) if len(sys.argv) > 4 else 0
last = int(sys.argv[5]) if len(sys.argv) > 5 else 10**9
src = os.environ.get('MUT_SRC', '/verif/lean')
ns = {}
exec(open(mfile).read(), ns)
M = ns['M']
DECL = re.compile(r'^(?:@\[[^\]]*\]\s*)?(?:private |protected |noncomputable )*(theorem|lemma|def|instance|example|structure|class|inductive|abbrev)\b\s*([^\s:({\[]*)')

def decl_at(path, line):
    name = '?'
    for i, l in enumerate(open(path), 1):
        if i > line: break
        m = DECL.match(l)
        if m: name = (m.group(2) or f'{m.group(1)}@{i}') if m.group(1) != 'example' else f'example@{i}'
    return name

def sync():
    cache = os.environ.get('MUT_CACHE')
    if cache:
        shutil.rmtree(scratch + '/.lake', ignore_errors=True)
        subprocess.run(['cp', '-a', cache + '/.lake', scratch + '/.lake'], check=True)
    subprocess.run(['rsync', '-a', '--delete', '--checksum', '--exclude', '.lake', src + '/', scratch + '/'], check=True) \
        if shutil.which('rsync') else pysync()

def pysync():
    for d, _, fs in os.walk(src):
        if '.lake' in d: continue
        for f in fs:
            a = os.path.join(d, f); b = os.path.join(scratch, os.path.relpath(a, src))
            os.makedirs(os.path.dirname(b), exist_ok=True)
            if not os.path.exists(b) or open(a, 'rb').read() != open(b, 'rb').read(): shutil.copy(a, b)
    for d, _, fs in os.walk(scratch):
        if '.lake' in d: continue
        for f in fs:
            b = os.path.join(d, f)
            if not os.path.exists(os.path.join(src, os.path.relpath(b, scratch))): os.remove(b)

def imports():
    g = {}
    for d, _, fs in os.walk(os.path.join(scratch, 'Verif')):
        for f in fs:
            p = os.path.join(d, f)
            mod = os.path.relpath(p, scratch)[:-5].replace('/', '.')
            g[mod] = re.findall(r'^import (Verif\.\S+)', open(p).read(), re.M)
    return g

def props(mod):
    p = os.path.join(scratch, mod.replace('.', '/') + '.lean')
    return re.findall(r'^theorem (C\d+_\w+)', open(p).read(), re.M)

def build(grace=float(os.environ.get('MUT_GRACE', 'inf'))):
    """Run the build. With MUT_GRACE set, stop that many seconds after the first property theorem has failed."""
    b = subprocess.Popen(['lake', 'build', '--no-ansi'], cwd=scratch, stdout=subprocess.PIPE, stderr=subprocess.STDOUT,
                         text=True, start_new_session=True)
    lines, timer = [], None
    def stop():
        try: os.killpg(b.pid, signal.SIGKILL)
        except ProcessLookupError: pass
    for line in b.stdout:
        lines.append(line)
        m = re.search(r'error: (Verif/\S+\.lean):(\d+):', line)
        if m and timer is None and grace < 1e9 and re.match(r'C\d+_', decl_at(os.path.join(scratch, m.group(1)), int(m.group(2)))):
            timer = threading.Timer(grace, stop); timer.start()
    b.wait()
    if timer: timer.cancel()
    return ''.join(lines), b.returncode < 0

for k, (defn, file, old, new, claim) in enumerate(M):
    if not first <= k < last: continue
    sync()
    p = os.path.join(scratch, file)
    s = open(p).read()
    n = s.count(old)
    if n != 1:
        print('SKIP', k, defn, 'matches', n, flush=True); continue
    open(p, 'w').write(s.replace(old, new))
    t = time.time()
    txt, stopped = build()
    errs = re.findall(r'error: (Verif/\S+\.lean):(\d+):', txt)
    failed, bad = [], set()
    for f, l in errs:
        nm = decl_at(os.path.join(scratch, f), int(l))
        bad.add(f[:-5].replace('/', '.'))
        if nm not in failed: failed.append(nm)
    g = imports()
    blocked = set()
    ch = True
    while ch:
        ch = False
        for mod, im in g.items():
            if mod not in bad and mod not in blocked and any(i in bad or i in blocked for i in im):
                blocked.add(mod); ch = True
    bl = sorted(x for mod in blocked for x in props(mod))
    rec = dict(definition=defn, file=file, edit=f'{old} -> {new}', claim=claim, survived=not errs,
               failed=failed, failed_modules=sorted(bad), blocked_modules=sorted(blocked), blocked=bl,
               stopped=stopped, seconds=round(time.time() - t))
    open(out, 'a').write(json.dumps(rec, ensure_ascii=False) + '\n')
    print(k, defn, 'SURVIVED' if not errs else f'{len(failed)} failed: {failed[:6]} blocked {len(bl)}', rec['seconds'], 's', flush=True)
sync()
