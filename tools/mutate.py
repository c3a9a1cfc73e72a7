#!/usr/bin/env python3
"""Mutation testing of the theorems: usage mutate.py LIST.py [SCRATCH].

LIST.py defines M = [(file under Verif/, definition, old text, new text, claim broken)]. Each edit is applied in a scratch copy of
/verif/lean (outside /verif), the copy is built, the failing declarations are collected and a JSON line is appended to
/verif/seeded/LOG.jsonl. A surviving edit (the build passes) is printed with the word SURVIVED."""
import json, os, re, signal, subprocess, sys, threading, time
src, scratch = '/verif/lean', (sys.argv[2] if len(sys.argv) > 2 else '/tmp/scratch')
ns = {}
exec(open(sys.argv[1]).read(), ns)
log = '/verif/seeded/LOG.jsonl'
done = set()
if os.path.exists(log):
    for l in open(log):
        if l.strip():
            d = json.loads(l); done.add((d['definition'], d['edit']))

def sync():
    os.makedirs(scratch, exist_ok=True)
    if not os.path.exists(scratch + '/pristine'):
        subprocess.run(['cp', '-r', src, scratch + '/pristine'], check=True)
    subprocess.run(['rm', '-rf', scratch + '/work'], check=True)
    subprocess.run(['cp', '-r', '--preserve=all', scratch + '/pristine', scratch + '/work'], check=True)

DECL = re.compile(r'^\s*(?:@\[[^\]]*\]\s*)?(?:private |protected |noncomputable )*(theorem|lemma|example|def|instance|abbrev|structure|inductive)\s*(\S*)')
def enclosing(f, line):
    ls = open(f).read().split('\n')
    for i in range(min(line, len(ls)) - 1, -1, -1):
        m = DECL.match(ls[i])
        if m: return m.group(2) if m.group(1) in ('theorem', 'lemma') else f'{m.group(1)} {m.group(2)}@{os.path.relpath(f, scratch + "/work/Verif")}:{i+1}'
    return f'{f}:{line}'

for (f, definition, old, new, claim) in ns['M']:
    edit = f'{old.strip()}  ->  {new.strip()}'
    if (definition, edit) in done: continue
    sync()
    p = f'{scratch}/work/Verif/{f}'
    t = open(p).read()
    if t.count(old) != 1:
        print('BAD MUTATION', definition, t.count(old), repr(old), flush=True); continue
    open(p, 'w').write(t.replace(old, new))
    t0 = time.time()
    # stop a while after the first error: the rest of the build does not matter
    r = subprocess.Popen(['nice', 'lake', 'build'], cwd=scratch + '/work', stdout=subprocess.PIPE, stderr=subprocess.STDOUT, text=True, start_new_session=True)
    buf, timer = [], None
    for l in r.stdout:
        buf.append(l)
        if timer is None and 'error:' in l and '.lean:' in l:
            timer = threading.Timer(25, lambda: os.killpg(r.pid, signal.SIGKILL)); timer.start()
    r.wait()
    if timer: timer.cancel()
    out = ''.join(buf)
    failed, mods = [], []
    for m in re.finditer(r'error: (?:\./)?(Verif/\S+?\.lean):(\d+):\d+', out):
        d = enclosing(f'{scratch}/work/{m.group(1)}', int(m.group(2)))
        if d not in failed: failed.append(d)
    status = 'killed' if r.returncode else 'SURVIVED'
    print(f'{status} {time.time()-t0:.0f}s {definition}: {edit} :: {failed[:6]}', flush=True)
    broken_model = any('Model/' in x for x in failed)
    if broken_model:
        print('   MODEL DOES NOT COMPILE', flush=True); print(out[-1500:]); continue
    rec = {'definition': definition, 'file': f, 'edit': edit, 'claim': claim, 'outcome': status.lower(),
           'theorems_failed': failed, 'theorems_tightened': []}
    with open(log, 'a') as h: h.write(json.dumps(rec, ensure_ascii=False) + '\n')
