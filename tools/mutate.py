#!/usr/bin/env python3
"""Seeded-bug harness: apply each edit of a list to a scratch copy of lean/, rebuild, report which
theorems fail.  usage: mutate.py SCRATCH_LEAN_DIR MUTATIONS.py OUT.jsonl"""
import json, re, subprocess, sys, pathlib, time
scratch, muts, out = pathlib.Path(sys.argv[1]), sys.argv[2], sys.argv[3]
ns = {}
exec(open(muts).read(), ns)
DECL = re.compile(r'^(?:private |protected |noncomputable |@\[[^\]]*\] )*(theorem|lemma|def|example|instance|abbrev|structure|inductive)\s*([^\s:({\[]*)')
done = set()
try:
    for l in open(out):
        j = json.loads(l); done.add((j['file'], j['edit']))
except FileNotFoundError: pass
def enclosing(f, line):
    ls = (scratch/f).read_text().split('\n')
    for i in range(min(line, len(ls))-1, -1, -1):
        m = DECL.match(ls[i])
        if m: return m.group(2) or m.group(1)
    return '?'
for (f, d, old, new, claim) in ns['M']:
    edit = f"{old}  ==>  {new}"
    if ('Verif/'+f, edit) in done: continue
    p = scratch/'Verif'/f
    src = p.read_text()
    n = src.count(old)
    if n != 1:
        print('SKIP', f, d, 'occurrences', n, flush=True); continue
    p.write_text(src.replace(old, new))
    t = time.time()
    r = subprocess.run(['lake','build'], cwd=scratch, capture_output=True, text=True)
    log = r.stdout + r.stderr
    fails = {}
    for m in re.finditer(r'error: (Verif/[\w/]+\.lean):(\d+):\d+', log):
        fails.setdefault(m.group(1), []).append(enclosing(m.group(1), int(m.group(2))))
    built = set(re.findall(r'Built (Verif[\w.]*)', log))
    p.write_text(src)
    rec = dict(file='Verif/'+f, definition=d, edit=edit, claim_broken=claim, build_ok=(r.returncode == 0),
        theorems_failed=[x for g in fails for x in dict.fromkeys(fails[g])],
        failed_in=sorted(fails), secs=round(time.time()-t))
    with open(out,'a') as o: o.write(json.dumps(rec)+'\n')
    print('SURVIVED' if rec['build_ok'] else 'killed', f, d, rec['theorems_failed'][:6], rec['secs'], flush=True)
