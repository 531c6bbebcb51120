#!/usr/bin/env python3
"""Apply seeded edits to a scratch copy of the Lean project and record which theorems fail.

usage: mutate.py muts.json      (list of {file, def, old, new, claim})
Works in /tmp/mut; appends one line per attempt to seeded/LOG.jsonl.  A build is stopped at the first module with an error, so
`theorems_failed` lists the theorems of that module (and of modules that failed at the same time), not of all."""
import json, os, re, signal, subprocess, sys, shutil, threading, time
root = os.path.dirname(os.path.dirname(os.path.abspath(__file__)))
work = '/tmp/mut'
muts = json.load(open(sys.argv[1]))
shutil.rmtree(work, ignore_errors=True)
subprocess.run(['cp', '-a', root + '/lean', work], check=True)
# the sources as committed, whatever is being edited
shutil.rmtree(work + '/Verif')
subprocess.run('git -C %s archive HEAD lean | tar -x --strip-components=1 -C %s' % (root, work), shell=True, check=True)
# a finite computation with a wrong result can exhaust the memory: leave out the examples on whole programs
# (no module that is kept uses what is defined there)
mark = '/-! ## Non-vacuity -/'
for f in ['Programs.lean', 'Pipelines.lean', 'Frequencies.lean', 'Evaluations.lean', 'Selections.lean', 'Confusions.lean', 'Reports.lean', 'AnyReport.lean', 'Endings.lean', 'Backwards.lean', 'Alike.lean', 'FullDisk.lean', 'CutWords.lean', 'Shown.lean', 'WordBreakGen.lean', 'Scripts.lean', 'Signal.lean', 'World.lean', 'GreedyCost.lean', 'VoteOptions.lean', 'Ranges.lean', 'Tempfile.lean', 'TextHeap.lean', 'WordaccCost.lean', 'SortCost.lean', 'Paths.lean', 'Heap.lean', 'Process.lean', 'Faults.lean', 'SyncCost.lean', 'FloatCi.lean', 'Majority.lean', 'Transposed.lean', 'Across.lean', 'FileOrder.lean', 'FloatVote.lean', 'FloatDist.lean', 'Percent.lean', 'VoteTrace.lean', 'EditopTrace.lean', 'PrintEndings.lean', 'WordEndings.lean', 'TextEndings.lean', 'AnyText.lean']:
    path = work + '/Verif/Props/' + f
    if not os.path.exists(path): continue
    text = open(path).read()
    if mark in text:
        open(path, 'w').write(text[:text.index(mark)] + text[text.rindex('\nend '):])
# without an edit everything must build, otherwise every edit would seem to be noticed
r = subprocess.run(['lake', 'build'], cwd=work, capture_output=True, text=True)
if r.returncode != 0:
    sys.exit('the scratch copy does not build without an edit:\n' + (r.stdout + r.stderr)[-3000:])
print('the scratch copy builds without an edit', flush=True)

def build():
    """Build until the first module with an error; the exit status and the output."""
    p = subprocess.Popen(['lake', 'build'], cwd=work, stdout=subprocess.PIPE, stderr=subprocess.STDOUT, text=True, start_new_session=True)
    out = []
    def stop():
        time.sleep(3)
        try: os.killpg(p.pid, signal.SIGTERM)
        except ProcessLookupError: pass
    stopping = False
    for l in p.stdout:
        out.append(l)
        if not stopping and re.match(r'error: Verif/\S+\.lean:\d+', l):
            stopping = True
            threading.Thread(target=stop, daemon=True).start()
    p.wait()
    return (1 if stopping else p.returncode), ''.join(out)

def enclosing(path, line):
    name = '?'
    for i, l in enumerate(open(path), 1):
        if i > line: break
        m = re.match(r'(?:@\[.*?\] )?(?:private )?(?:theorem|lemma|def|instance|example|structure)\s*(\S*)', l)
        if m: name = m.group(1) if not l.startswith('example') else 'example'
    return name

for m in muts:
    src = work + '/Verif/' + m['file']
    orig = open(src).read()
    if orig.count(m['old']) < 1:
        print('NOT FOUND', m); continue
    open(src, 'w').write(orig.replace(m['old'], m['new'], m.get('n', 1)))
    status, out = build()
    failed = []
    mods = set()
    for f, line in re.findall(r'error: (Verif/\S+\.lean):(\d+):\d+:', out):
        n = enclosing(work + '/' + f, int(line))
        mods.add(f)
        if n not in failed: failed.append(n)
    props = []
    bad = set(re.findall(r'^- (Verif\S*)', out, re.M))
    # property modules that import a failing module were not built
    def deps(path, seen):
        if path in seen or not os.path.exists(path): return
        seen.add(path)
        for l in open(path):
            mm = re.match(r'import (Verif\.\S+)', l)
            if mm: deps(work + '/' + mm.group(1).replace('.', '/') + '.lean', seen)
    badpaths = {work + '/' + f for f in mods}
    for f in sorted(os.listdir(work + '/Verif/Props')):
        seen = set(); deps(work + '/Verif/Props/' + f, seen)
        if seen & badpaths:
            for l in open(work + '/Verif/Props/' + f):
                mm = re.match(r'theorem (c\d\d\d?_\S+)', l)
                if mm: props.append(mm.group(1))
    open(src, 'w').write(orig)
    rec = {'definition': m['def'], 'file': 'lean/Verif/' + m['file'], 'edit': m['old'] + '  ==>  ' + m['new'],
           'claim_broken': m['claim'], 'theorems_failed': failed,
           'property_theorems_no_longer_proved': props, 'survived': status == 0,
           'theorems_tightened': m.get('tightened', [])}
    if status != 0 and not failed:
        rec['note'] = 'UNATTRIBUTED: the build failed without an error in a theorem, to be examined by hand'
    print('SURVIVED' if status == 0 else 'killed' if failed else 'UNATTRIBUTED', m['def'], '|', m['new'][:60].replace('\n', ' '), '->', failed[:4], flush=True)
    if '--dry' not in sys.argv:
        open(root + '/seeded/LOG.jsonl', 'a').write(json.dumps(rec) + '\n')
