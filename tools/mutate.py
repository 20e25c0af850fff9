#!/usr/bin/env python3
"""Mutation testing of the theorems.  usage: mutate.py mutants.json [log]
Each mutant: {"file","def","old","new","edit","claim","breaks","tightened"}.  Works on a scratch copy, never on /verif.
The build of a mutant is stopped a few seconds after the first theorem of a claim has failed, so "theorems_failed" lists those seen by then and everything that uses them."""
import json, os, re, subprocess, sys, shutil, glob, signal, time, threading, queue
SRC = '/verif/lean'; DST = os.environ.get('MUT_DIR', '/tmp/w/mut'); SNAP = DST + '.snap'
LOG = sys.argv[2] if len(sys.argv) > 2 else '/verif/seeded/LOG.jsonl'
GRACE = float(os.environ.get('MUT_GRACE', '6'))
DECL = re.compile(r'^(?:@\[[^\]]*\]\s*)?(?:private |protected |noncomputable |local |scoped )*(theorem|lemma|def|example|instance|abbrev|structure|inductive)\b\s*([^\s:({\[]*)')

def decls(path):
    out = []
    for i, l in enumerate(open(path), 1):
        m = DECL.match(l)
        if m: out.append((i, m.group(1), m.group(2)))
    return out

def graph():
    text = {}
    for f in glob.glob(DST + '/Verif/**/*.lean', recursive=True):
        lines = open(f).read().split('\n'); ds = decls(f)
        for k, (i, kind, name) in enumerate(ds):
            end = ds[k + 1][0] - 1 if k + 1 < len(ds) else len(lines)
            if kind in ('theorem', 'lemma'):
                n = name.split('.')[-1]
                text[n] = text.get(n, '') + '\n'.join(lines[i - 1:end])
    return {n: set(re.findall(r"[\w']+", t)) for n, t in text.items()}

def sync(a, b):
    shutil.rmtree(b, ignore_errors=True)
    subprocess.run(['cp', '-a', '--reflink=auto', a, b], check=True)

def build(toks):
    """returns (failed theorems, examples, model errors, closure)"""
    p = subprocess.Popen(['lake', 'build', 'Verif'], cwd=DST, stdout=subprocess.PIPE, stderr=subprocess.STDOUT, text=True, start_new_session=True)
    q = queue.Queue()
    threading.Thread(target=lambda: ([q.put(l) for l in p.stdout], q.put(None)), daemon=True).start()
    failed, examples, modelerr, seen, deadline = set(), 0, [], set(), None
    clo = set()
    while True:
        try: l = q.get(timeout=1)
        except queue.Empty: l = ''
        if l is None: break
        m = re.search(r'error: (Verif/[\w/]+\.lean):(\d+):', l)
        if m and (m[1], m[2]) not in seen:
            seen.add((m[1], m[2])); best = None
            for i, kind, name in decls(os.path.join(DST, m[1])):
                if i <= int(m[2]): best = (kind, name)
            if best is None: pass
            elif best[0] in ('theorem', 'lemma'): failed.add(best[1].split('.')[-1])
            elif best[0] == 'example': examples += 1
            else: modelerr.append(m[1] + ':' + m[2] + ' ' + best[1])
            clo = set(failed); ch = True
            while ch:
                ch = False
                for nme, t in toks.items():
                    if nme not in clo and t & clo: clo.add(nme); ch = True
            if (modelerr or any(re.match(r'C\d\d+_', x) for x in clo)) and deadline is None: deadline = time.time() + GRACE
        if deadline is not None and time.time() > deadline: break
    try: os.killpg(p.pid, signal.SIGKILL)
    except ProcessLookupError: pass
    p.wait()
    return failed, examples, modelerr, clo

def main():
    if not os.path.isdir(DST): shutil.copytree(SRC, DST, symlinks=True)
    sync(SRC + '/Verif', DST + '/Verif'); shutil.copy2(SRC + '/Verif.lean', DST + '/Verif.lean')
    subprocess.run(['lake', 'build', 'Verif'], cwd=DST, capture_output=True)
    sync(DST + '/.lake/build', SNAP)
    toks = graph()
    muts = json.load(open(sys.argv[1]))
    for m in muts:
        p = os.path.join(DST, 'Verif', m['file']); orig = open(p).read(); st = os.stat(p)
        if orig.count(m['old']) < 1: print('NOMATCH', m['def'], m['old'], flush=True); continue
        n = m.get('nth', 0); pos = m.get('pos')
        if pos is None:
            pos = -1
            for _ in range(n + 1): pos = orig.index(m['old'], pos + 1)
        if orig[pos:pos + len(m['old'])] != m['old']: print('MOVED', m['file'], m['def'], flush=True); continue
        open(p, 'w').write(orig[:pos] + m['new'] + orig[pos + len(m['old']):])
        t0 = time.time()
        failed, examples, modelerr, clo = build(toks)
        open(p, 'w').write(orig); os.utime(p, ns=(st.st_atime_ns, st.st_mtime_ns))
        sync(SNAP, DST + '/.lake/build')
        cth = sorted(x for x in clo if re.match(r'C\d\d+_', x))
        direct = sorted(failed)
        claim = m.get('claim') or (direct and [x for x in direct if re.match(r'C\d\d+_', x)] or cth or ['?'])[0].split('_')[0]
        verdict = 'killed' if any(x.startswith(claim + '_') for x in cth) else ('killed by other claim' if cth else ('not compiled' if modelerr else 'survived'))
        rec = {'definition': m['file'] + ' ' + m['def'], 'edit': m.get('edit') or (m['old'] + '  ->  ' + m['new']), 'claim': claim + ': ' + m.get('breaks', 'the definition no longer follows the code'),
               'failed_directly': direct, 'theorems_failed': cth, 'examples_failed': examples, 'verdict': verdict, 'theorems_tightened': m.get('tightened', [])}
        if modelerr: rec['model_errors'] = modelerr
        print(verdict, '|', m['file'], m['def'], '|', (m.get('edit') or m['old'][:40] + ' -> ' + m['new'][:40]).replace('\n', ' '), '|', direct[:4], examples, modelerr[:2], '%ds' % (time.time() - t0), flush=True)
        if verdict != 'not compiled': open(LOG, 'a').write(json.dumps(rec) + '\n')
main()
