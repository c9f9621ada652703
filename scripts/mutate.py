"""Apply wrong edits to a scratch copy of the model, rebuild, and log which theorems fail.

usage: mutate.py mutations.json   (a list of {definition, file, old, new, edit, claim})
"""
import json, os, re, subprocess, sys
SRC, DST, LOG = os.environ.get('MSRC', '/verif/lean'), '/tmp/scratch/lean', '/verif/seeded/LOG.jsonl'
def sh(c): return subprocess.run(c, shell=True, capture_output=True, text=True)
def theorem_at(f, line):
    ls = open(f'{DST}/{f}').read().split('\n')[:line]
    for l in reversed(ls):
        m = re.match(r'(?:private )?(theorem|example|def|instance|noncomputable def)\b\s*([\w.\'₂]*)', l)
        if m: return m.group(2) or m.group(1) + '@' + f
    return f
os.makedirs('/tmp/scratch', exist_ok=True)
sh(f'mkdir -p {DST} && cp -au {SRC}/. {DST}/')
# an interrupted run leaves its edit behind
sh(f'cd {SRC} && for f in $(find Verif -name "*.lean"); do cmp -s $f {DST}/$f || cp $f {DST}/$f; done')
for m in json.load(open(sys.argv[1])):
    # besides the edited definition, rules that merely restate it may be edited along ("edits")
    edits = [(m['file'], m['old'], m['new'])] + [tuple(e) for e in m.get('edits', [])]
    saved, bad = {}, False
    for f, old, new in edits:
        t = open(f'{DST}/{f}').read()
        saved.setdefault(f, t)
        if t.count(old) != 1:
            print('SKIP', m['definition'], f, 'occurrences', t.count(old)); bad = True; break
        open(f'{DST}/{f}', 'w').write(t.replace(old, new))
    if bad:
        for f, t in saved.items(): open(f'{DST}/{f}', 'w').write(t)
        continue
    out = sh(f'cd {DST} && timeout 1500 lake build 2>&1').stdout
    failed = []
    for f, l in re.findall(r'error: (Verif/\S+\.lean):(\d+):', out):
        t = theorem_at(f, int(l))
        if t not in failed: failed.append(t)
    for f, t in saved.items(): open(f'{DST}/{f}', 'w').write(t)
    rec = dict(definition=m['definition'], edit=m['edit'], claim=m['claim'], failed=failed, tightened=m.get('tightened', []))
    if m.get('note'): rec['note'] = m['note']
    print(json.dumps(rec), flush=True)
    if not m.get('nolog'):
        open(LOG, 'a').write(json.dumps(rec) + '\n')
sh(f'mkdir -p {DST} && cp -au {SRC}/. {DST}/')
