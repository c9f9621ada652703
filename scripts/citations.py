#!/usr/bin/env python3
"""Checks that the files and lines of /repo that the model cites exist.

Citations look like `crates/x/src/y.rs:12-34,56`; a path may be shortened to its end, in which case
some file must end with it.
"""
import re, glob, os

files = [f for f in glob.glob('/repo/**/*.rs', recursive=True)]
size = {f: len(open(f, encoding='utf8').read().splitlines()) for f in files}
bad = n = 0
for m in sorted(glob.glob('/verif/lean/Verif/Model/*.lean')):
    text = re.sub(r'\n\s*', ' ', open(m, encoding='utf8').read())
    for path, lines in re.findall(r'([A-Za-z0-9_/.-]+\.rs)(?::([0-9][0-9,\- ]*))?', text):
        n += 1
        found = [f for f in files if f.endswith('/' + path)]
        last = max([int(x) for x in re.findall(r'[0-9]+', lines)] or [0])
        if not any(size[f] >= last for f in found):
            bad += 1
            print(os.path.basename(m), path, lines)
print(n, 'citations,', bad, 'bad')
