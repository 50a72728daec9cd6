#!/usr/bin/env python3
"""Print every file:line citation of the Lean sources with the first and last cited line of /repo,
so that they can be read against the code. Citations beyond the end of a file, or of an unknown file, are marked."""
import glob, os, re, sys

ROOT = '/repo'
files = glob.glob(ROOT + '/**/*.go', recursive=True)
bad = 0
for f in sorted(glob.glob('/verif/lean/Verif/**/*.lean', recursive=True)):
    if len(sys.argv) > 1 and os.path.basename(f) not in sys.argv[1:]:
        continue
    header = ''
    for i, line in enumerate(open(f), 1):
        for m in re.finditer(r'([\w/]+\.go):(\d+)(?:-(\d+))?', line):
            a, b = int(m[2]), int(m[3] or m[2])
            found = [p for p in files if p.endswith('/' + m[1])]
            if len(found) > 1:
                bad += 1
                print(f'{os.path.basename(f)}:{i} {m[0]} AMBIGUOUS NAME')
            for p in found or [None]:
                if p is None:
                    bad += 1
                    print(f'{os.path.basename(f)}:{i} {m[0]} UNKNOWN FILE')
                    continue
                src = open(p).read().split('\n')
                if src and src[-1] == '':
                    src.pop()
                if b > len(src):
                    mark = 'BEYOND THE END' if len(found) == 1 else 'beyond the end (ambiguous name)'
                    bad += len(found) == 1
                    print(f'{os.path.basename(f)}:{i} {m[0]} {mark} {p[len(ROOT)+1:]} has {len(src)} lines')
                else:
                    print(f'{os.path.basename(f)}:{i} {m[0]} [{p[len(ROOT)+1:]}]\n      {a}: {src[a-1].strip()[:100]}\n      {b}: {src[b-1].strip()[:100]}')
sys.exit(1 if bad else 0)
