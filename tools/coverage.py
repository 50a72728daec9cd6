#!/usr/bin/env python3
"""Print a table: the Go files of /repo (without tests), the modules of lean/Verif/Model that cite them, and the functions that none of the cited ranges touches (not those of test files)."""
import glob, os, re
ROOT = '/repo'
files = sorted(p for p in glob.glob(ROOT + '/**/*.go', recursive=True) if not p.endswith('_test.go'))
cited = {p: [] for p in files}
for f in sorted(glob.glob('/verif/lean/Verif/Model/*.lean')):
    module = os.path.basename(f)[:-5]
    last = None
    for m in re.finditer(r'([\w/]+\.go)|(?<![\w.])(\d+)-(\d+)(?![\w])|(?<=:)(\d+)(?![\w-])', open(f).read()):
        if m[1]:
            found = [p for p in files if p.endswith('/' + m[1])]
            last = found[0] if len(found) == 1 else None
        elif last:
            a, b = (int(m[2]), int(m[3])) if m[2] else (int(m[4]), int(m[4]))
            if a <= b <= len(open(last).read().split('\n')):
                cited[last].append((a, b, module))
print('| file | modules under `Model/` | functions that no definition cites |\n| --- | --- | --- |')
for p in files:
    lines = open(p).read().split('\n')
    functions = []
    for i, line in enumerate(lines, 1):
        m = re.match(r'func (?:\(\w+ \*?(\w+)\) )?(\w+)\(', line)
        if m:
            end = next(j for j in range(i, len(lines) + 1) if lines[j - 1].startswith('}') or (j == i and lines[j - 1].endswith('}')))
            functions.append((m[2], i, end))
    missing = [n for n, a, b in functions if not any(x <= b and a <= y for x, y, _ in cited[p])]
    modules = sorted({m for _, _, m in cited[p]})
    print(f"| {p[len(ROOT)+1:]} | {', '.join(modules) or '–'} | {', '.join(missing) or ('–' if functions else 'no functions')} |")
