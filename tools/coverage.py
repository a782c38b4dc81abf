#!/usr/bin/env python3
"""Which lines of /repo/include/mpc are cited by a comment of lean/Verif/Model (file:lines)?  Prints uncited ranges."""
import re, glob, os, sys
root = os.path.dirname(os.path.dirname(os.path.abspath(__file__)))
src = '/repo/include/mpc'
files = {os.path.basename(f): f for f in glob.glob(src + '/**/*.hpp', recursive=True)}
cited = {f: set() for f in files}
for f in glob.glob(root + '/lean/Verif/Model/*.lean'):
    t = open(f).read()
    for m in re.finditer(r'(\w+\.hpp)[`:]+\s*((?:\d+(?:\s*[-–]\s*\d+)?(?:\s*,\s*|\s+and\s+)?)+)', t):
        b = m.group(1)
        if b not in cited: print('unknown', b); continue
        for r in re.finditer(r'(\d+)(?:\s*[-–]\s*(\d+))?', m.group(2)):
            a = int(r.group(1)); z = int(r.group(2) or a)
            if z < a: z = int(str(a)[:len(str(a))-len(str(z))] + str(z))
            cited[b] |= set(range(a, z + 1))
for b, f in sorted(files.items()):
    ls = open(f).read().split('\n')
    code = [i for i, l in enumerate(ls, 1) if l.strip() and not l.strip().startswith(('*', '/*', '//', '#')) and l.strip() not in ('{', '}', '};', 'public:', 'private:', 'protected:')]
    un = [i for i in code if i not in cited[b]]
    print(f'{b}: {len(code)-len(un)}/{len(code)} code lines cited')
    if len(sys.argv) > 1:
        for i in un: print('   ', i, ls[i-1].strip()[:110])
