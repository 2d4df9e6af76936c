#!/usr/bin/env python3
"""Regenerate the appendix of DESIGN.md: for every function of /repo/src/hdmf the model definitions that cite its lines,
and the list of the functions that no definition cites.  Needs /repo; run by hand, not part of the build."""
import ast, os, re
root = os.path.dirname(os.path.dirname(os.path.abspath(__file__)))
src = '/repo/src/hdmf'
base = f'{root}/lean/Verif/Model'
cites = {}          # file -> [(lo, hi, module)]
for f in sorted(os.listdir(base)):
    s = open(f'{base}/{f}').read()
    # one doc comment at a time: "path.py:1-2, 3-4; other.py:5"
    for doc in re.findall(r'/-[-!].*?-/', s, re.S):
        for m in re.finditer(r'([\w/]+\.py):(\d+(?:[-–]\d+)?(?:,\s*\d+(?:[-–]\d+)?)*)', doc):
            for r in re.split(r',\s*', m.group(2)):
                a = re.split('[-–]', r)
                lo, hi = int(a[0]), int(a[-1])
                if hi - lo <= 130:
                    cites.setdefault(m.group(1), []).append((lo, hi, f[:-5]))
funcs = []          # (file, qualified name, lo, hi)
for dp, _, fs in os.walk(src):
    for f in fs:
        if f.endswith('.py'):
            p = os.path.join(dp, f)
            rel = os.path.relpath(p, src)
            def walk(node, pre):
                for n in ast.iter_child_nodes(node):
                    if isinstance(n, ast.ClassDef):
                        walk(n, pre + [n.name])
                    elif isinstance(n, (ast.FunctionDef, ast.AsyncFunctionDef)):
                        funcs.append((rel, '.'.join(pre + [n.name]), n.lineno, n.end_lineno))
            walk(ast.parse(open(p).read()), [])
funcs.sort(key=lambda t: (t[0], t[2]))
out, bad = [], sorted(set(c for c in cites if not os.path.exists(f'{src}/{c}')))
mod, non = {}, {}
for rel, q, lo, hi in funcs:
    ms = sorted({m for a, b, m in cites.get(rel, []) if a <= hi and b >= lo})
    if ms:
        mod.setdefault(rel, []).append(f'`{q}` ({lo}–{hi}; {", ".join(ms)})')
    else:
        non.setdefault(rel, []).append(f'`{q}`')
text = '### Functions modelled (lines; model modules)\n\n'
for rel in sorted(mod):
    text += f'* **{rel}**: ' + ', '.join(mod[rel]) + '\n'
text += '\n### Functions not modelled\n\n'
for rel in sorted(non):
    text += f'* **{rel}**' + (': ' + ', '.join(non[rel]) if rel in mod else ': nothing of this file') + '\n'
d = open(f'{root}/DESIGN.md').read()
a, b = '<!-- begin generated -->\n', '<!-- end generated -->'
d = d[:d.index(a) + len(a)] + text + d[d.index(b):]
found = []
props = f'{root}/lean/Verif/Props'
for f in sorted(os.listdir(props)):
    s = open(f'{props}/{f}').read()
    for m in re.finditer(r'theorem (C(\d+)\w*_fails\w*)', s):
        pre = s[:m.start()].rstrip()
        doc = ' '.join(pre[pre.rindex('/--') + 3:-2].split()) if pre.endswith('-/') else ''
        found.append((int(m.group(2)), f'* `{f[:-5]}.{m.group(1)}` — {doc}\n'))
a, b = '<!-- begin findings -->\n', '<!-- end findings -->'
d = d[:d.index(a) + len(a)] + ''.join(t for _, t in sorted(found, key=lambda t: t[0])) + d[d.index(b):]
open(f'{root}/DESIGN.md', 'w').write(d)
n, k = len(funcs), sum(len(v) for v in mod.values())
print(f'{k} of {n} functions cited; unknown files: {bad}')
