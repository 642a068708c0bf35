#!/usr/bin/env python3
"""Rewrite the axiom section of DESIGN.md from `#print axioms` on every theorem of MANIFEST.json (needs a finished build)."""
import json, os, re, subprocess, tempfile
root = os.path.dirname(os.path.dirname(os.path.abspath(__file__)))
names = [t for c in json.load(open(root + '/MANIFEST.json'))['claims'] for t in c['theorems']]
with tempfile.NamedTemporaryFile('w', suffix='.lean', delete=False) as f:
    f.write('import Verif\n' + ''.join('#print axioms %s\n' % n for n in names))
out = subprocess.run(['lake', 'env', 'lean', f.name], cwd=root + '/lean', capture_output=True, text=True).stdout
groups = {}
for n in names:
    m = re.search(r"'%s' (does not depend on any axioms|depends on axioms: \[([^\]]*)\])" % re.escape(n), out)
    groups.setdefault((m.group(2) or 'none').replace('\n', ' '), []).append(n.split('.')[-1])
text = ''
for g in sorted(groups, key=lambda g: -len(groups[g])):
    text += '**%s** (%d): %s.\n\n' % (g, len(groups[g]), ', '.join('`%s`' % n for n in groups[g]))
p = root + '/DESIGN.md'
t = open(p).read()
a, b = '<!-- axioms: generated by tools/axioms.py -->\n', '<!-- end axioms -->'
i, j = t.index(a) + len(a), t.index(b)
open(p, 'w').write(t[:i] + text + t[j:])
print({g: len(v) for g, v in groups.items()})
