"""Regenerates the axiom table of DESIGN.md (between its markers) from MANIFEST.json."""
import json, re, subprocess, tempfile, os, collections
ths = []
for c in json.load(open('/verif/MANIFEST.json'))['claims']:
    for t in c['theorems']:
        if t not in ths:
            ths.append(t)
with tempfile.TemporaryDirectory() as d:
    f = os.path.join(d, 'Ax.lean')
    open(f, 'w').write('import Verif\n' + ''.join('#print axioms %s\n' % t for t in ths))
    out = subprocess.run(['lake', 'env', 'lean', f], cwd='/verif/lean', capture_output=True, text=True).stdout
by = collections.OrderedDict()
for m in re.finditer(r"'([^']+)' (?:depends on axioms: \[([^\]]*)\]|does not depend on any axioms)", out):
    ax = ', '.join(sorted(x.strip() for x in (m.group(2) or '').split(',') if x.strip())) or 'none'
    by.setdefault(ax, []).append(m.group(1).replace('Whatami.', ''))
assert sum(map(len, by.values())) == len(ths), (len(ths), out[-500:])
txt = '| axioms | theorems |\n|---|---|\n' + ''.join('| %s | %s |\n' % (a, ', '.join(t)) for a, t in sorted(by.items()))
p = '/verif/DESIGN.md'
s = open(p).read()
s = re.sub(r'(<!-- axioms -->\n).*?(<!-- /axioms -->)', lambda m: m.group(1) + txt + m.group(2), s, flags=re.S)
open(p, 'w').write(s)
print({a: len(t) for a, t in by.items()})
