"""Prints the axioms of every theorem of MANIFEST.json: writes AXIOMS.md.  Run after `lake build` (from /verif)."""
import json, re, subprocess, collections
claims = json.load(open('MANIFEST.json'))['claims']
names = [t for c in claims for t in c['theorems']]
src = 'import Verif\n' + ''.join('#print axioms %s\n' % n for n in names)
open('/tmp/ax.lean', 'w').write(src)
out = subprocess.run(['lake', 'env', 'lean', '/tmp/ax.lean'], cwd='lean', capture_output=True, text=True).stdout
out = re.sub(r'\n\s+', ' ', out)
ax = {}
for l in out.splitlines():
  m = re.match(r".*?'([^']+)' depends on axioms: \[(.*)\]", l)
  if m:
    ax[m.group(1)] = tuple(sorted(x.strip() for x in m.group(2).split(',')))
    continue
  m = re.match(r".*?'([^']+)' does not depend on any axioms", l)
  if m:
    ax[m.group(1)] = ()
missing = [n for n in names if n not in ax]
assert not missing, missing[:5]
groups = collections.OrderedDict()
for n in names:
  groups.setdefault(ax[n], []).append(n)
allowed = {'propext', 'Classical.choice', 'Quot.sound'}
bad = [n for n in names if not set(ax[n]) <= allowed]
with open('AXIOMS.md', 'w') as f:
  f.write('# Axioms of the theorems\n\nGenerated by `tools/axioms.py` with `#print axioms` from the compiled modules: %d theorems.\n' % len(names))
  f.write('Theorems with an axiom other than `propext`, `Classical.choice`, `Quot.sound`: %s.\n' % (', '.join(bad) or 'none'))
  for a, ns in sorted(groups.items(), key=lambda g: len(g[0])):
    f.write('\n## %s (%d)\n\n%s\n' % (', '.join(a) or 'no axioms', len(ns), ', '.join(n.split('.')[-1] for n in ns)))
print(len(names), {k: len(v) for k, v in groups.items()}, 'bad', bad)
