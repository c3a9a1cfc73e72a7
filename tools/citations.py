"""Checks that every citation `Symbol` ... (file.py:a-b) in the model lies within the definition of the symbol in /repo."""
import ast, glob, os, re, sys
files = {}
for f in glob.glob('/repo/**/*.py', recursive=True):
  if f.endswith('_test.py') and not f.endswith('/t_test.py'): continue
  files.setdefault(os.path.basename(f), []).append(f)
def symbols(path):
  out = {}
  def walk(node, pre):
    for n in ast.iter_child_nodes(node):
      if isinstance(n, (ast.ClassDef, ast.FunctionDef)):
        start = min([n.lineno] + [d.lineno for d in n.decorator_list])
        out.setdefault(pre + n.name, []).append((start, n.end_lineno))
        walk(n, pre + n.name + '.')
      else:
        walk(n, pre)
  walk(ast.parse(open(path).read()), '')
  return out
cache = {}
bad = 0; n = 0
for f in sorted(glob.glob('lean/Verif/**/*.lean', recursive=True)):
  text = open(f).read(); edits = []
  for m in re.finditer(r'/--(.*?)-/', text, re.S):
    doc = m.group(1)
    line = text[:m.start()].count('\n') + 1
    last = None
    for c in re.finditer(r'`([A-Za-z_][\w.]*)[^`]*`|([\w/]*?)(\w+\.py):(\d+)(?:-(\d+))?((?:, \d+(?:-\d+)?)*)', doc):
      if c.group(1):
        last = c.group(1); continue
      n += 1
      base = c.group(3); cands = files.get(base, [])
      pre = c.group(2)
      if pre: cands = [x for x in cands if pre.strip('/') in x]
      rs = [(int(c.group(4)), int(c.group(5) or c.group(4)))]
      for r in re.findall(r'(\d+)(?:-(\d+))?', c.group(6) or ''): rs.append((int(r[0]), int(r[1] or r[0])))
      if not cands:
        print(f'{f}:{line}: no file {base}'); bad += 1; continue
      msgs = []; ok = False
      for p in cands:
        if p not in cache: cache[p] = (symbols(p), len(open(p).read().splitlines()))
        sy, total = cache[p]
        if any(b > total or a > b for a, b in rs): msgs.append('out of range'); continue
        hit = [r for k, v in sy.items() for r in v if last and (k == last or k.endswith('.' + last))]
        if last and hit:
          if any(a >= s - 1 and b <= e + 1 for s, e in hit for a, b in rs[:1]): ok = True
          else:
            msgs.append(f'{last} is at {hit}, cited {rs}')
            if '--fix' in sys.argv and len(hit) == 1 and len(rs) == 1: edits.append((m.start(1) + c.start(4), m.start(1) + c.end(5 if c.group(5) else 4), f'{hit[0][0]}-{hit[0][1]}'))
        else: ok = True
      if not ok and msgs:
        print(f'{f}:{line}: {base} {msgs[0]}'); bad += 1
  if edits:
    for a, b, r in sorted(edits, reverse=True): text = text[:a] + r + text[b:]
    open(f, 'w').write(text)
print(n, 'citations', bad, 'bad')
