"""Regenerates MANIFEST.json: theorem names are collected from lean/Verif/Props by prefix Cnn_.
Statuses and notes come from tools/status.json ({"C01": {"status":..., "note":...}})."""
import json, re, pathlib, collections
root = pathlib.Path(__file__).resolve().parent.parent
thms = collections.defaultdict(list)
for f in sorted((root/'lean/Verif/Props').rglob('*.lean')):
    ns = []
    for line in f.read_text().splitlines():
        m = re.match(r'^(?:noncomputable\s+)?(namespace|section|mutual)\b\s*(\S*)', line)
        if m: ns.append(m.group(2) if m.group(1)=='namespace' else None); continue
        if re.match(r'^end\b', line) and ns: ns.pop(); continue
        m = re.match(r'^(?:@\[.*?\]\s*)?(?:protected\s+)?theorem\s+(\S+)', line)
        if m and re.match(r'^C\d\d+_', m.group(1)):
            name = '.'.join([n for n in ns if n] + [m.group(1)])
            thms[m.group(1).split('_')[0]].append(name)
status = json.loads((root/'tools/status.json').read_text())
claims = []
for line in (root/'properties.jsonl').read_text().splitlines():
    pid = json.loads(line)['id']
    st = status.get(pid, {})
    t = thms.get(pid, [])
    s = st.get('status', 'proved' if t else 'partial')
    claims.append({'property': pid, 'status': s, 'theorems': t, 'note': st.get('note', '' if t else 'not yet modelled')})
(root/'MANIFEST.json').write_text(json.dumps({'claims': claims}, indent=1)+'\n')
print(sum(len(t) for t in thms.values()), 'theorems;', [c['property'] for c in claims if not c['theorems']])
