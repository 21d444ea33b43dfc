#!/usr/bin/env python3
"""Regenerate MANIFEST.json and lean/Verif.lean from the Lean sources.
Property theorems are named Cnn_... and live in lean/Verif/Props/*.lean (namespace Vecmat)."""
import json, re, glob, os
root = os.path.dirname(os.path.dirname(os.path.abspath(__file__)))
mods = sorted(glob.glob(root + '/lean/Verif/**/*.lean', recursive=True))
with open(root + '/lean/Verif.lean', 'w') as f:
    for m in mods:
        f.write('import ' + os.path.relpath(m, root + '/lean')[:-5].replace('/', '.') + '\n')
thms = {}
for m in mods:
    if '/Props/' not in m: continue
    src = open(m).read()
    src = re.sub(r'/-.*?-/', '', src, flags=re.S)
    for mm in re.finditer(r'^theorem\s+(C(\d\d+)_\w+)', src, flags=re.M):
        thms.setdefault('C' + mm.group(2), []).append('Vecmat.' + mm.group(1))
status = json.load(open(root + '/tools/status.json'))
props = [json.loads(l)['id'] for l in open(root + '/properties.jsonl') if l.strip()]
claims = []
for p in props:
    st = status.get(p, {})
    if p in thms:
        claims.append({'property': p, 'status': st.get('status', 'proved'), 'theorems': thms[p], 'note': st.get('note', '')})
    elif st.get('status') == 'not_applicable':
        claims.append({'property': p, 'status': 'not_applicable', 'theorems': [], 'note': st['note']})
json.dump({'claims': claims}, open(root + '/MANIFEST.json', 'w'), indent=1, ensure_ascii=False)
print(len(claims), 'claims', sum(len(c['theorems']) for c in claims), 'theorems; missing', [p for p in props if p not in {c['property'] for c in claims}])
