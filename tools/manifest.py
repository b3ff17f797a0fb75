#!/usr/bin/env python3
"""Regenerate MANIFEST.json and lean/Verif/Audit.lean from the theorems named Cxx_* in lean/Verif."""
import json, re, pathlib
root = pathlib.Path(__file__).resolve().parent.parent
src = root / 'lean' / 'Verif'
# status of properties that are not simply "proved", and notes
INFO = json.loads((root / 'tools' / 'status.json').read_text())
thms, mods = {}, []
for f in sorted(src.rglob('*.lean')):
    if f.name == 'Audit.lean':
        continue
    ns, found = [], False
    for line in f.read_text().splitlines():
        if m := re.match(r'namespace (\S+)', line): ns.append(m[1])
        elif m := re.match(r'end (\S+)', line):
            if ns and ns[-1] == m[1]: ns.pop()
        elif m := re.match(r'theorem (C(\d\d+)_\S+)', line):
            thms.setdefault('C' + m[2], []).append('.'.join(ns + [m[1]])); found = True
    if found:
        mods.append('Verif.' + str(f.relative_to(src))[:-5].replace('/', '.'))
claims = []
for p in (json.loads(l)['id'] for l in (root / 'properties.jsonl').read_text().splitlines() if l.strip()):
    info = INFO.get(p, {})
    if p not in thms and not info: continue
    claims.append({'property': p, 'status': info.get('status', 'proved'), 'theorems': thms.get(p, []),
                   'note': info.get('note', '')})
(root / 'MANIFEST.json').write_text(json.dumps({'claims': claims}, indent=1, ensure_ascii=False) + '\n')
out = [f'import {m}' for m in mods] + ['', '/-! Axioms of every claimed theorem (generated by tools/manifest.py). -/', '']
for p in sorted(thms): out += [f'#print axioms {t}' for t in thms[p]]
(src / 'Audit.lean').write_text('\n'.join(out) + '\n')
print(len(claims), 'claims', sum(map(len, thms.values())), 'theorems')
