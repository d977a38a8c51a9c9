#!/usr/bin/env python3
"""Write MANIFEST.json from the theorem names in lean/Verif/Props and the notes in tools/notes.json, and
lean/Verif.lean from the list of modules."""
import glob, json, re, os
root = os.path.dirname(os.path.dirname(os.path.abspath(__file__)))
mods = sorted(glob.glob(root + '/lean/Verif/**/*.lean', recursive=True))
with open(root + '/lean/Verif.lean', 'w') as f:
    for m in mods:
        f.write('import ' + os.path.relpath(m, root + '/lean')[:-5].replace('/', '.') + '\n')
th = {}
for m in mods:
    if '/Props/' not in m: continue
    for l in open(m):
        r = re.match(r'(?:protected |private )?theorem (C\d\d\w*)', l)
        if r:
            th.setdefault(re.match(r'C\d+', r.group(1)).group(0), []).append('Props.' + r.group(1))
notes = json.load(open(root + '/tools/notes.json'))
claims = []
for l in open(root + '/properties.jsonl'):
    c = json.loads(l)['id']
    if c in th:
        st = 'partial' if any(t.endswith('_partial') or '_fails' in t for t in th[c]) else 'proved'
        claims.append({'property': c, 'status': st, 'theorems': th[c], 'note': notes.get(c, '')})
        if not notes.get(c): print('no note for', c)
    elif c in notes.get('not_applicable', {}):
        claims.append({'property': c, 'status': 'not_applicable', 'theorems': [], 'note': notes['not_applicable'][c]})
    else:
        print('not covered', c)
json.dump({'claims': claims}, open(root + '/MANIFEST.json', 'w'), indent=1)
