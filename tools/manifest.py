"""Writes /verif/MANIFEST.json from the theorem names in lean/Verif/Props and the notes in tools/notes.json."""
import glob, json, os, re

root = os.path.join(os.path.dirname(os.path.abspath(__file__)), '..')
ids = [json.loads(l)['id'] for l in open(f'{root}/properties.jsonl') if l.strip()]
notes = json.load(open(f'{root}/tools/notes.json'))
thms = {}
for f in sorted(glob.glob(f'{root}/lean/Verif/Props/*.lean')):
    s = open(f).read()
    ns = re.search(r'^namespace (\S+)', s, re.M).group(1)
    for m in re.finditer(r'^(?:private )?theorem (C(\d\d+)_\w+)', s, re.M):
        thms.setdefault('C' + m.group(2), []).append(f'{ns}.{m.group(1)}')
claims = []
for i in ids:
    t = thms.pop(i, [])
    n = notes.get(i, {})
    if not t and n.get('status') != 'not_applicable':
        print('no theorem for', i)
        continue
    partial = any(x.endswith('_partial') for x in t)
    status = n.get('status') or ('partial' if partial else 'proved')
    if partial and status == 'proved':
        print('partial theorem but status proved', i)
    claims.append({'property': i, 'status': status, 'theorems': t, 'note': n.get('note', '')})
if thms:
    print('theorems without property', thms)
json.dump({'claims': claims}, open(f'{root}/MANIFEST.json', 'w'), indent=1)
print(len(claims), 'claims', sum(len(c['theorems']) for c in claims), 'theorems')
