"""Write MANIFEST.json: theorems are collected from the sources by their name prefix."""
import json, re, glob, os
root = os.path.dirname(os.path.dirname(os.path.abspath(__file__)))
props = [json.loads(l) for l in open(root + '/properties.jsonl')]
notes = json.load(open(root + '/tools/notes.json')) if os.path.exists(root + '/tools/notes.json') else {}
thms = {}
for f in sorted(glob.glob(root + '/lean/Verif/Props/*.lean')):
    ns = []
    for line in open(f):
        m = re.match(r'namespace (\S+)', line)
        if m: ns.append(m.group(1))
        m = re.match(r'end (\S+)', line)
        if m and ns and ns[-1] == m.group(1): ns.pop()
        m = re.match(r'(?:theorem|lemma) (C\d+)_(\w+)', line)
        if m: thms.setdefault(m.group(1), []).append('.'.join(ns + [m.group(1) + '_' + m.group(2)]))
claims = []
for p in props:
    i = p['id']
    if i not in thms: continue
    st = 'partial' if any(t.endswith('_partial') for t in thms[i]) else 'proved'
    n = notes.get(i, {})
    claims.append({'property': i, 'status': n.get('status', st), 'theorems': thms[i],
                   'note': n.get('note', p['title'])})
json.dump({'claims': claims}, open(root + '/MANIFEST.json', 'w'), indent=1, ensure_ascii=False)
print(len(claims), 'claims;', [p['id'] for p in props if p['id'] not in thms], 'without theorem')
