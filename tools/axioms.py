"""Print, for every theorem of MANIFEST.json, the axioms it depends on (needs a finished `lake build`)."""
import json, os, re, subprocess, tempfile
root = os.path.dirname(os.path.dirname(os.path.abspath(__file__)))
thms = [t for c in json.load(open(root + '/MANIFEST.json'))['claims'] for t in c['theorems']]
with tempfile.NamedTemporaryFile('w', suffix='.lean', delete=False) as f:
    f.write('import Verif\n' + ''.join(f'#print axioms {t}\n' for t in thms))
out = subprocess.run(['lake', 'env', 'lean', f.name], cwd=root + '/lean', capture_output=True, text=True).stdout
os.unlink(f.name)
out = re.sub(r'\s+', ' ', out)
groups = {}
for t in thms:
    m = re.search(r"'" + re.escape(t) + r"' (depends on axioms: \[(.*?)\]|does not depend on any axioms)", out)
    ax = 'MISSING' if not m else (', '.join(sorted(m.group(2).split(', '))) if m.group(2) else 'none')
    groups.setdefault(ax, []).append(t.split('.')[-1])
for ax, ts in sorted(groups.items()):
    print(f'* **{ax}** ({len(ts)}): ' + ', '.join(f'`{t}`' for t in ts))
