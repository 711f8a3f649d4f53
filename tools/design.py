"""Write DESIGN.md = tools/design_head.md + the axioms of every theorem in the manifest."""
import os, subprocess
root = os.path.dirname(os.path.dirname(os.path.abspath(__file__)))
ax = subprocess.run(['python3', root + '/tools/axioms.py'], capture_output=True, text=True).stdout
assert 'MISSING' not in ax and 'sorryAx' not in ax
open(root + '/DESIGN.md', 'w').write(open(root + '/tools/design_head.md').read() +
  '## 6. Axioms per theorem\n\nFrom `#print axioms` (`python3 tools/axioms.py`).\n\n' + ax)
