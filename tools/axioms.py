#!/usr/bin/env python3
"""Write AXIOMS.txt: the axioms of every theorem named in MANIFEST.json (run after `lake build`)."""
import json, os, re, subprocess, tempfile
root = os.path.dirname(os.path.dirname(os.path.abspath(__file__)))
names = [t for c in json.load(open(root + '/MANIFEST.json'))['claims'] for t in c['theorems']]
with tempfile.NamedTemporaryFile('w', suffix='.lean', delete=False) as f:
    f.write('import Verif\n' + ''.join(f'#print axioms {n}\n' for n in names))
out = subprocess.run(['lake', 'env', 'lean', f.name], cwd=root + '/lean', capture_output=True, text=True).stdout
out = re.sub(r'\n\s+', ' ', out)
lines = re.findall(r"'([\w.']+)' (does not depend on any axioms|depends on axioms: \[[^\]]*\])", out)
assert len(lines) == len(names), (len(lines), len(names))
open(root + '/AXIOMS.txt', 'w').write(''.join(f'{a}: {b}\n' for a, b in lines))
