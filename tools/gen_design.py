"""Writes DESIGN.md: tools/design_head.md, one line per property, tools/design_tail.md."""
import json, os, sys
here = os.path.dirname(os.path.abspath(__file__))
root = os.path.dirname(here)
sys.path.insert(0, here)
from design_methods import M
P = {}
for l in open(os.path.join(root, 'properties.jsonl')):
    p = json.loads(l)
    P[p['id']] = p
S = {c['property']: c for c in json.load(open(os.path.join(root, 'MANIFEST.json')))['claims']}
out = open(os.path.join(here, 'design_head.md')).read()
for i in sorted(P):
    c = S[i]
    line = f"* **{i}** {P[i]['title']}. Plan: {M[i]} Result: {c['status']}"
    if c['note']:
        line += f" ({c['note']})"
    line += ". Theorems: " + ", ".join('`' + t.replace('TK.', '') + '`' for t in c['theorems']) + "."
    out += line + "\n"
out += open(os.path.join(here, 'design_tail.md')).read()
open(os.path.join(root, 'DESIGN.md'), 'w').write(out)
