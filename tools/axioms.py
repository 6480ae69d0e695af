#!/usr/bin/env python3
"""Write AXIOMS.md: the axioms each claimed theorem depends on, as printed by Lean."""
import json,subprocess,re,os
root=os.path.dirname(os.path.dirname(os.path.abspath(__file__)))
m=json.load(open(root+'/MANIFEST.json'))
names=[t for c in m['claims'] for t in c['theorems']]
open('/tmp/ax.lean','w').write('import Verif\n'+'\n'.join(f'#print axioms {n}' for n in names)+'\n')
o=subprocess.run(['lake','env','lean','/tmp/ax.lean'],cwd=root+'/lean',capture_output=True,text=True).stdout
d={}
for n,a in re.findall(r"'([^']+)' (?:depends on axioms: \[([^\]]*)\]|does not depend on any axioms)",o.replace('\n ',' ')): d[n]=a or '(none)'
with open(root+'/AXIOMS.md','w') as f:
    f.write('# Axioms\n\nOutput of `#print axioms` for every theorem of MANIFEST.json (regenerate with `tools/axioms.py`). Nothing else is used.\n\n| theorem | axioms |\n|---|---|\n')
    for n in names: f.write(f'| {n} | {d.get(n,"?")} |\n')
print(len(names),sum(n not in d for n in names))
