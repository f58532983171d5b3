#!/usr/bin/env python3
"""Write AXIOMS.md: the axioms each property theorem depends on (run after `lake build`)."""
import re, subprocess, collections
out = subprocess.run(['lake', 'env', 'lean', 'Verif/Axioms.lean'], cwd='/verif/lean',
                     capture_output=True, text=True).stdout
by = collections.OrderedDict()
for line in re.sub(r'\n\s+', ' ', out).splitlines():
    m = re.search(r"'([^']+)' (?:depends on axioms: \[(.*)\]|does not depend on any axioms)", line)
    if m:
        by.setdefault(m.group(2) or 'no axioms', []).append(m.group(1))
with open('/verif/AXIOMS.md', 'w') as f:
    f.write('# Axioms of the property theorems\n\nGenerated by `tools/axioms.py` from `lean/Verif/Axioms.lean`.\n')
    for k in sorted(by, key=lambda k: len(by[k])):
        f.write(f'\n## {k} ({len(by[k])} theorems)\n\n')
        f.write('\n'.join(f'* `{t}`' for t in sorted(by[k])) + '\n')
