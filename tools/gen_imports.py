"""Regenerate lean/Verif.lean from the modules under lean/Verif."""
import os
root = os.path.join(os.path.dirname(os.path.abspath(__file__)), '..', 'lean')
mods = []
for d, _, fs in os.walk(os.path.join(root, 'Verif')):
    for f in fs:
        if f.endswith('.lean'):
            mods.append(os.path.relpath(os.path.join(d, f), root)[:-5].replace('/', '.'))
order = ['Model', 'Spec', 'Lemmas', 'Props']
mods.sort(key=lambda m: (order.index(m.split('.')[1]) if m.split('.')[1] in order else 9, m))
with open(os.path.join(root, 'Verif.lean'), 'w') as f:
    for m in mods:
        f.write('import %s\n' % m)
