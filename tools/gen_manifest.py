"""Regenerate MANIFEST.json."""
import json, os
here = os.path.dirname(os.path.abspath(__file__))
claims = []
def c(prop, status, theorems, note=''):
    claims.append({'property': prop, 'status': status, 'theorems': ['Bloscpack.' + t for t in theorems], 'note': note})
exec(open(os.path.join(here, 'claims.py')).read())
claims.sort(key=lambda x: x['property'])
with open(os.path.join(here, '..', 'MANIFEST.json'), 'w') as f:
    json.dump({'claims': claims}, f, indent=1)
    f.write('\n')
