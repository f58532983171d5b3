#!/usr/bin/env python3
"""note.py Cxx "text" [status]: set the manifest note of a property."""
import json, os, sys
p = os.path.dirname(os.path.abspath(__file__)) + '/notes.json'
d = json.load(open(p))
e = {'note': sys.argv[2]}
if len(sys.argv) > 3: e['status'] = sys.argv[3]
d[sys.argv[1]] = e
json.dump(d, open(p, 'w'), indent=1, ensure_ascii=False, sort_keys=True)
