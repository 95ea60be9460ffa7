#!/usr/bin/env python3
"""usage: note.py ID STATUS NOTE: record the status and note of a property"""
import json, sys, os
p = os.path.join(os.path.dirname(os.path.abspath(__file__)), 'notes.json')
d = json.load(open(p))
d[sys.argv[1]] = {"status": sys.argv[2], "note": sys.argv[3]}
json.dump(d, open(p, 'w'), indent=1)
