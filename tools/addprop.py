#!/usr/bin/env python3
"""addprop.py TITLE STATEMENT QUANTIFIER WHY ANCHOR...: append a property with the next free identifier."""
import json, sys
rows = [json.loads(l) for l in open('/verif/properties.jsonl')]
n = max(int(r['id'][1:]) for r in rows) + 1
t, s, q, w, *a = sys.argv[1:]
with open('/verif/properties.jsonl', 'a') as f:
    f.write(json.dumps({"id": f"C{n:02d}", "title": t, "statement": s, "quantifier": q, "why_tests_cant": w, "anchors": a}) + '\n')
print(f"C{n:02d}")
