#!/usr/bin/env python3
"""Write DESIGN.md: tools/design_head.md, one entry per property (how it is proved, then the note of the manifest), tools/design_tail.md."""
import json, os, re
here = os.path.dirname(os.path.abspath(__file__))
how = json.load(open(os.path.join(here, 'how.json')))
notes = json.load(open(os.path.join(here, 'notes.json')))
out = [open(os.path.join(here, 'design_head.md')).read().rstrip(), '']
for line in open(os.path.join(here, '..', 'properties.jsonl')):
    p = json.loads(line)
    out.append('* **%s %s.** %s *Result:* %s' % (p['id'], p['title'], how[p['id']], notes[p['id']]))
out += ['', open(os.path.join(here, 'design_tail.md')).read().rstrip(), '']
open(os.path.join(here, '..', 'DESIGN.md'), 'w').write('\n'.join(out))
