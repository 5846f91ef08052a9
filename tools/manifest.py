#!/usr/bin/env python3
"""Regenerates MANIFEST.json: every theorem called Cnn_* under lean/Verif/Props is listed under
property Cnn; STATUS/NOTE below give the status and note."""
import json, re, glob, collections
exec(open('/verif/tools/status.py').read())
thms = collections.defaultdict(list)
for f in sorted(glob.glob('/verif/lean/Verif/Props/*.lean')):
    src = re.sub(r'/-.*?-/', '', open(f).read(), flags=re.S)
    ns = []
    for m in re.finditer(r'^(?:namespace (\S+)|end (\S+)|theorem (C\d\d+)(_\w+))', src, re.M):
        if m.group(1):
            ns.append(m.group(1))
        elif m.group(2):
            if ns and ns[-1] == m.group(2):
                ns.pop()
        else:
            thms[m.group(3)].append('.'.join(ns + [m.group(3) + m.group(4)]))
claims = []
for l in open('/verif/properties.jsonl'):
    i = json.loads(l)['id']
    if i in STATUS and (thms[i] or STATUS[i] == 'not_applicable'):
        claims.append({'property': i, 'status': STATUS[i], 'theorems': thms[i], 'note': NOTE.get(i, '')})
    else:
        print('no claim for', i)
json.dump({'claims': claims}, open('/verif/MANIFEST.json', 'w'), indent=1)
