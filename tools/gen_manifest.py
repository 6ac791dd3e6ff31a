#!/usr/bin/env python3
# Generates /verif/MANIFEST.json: theorem names are collected from lean/Verif/Props, status/notes are below.
import json,re,glob,os
R=os.path.dirname(os.path.dirname(os.path.abspath(__file__)))
names={}
for f in sorted(glob.glob(R+'/lean/Verif/Props/*.lean')):
    for mm in re.finditer(r'^theorem (C\d\d_\w+)',open(f).read(),re.M):
        names.setdefault(mm.group(1)[:3],[]).append('Blast.'+mm.group(1))
S={}
exec(open(R+'/tools/manifest_notes.py').read())
claims=[]
for l in open(R+'/properties.jsonl'):
    i=json.loads(l)['id']
    if i in names:
        st,note=S.get(i,('partial','TODO'))
        claims.append(dict(property=i,status=st,theorems=names[i],note=note))
        if i not in S: print('no note for',i)
    elif i in S:
        st,note=S[i]; claims.append(dict(property=i,status=st,theorems=[],note=note))
    else: print('no theorem for',i)
json.dump(dict(claims=claims),open(R+'/MANIFEST.json','w'),indent=1)
