#!/usr/bin/env python3
# Builds MANIFEST.json from the theorem names found in lean/Verif/Props (naming: Cxx_...) and the notes below.
import json,re,glob,os,sys
sys.path.insert(0,os.path.dirname(__file__))
import props
NOTES={}   # id -> (status override or None, note)
exec(open(os.path.join(os.path.dirname(__file__),'notes.py')).read())
root=os.path.join(os.path.dirname(__file__),'..')
th={}
for f in sorted(glob.glob(root+'/lean/Verif/Props/*.lean')):
    for m in re.finditer(r'^(?:private )?theorem (C\d\d)(_\w+)',open(f).read(),re.M):
        th.setdefault(m.group(1),[]).append('Verif.'+m.group(1)+m.group(2))
claims=[]
for p in props.P:
    t=th.get(p['id'],[])
    st,note=NOTES.get(p['id'],(None,''))
    if st is None: st='proved'
    if not t and st!='not_applicable': continue
    claims.append(dict(property=p['id'],status=st,theorems=t,note=note))
json.dump({'claims':claims},open(root+'/MANIFEST.json','w'),indent=1)
print(len(claims),'claims')
