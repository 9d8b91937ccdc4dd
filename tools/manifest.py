# builds MANIFEST.json from theorem names Cxx_* in Props
import re,glob,json
notes=json.load(open('/tmp/gen/notes.json'))
props=[json.loads(l)['id'] for l in open('/verif/properties.jsonl')]
th={}
for f in sorted(glob.glob('/verif/lean/Verif/Props/*.lean')):
    for m in re.finditer(r'^theorem (C\d\d\d?_\w*)',open(f).read(),re.M):
        th.setdefault(m.group(1).split('_')[0],[]).append('VO.'+m.group(1))
out=[]
for p in props:
    n=notes.get(p,{})
    ts=th.get(p,[])
    st=n.get('status') or ('proved' if ts else 'pending')
    out.append({"property":p,"status":st,"theorems":ts,"note":n.get('note','')})
missing=[o['property'] for o in out if o['status']=='pending']
print('pending',missing)
out=[o for o in out if o['status']!='pending']
json.dump({"claims":out},open('/verif/MANIFEST.json','w'),indent=1,ensure_ascii=False)
