import json,re,glob
notes=json.load(open('/verif/tools/notes.json'))
th={}
for f in sorted(glob.glob('/verif/lean/Verif/Props/*.lean')):
    t=open(f).read()
    t=re.sub(r'/-.*?-/','',t,flags=re.S)
    for m in re.finditer(r'^theorem (C(\d+)_\w+)',t,flags=re.M):
        th.setdefault('C'+m.group(2),[]).append('Blang.Props.'+m.group(1))
out=[]
for l in open('/verif/properties.jsonl'):
    p=json.loads(l)['id']
    st,note,*more=notes.get(p,[None,''])
    ts=th.get(p,[])+(more[0] if more else [])
    if not ts and st!='not_applicable': continue
    if st is None: st='partial' if any(x.endswith('_partial') for x in ts) else 'proved'
    out.append({"property":p,"status":st,"theorems":ts,"note":note})
open('/verif/MANIFEST.json','w').write('{"claims": [\n'+',\n'.join(json.dumps(o) for o in out)+'\n]}\n')
print(len(out),[ (o['property'],o['status']) for o in out])
