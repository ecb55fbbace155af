import json,re,glob,sys
names=[]
for f in sorted(glob.glob('/verif/lean/Verif/Props/*.lean')):
    src=open(f).read(); ns=[]
    for m in re.finditer(r'^(?:namespace (\S+)|theorem (C(\d\d)_\w+)|end (\S+))',src,re.M):
        if m.group(1): ns.append(m.group(1))
        elif m.group(4):
            if ns and ns[-1]==m.group(4): ns.pop()
        else: names.append((m.group(3),'.'.join(ns+[m.group(2)]),''))
notes=json.load(open('/verif/tools/notes.json'))
claims=[]
for l in open('/verif/properties.jsonl'):
    c=json.loads(l)['id']
    t=[n for k,n,_ in names if 'C'+k==c]
    if t:
        st=notes.get(c,{}).get('status') or ('partial' if any(x.endswith('_partial') for x in t) else 'proved')
        claims.append(dict(property=c,status=st,theorems=t,note=notes.get(c,{}).get('note','')))
    else:
        print('missing',c)
json.dump({'claims':claims},open('/verif/MANIFEST.json','w'),indent=1)
