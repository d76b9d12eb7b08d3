# Generates /verif/MANIFEST.json: the theorems of a property are those named C<nn>_... in lean/Verif/Props.
import json,re,glob,collections
props=[json.loads(l) for l in open('/verif/properties.jsonl')]
th=collections.defaultdict(list)
for f in sorted(glob.glob('/verif/lean/Verif/Props/*.lean')):
    ns=[]
    for l in open(f):
        m=re.match(r'namespace (\S+)',l)
        if m: ns.append(m.group(1))
        m=re.match(r'end (\S+)',l)
        if m and ns and ns[-1]==m.group(1): ns.pop()
        m=re.match(r'theorem (C(\d\d\d?)_\w+)',l)
        if m: th['C'+m.group(2)].append('.'.join(ns+[m.group(1)]))
exec(open('/verif/tools/notes.py').read())
claims=[]
for p in props:
    i=p['id']; t=th.get(i,[])
    status='proved' if t else 'partial'
    if i in PARTIAL or any(x.endswith('_partial') for x in t): status='partial'
    claims.append(dict(property=i,status=status,theorems=t,note=NOTES.get(i,'') or ('' if t else 'not proved yet')))
json.dump({"claims":claims},open('/verif/MANIFEST.json','w'),indent=1)
print(len(claims),collections.Counter(c['status'] for c in claims), [c['property'] for c in claims if not c['theorems']])
