import json
C=[]
def m(p,st,th,note=""):
    C.append(dict(property=p,status=st,theorems=["TicTac."+t for t in th],note=note))
exec(open('/tmp/mani_data.py').read())
ids=[json.loads(l)['id'] for l in open('/verif/properties.jsonl')]
have={c['property'] for c in C}
for i in ids:
    if i not in have: print("missing",i)
C.sort(key=lambda c:int(c['property'][1:]))
json.dump({"claims":C},open('/verif/MANIFEST.json','w'),indent=1)
