import json
exp=json.load(open('exp.json'))
def norm(x):
    if isinstance(x,dict): return {k:norm(v) for k,v in x.items() if k!='replacements'}
    if isinstance(x,list): return [norm(v) for v in x]
    if isinstance(x,bool) or x is None: return x
    return str(x)
bad=0
for (f,d),l in zip(exp,open('out.txt')):
    r=json.loads(l)
    if r is None: print('NULL',f); bad+=1; continue
    t=d['text']; p=[' ']*len(t)
    b=t.encode()
    for o in r['refs']:
        s=len(b[:o['start']].decode()); e=len(b[:o['end']].decode())
        p[s]='<'; p[e-1]='>'
    errs=[]
    if ''.join(p)!=d['positions']: errs.append(('pos',''.join(p),d['positions']))
    if norm([o['reference'] for o in r['refs']])!=norm(d.get('expected_references') or []): errs.append(('refs',r['refs'],d.get('expected_references')))
    if norm(r['phrase'])!=norm(d.get('expected_special_phrase')): errs.append(('phrase',r['phrase'],d.get('expected_special_phrase')))
    if norm(r['abbr'])!=norm(d.get('expected_new_abbreviations') or {}): errs.append(('abbr',r['abbr']))
    if errs:
        bad+=1
        print(f.split('/')[-2:]); 
        for e in errs: print('   ',str(e)[:700])
print(bad,'of',len(exp))
