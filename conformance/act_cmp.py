
import json,miniyaml
def norm(x):
    if isinstance(x,dict):
        r={k:norm(v) for k,v in x.items() if k not in('lines',)}
        return {k:v for k,v in r.items() if v not in (None,'',[],{},False,'False')}
    if isinstance(x,list): return [norm(v) for v in x]
    return str(x) if x is not None else None
def diff(a,b,p=''):
    if type(a)!=type(b): print('   ',p,str(a)[:200],'|||',str(b)[:200]); return
    if isinstance(a,dict):
        for k in sorted(set(a)|set(b)): diff(a.get(k),b.get(k),p+'.'+k)
    elif isinstance(a,list):
        if len(a)!=len(b): print('   ',p,'len',len(a),len(b))
        for i,(x,y) in enumerate(zip(a,b)): diff(x,y,p+'[%d]'%i)
    elif a!=b: print('   ',p,a[:300],'|||',b[:300])
bad=0;n=0
for l,o in zip(open('in2.txt'),open('out2.txt')):
    p=l.split()[1]; n+=1
    try: e=norm(miniyaml.load(open(p[:-4]+'.yml').read()))
    except Exception as ex: print('YAML',p,ex); continue
    try: r=norm(json.loads(o))
    except Exception as ex: print('JSON',p,ex); continue
    if e!=r: bad+=1; print(p); diff(e,r)
print(bad,'bad of',n)
