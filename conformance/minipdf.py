# A reader for the simple PDF files among the recorded tests.
import re,zlib,base64
WS=b'\0\t\n\x0c\r '; DEL=b'()<>[]{}/%'
class Name(str): pass
class Ref(tuple): pass
class Op(str): pass
class Lex:
    def __init__(s,d,p=0): s.d=d; s.p=p
    def ws(s):
        d=s.d
        while s.p<len(d):
            if d[s.p] in WS: s.p+=1
            elif d[s.p]==37:
                while s.p<len(d) and d[s.p] not in b'\r\n': s.p+=1
            else: break
    def obj(s):
        s.ws(); d=s.d; p=s.p
        if p>=len(d): return None
        c=d[p:p+1]
        if d[p:p+2]==b'<<':
            s.p+=2; r={}
            while True:
                s.ws()
                if d[s.p:s.p+2]==b'>>': s.p+=2; return r
                k=s.obj(); r[k]=s.val()
        if c==b'<':
            e=d.index(b'>',p); h=re.sub(rb'\s',b'',d[p+1:e]); s.p=e+1
            if len(h)%2: h+=b'0'
            return bytes.fromhex(h.decode())
        if c==b'[':
            s.p+=1; r=[]
            while True:
                s.ws()
                if d[s.p:s.p+1]==b']': s.p+=1; return r
                r.append(s.val())
        if c==b'(':
            s.p+=1; n=1; r=bytearray()
            while True:
                b=d[s.p]; s.p+=1
                if b==40: n+=1; r.append(b)
                elif b==41:
                    n-=1
                    if n==0: return bytes(r)
                    r.append(b)
                elif b==92:
                    b=d[s.p]; s.p+=1
                    if b in b'nrtbf': r.append({110:10,114:13,116:9,98:8,102:12}[b])
                    elif 48<=b<=55:
                        o=chr(b)
                        while len(o)<3 and 48<=d[s.p]<=55: o+=chr(d[s.p]); s.p+=1
                        r.append(int(o,8)&255)
                    elif b==13:
                        if d[s.p]==10: s.p+=1
                    elif b==10: pass
                    else: r.append(b)
                elif b==13:
                    if d[s.p]==10: s.p+=1
                    r.append(10)
                else: r.append(b)
        if c==b'/':
            m=re.compile(rb'/([^\0\t\n\x0c\r ()<>\[\]{}/%]*)').match(d,p); s.p=m.end()
            return Name(re.sub(rb'#([0-9a-fA-F]{2})',lambda x:bytes([int(x.group(1),16)]),m.group(1)).decode('latin1'))
        m=re.compile(rb'[^\0\t\n\x0c\r ()<>\[\]{}/%]+').match(d,p)
        if not m: raise Exception((p,d[p:p+20]))
        s.p=m.end(); t=m.group().decode('latin1')
        if re.fullmatch(r'[+-]?(\d+\.?\d*|\.\d+)',t): return t if False else Num(t)
        if t=='true': return True
        if t=='false': return False
        if t=='null': return Null
        return Op(t)
    def val(s):
        a=s.obj()
        if isinstance(a,Num) and a.isdigit():
            m=re.compile(rb'[\0\t\n\x0c\r ]+(\d+)[\0\t\n\x0c\r ]+R(?![a-zA-Z0-9])').match(s.d,s.p)
            if m: s.p=m.end(); return Ref((int(a),int(m.group(1))))
        return a
class Num(str): pass
class _N: 
    def __repr__(s): return 'null'
Null=_N()
class File:
    def __init__(s,d):
        s.d=d; s.pos={}
        for m in re.finditer(rb'(?<![0-9])(\d+)\s+(\d+)\s+obj\b',d): s.pos[int(m.group(1))]=m.end()
        s.cache={}
        t=d.rfind(b'trailer')
        s.trailer=None
        if t>=0: s.trailer=Lex(d,t+7).val()
        else:
            for n in s.pos:
                o=s.get(Ref((n,0)))
                if isinstance(o,tuple) and o[0].get('Type')=='XRef': s.trailer=o[0]
    def get(s,o):
        while isinstance(o,Ref):
            if o[0] in s.cache: o=s.cache[o[0]]; continue
            if o[0] not in s.pos: return Null
            L=Lex(s.d,s.pos[o[0]]); v=L.val(); L.ws()
            if isinstance(v,dict) and s.d[L.p:L.p+6]==b'stream':
                p=L.p+6
                if s.d[p:p+2]==b'\r\n': p+=2
                else: p+=1
                n=int(s.get(v['Length'])); v=(v,s.d[p:p+n])
            s.cache[o[0]]=v; o=v
        return o
    def stream(s,o):
        v,raw=s.get(o)
        fs=s.get(v.get('Filter',[]))
        if not isinstance(fs,list): fs=[fs]
        for f in fs:
            if f=='FlateDecode': raw=zlib.decompressobj().decompress(raw)
            elif f=='ASCII85Decode':
                t=raw.strip()
                if t.endswith(b'~>'): t=t[:-2]
                raw=base64.a85decode(t)
            else: raise Exception(f)
        return raw
def ops(d):
    L=Lex(d); st=[]; out=[]
    while True:
        L.ws()
        if L.p>=len(d): return out
        o=L.obj()
        if isinstance(o,Op):
            if o=='BI':
                e=d.index(b'EI',L.p); L.p=e+2; out.append(('BI',[])); st=[]; continue
            out.append((str(o),st)); st=[]
        else: st.append(o)
