import re
def scalar(s):
    s=s.strip()
    if s.startswith("'") and s.endswith("'") and len(s)>=2: return s[1:-1].replace("''","'")
    if s.startswith('"') and s.endswith('"') and len(s)>=2:
        return s[1:-1].replace('\\"','"').replace('\\\\','\\')
    if s in('true','false'): return s=='true'
    if s in ('~','null',''): return None
    if s=='[]': return []
    if s=='{}': return {}
    if re.fullmatch(r'-?\d+',s): return int(s)
    return s
def load(txt):
    lines=[]
    for l in txt.split('\n'):
        if l.strip()=='' or l.startswith('---') or l.strip().startswith('#'): continue
        ind=len(l)-len(l.lstrip(' '))
        lines.append([ind,l.strip()])
    pos=0
    keyre=re.compile(r'''^("(?:[^"\\]|\\.)*"|'[^']*'|[^:'"\[][^:]*?)\s*:(?:\s+(.*))?$''')
    def cont(v,ind):
        nonlocal pos
        v=v.strip()
        if v and v[0] in '"\'' and not (len(v)>1 and v.endswith(v[0])):
            while not v.endswith(v[0]):
                v+=' '+lines[pos][1]; pos+=1
        return v
    def block(ind):
        nonlocal pos
        i,s=lines[pos]
        if s.startswith('- ') or s=='-':
            out=[]
            while pos<len(lines) and lines[pos][0]==i and (lines[pos][1].startswith('- ') or lines[pos][1]=='-'):
                rest=lines[pos][1][2:] 
                k=len(lines[pos][1])-len(lines[pos][1][1:].lstrip())
                rest=lines[pos][1][1:].lstrip()
                if keyre.match(rest) :
                    lines[pos]=[i+k,rest]
                    out.append(block(i+k))
                else:
                    pos+=1
                    if rest in('|','>','|-','>-'): raise Exception('blk')
                    out.append(scalar(cont(rest,i)))
            return out
        d={}
        while pos<len(lines) and lines[pos][0]==i and not lines[pos][1].startswith('- '):
            m=keyre.match(lines[pos][1])
            if not m: raise Exception('bad line '+lines[pos][1])
            k=scalar(m.group(1)); v=m.group(2)
            pos+=1
            if v is None or v=='':
                if pos<len(lines) and (lines[pos][0]>i or (lines[pos][0]==i and lines[pos][1].startswith('- '))):
                    d[k]=block(lines[pos][0])
                else: d[k]=None
            elif v.strip() in ('|','>','|-','>-'):
                acc=[]
                while pos<len(lines) and lines[pos][0]>i: acc.append(lines[pos][1]); pos+=1
                d[k]=(' ' if '>' in v else '\n').join(acc)
            else: 
                d[k]=scalar(cont(v,i))
        return d
    return block(0)
