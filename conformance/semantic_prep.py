import glob,json,miniyaml
out=[];exp=[]
for f in sorted(glob.glob('/repo/tests/datatests/data_semantic_parser/**/*.yml',recursive=True)):
    try: d=miniyaml.load(open(f).read())
    except Exception as e:
        print('skip',f,e); continue
    ab=d.get('abbreviations') or {}
    out.append(d['text']); 
    for k,v in ab.items(): out.append('@%s|%d|%d'%(k,v['year'],v['number']))
    out.append('=')
    exp.append((f,d))
open('in.txt','w').write('\n'.join(out)+'\n')
json.dump(exp,open('exp.json','w'))
print(len(exp))
