import json, miniyaml
with open('in4.txt', 'w') as f:
    for l in open('in2.txt'):
        m, p = l.split()
        f.write(m + ' ' + p + ' ' + json.dumps(miniyaml.load(open(p[:-4] + '.yml').read()), ensure_ascii=False) + '\n')
