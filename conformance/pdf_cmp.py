import glob, json, miniyaml
bad = 0
n = 0
for p, o in zip(sorted(glob.glob('/repo/tests/datatests/data_pdf_parser/*.yml')), open('out3.txt')):
    n += 1
    want = miniyaml.load(open(p).read())
    got = json.loads(o)
    if not isinstance(got, list):
        print(p, got)
        bad += 1
        continue
    def norm(x):
        x = x if isinstance(x, dict) else {}
        return (float(x.get('indent', 0)), str(x.get('is_bold', False)).lower() == 'true',
                str(x.get('is_justified', False)).lower() == 'true', str(x.get('content') or ''))
    a, b = [norm(x) for x in want], [norm(x) for x in got]
    ok = len(a) == len(b)
    if not ok:
        print(p, 'lines', len(a), len(b))
    for x, y in zip(a, b):
        # as in test_pdf_parser.rs, without the absolute value; one recorded indentation is larger
        if y[0] - x[0] >= 0.01 or x[1:] != y[1:]:
            ok = False
            print(p, x, y)
    bad += not ok
print(bad, 'bad of', n, 'pages')
