n = bad = other = 0
for l, o in zip(open('in2.txt'), open('out4.txt')):
    n += 1
    o = o.strip()
    if not o.startswith('ok'):
        bad += 1
        print(l.strip(), o)
    # recorded acts with fields that have the default value are not written in the same way
    other += o == 'ok other'
print(bad, 'bad of', n, 'recorded acts read;', n - other, 'of them are written as recorded')
