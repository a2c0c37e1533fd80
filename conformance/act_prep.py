import glob
with open('in2.txt', 'w') as f:
    for m, d in (('s', 'data_structure_parser'), ('a', 'data_add_semantic_info'), ('b', 'data_convert_block_amendments')):
        for p in sorted(glob.glob('/repo/tests/datatests/%s/*.txt' % d)):
            f.write(m + ' ' + p + '\n')
