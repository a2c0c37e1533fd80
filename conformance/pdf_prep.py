# Reads the recorded PDF files with a small reader and writes pages, fonts and operations as JSON.
import glob, json, re
from minipdf import *

GLYPHS = dict(minus='−', Uhungarumlaut='Ű', uhungarumlaut='ű', Ohungarumlaut='Ő', ohungarumlaut='ő',
              iota='ι', gamma='γ', Epsilontonos='Έ', zcaron='ž', dcroat='đ', ccaron='č', scedilla='ş')

def winansi():
    r = []
    for c in range(256):
        try:
            s = bytes([c]).decode('cp1252')
        except UnicodeDecodeError:
            s = None
        if c < 32:
            s = None
        r.append(s)
    return r

def glyph(name):
    if name in GLYPHS:
        return GLYPHS[name]
    m = re.fullmatch('uni([0-9A-F]{4})', name)
    if m:
        return chr(int(m.group(1), 16))
    if name.startswith('f_'):
        return None  # ligatures are not in the list of names
    return '\ufffd'  # the recorded fonts have these in their map to Unicode too, which wins

def u16(b):
    return b.decode('utf-16-be')

def tounicode(d):
    out = []
    for kind, body in re.findall(rb'begin(bfchar|bfrange)(.*?)end\1', d, re.S):
        lx = Lex(body)
        items = []
        while True:
            lx.ws()
            if lx.p >= len(body):
                break
            items.append(lx.obj())
        if kind == b'bfchar':
            for a, b in zip(items[::2], items[1::2]):
                out.append((int.from_bytes(a, 'big'), u16(b)))
        else:
            for a, b, c in zip(items[::3], items[1::3], items[2::3]):
                lo, hi = int.from_bytes(a, 'big'), int.from_bytes(b, 'big')
                for i in range(lo, hi + 1):
                    if isinstance(c, list):
                        out.append((i, u16(c[i - lo])))
                    else:
                        s = u16(c)
                        out.append((i, s[:-1] + chr(ord(s[-1]) + i - lo)))
    return out

class Conv:
    def __init__(self, F):
        self.F = F
        self.fonts, self.objects = {}, {}

    def font(self, ref):
        F, f = self.F, self.F.get(ref)
        key = ref[0]
        if key in self.fonts:
            return key
        sub = f['Subtype']
        j = dict(isCid=sub == 'Type0', name=f.get('BaseFont'))
        if sub == 'Type0':
            d = F.get(F.get(f['DescendantFonts'])[0])
            j['default'] = str(F.get(d.get('DW', '1000')))
            ws, arr, i = [], [F.get(x) for x in F.get(d.get('W', []))], 0
            while i < len(arr):
                if isinstance(arr[i + 1], list):
                    ws += [[int(arr[i]) + k, str(F.get(w))] for k, w in enumerate(arr[i + 1])]
                    i += 2
                else:
                    ws += [[k, str(arr[i + 2])] for k in range(int(arr[i]), int(arr[i + 1]) + 1)]
                    i += 3
            j['widths'] = ws
        else:
            first = int(F.get(f['FirstChar']))
            j['default'] = '0'
            j['widths'] = [[first + k, str(F.get(w))] for k, w in enumerate(F.get(f['Widths']))]
        e = F.get(f.get('Encoding'))
        base, diffs = e, []
        if isinstance(e, dict):
            base = e.get('BaseEncoding')
            c = 0
            for x in F.get(e.get('Differences', [])):
                if isinstance(x, Num):
                    c = int(x)
                else:
                    g = glyph(x)
                    diffs.append([c, g])
                    c += 1
        j['base'] = {'WinAnsiEncoding': 'w', 'Identity-H': 'i', None: 'n'}.get(base, 'u')
        j['differences'] = diffs
        j['toUnicode'] = tounicode(F.stream(f['ToUnicode'])) if 'ToUnicode' in f else None
        self.fonts[key] = j
        return key

    def resources(self, r):
        F, r = self.F, self.F.get(r)
        if not isinstance(r, dict):
            return None
        fonts = [[k, self.font(v)] for k, v in (F.get(r.get('Font')) or {}).items()]
        gs = []
        for k, v in (F.get(r.get('ExtGState')) or {}).items():
            f = F.get(v).get('Font')
            gs.append([k, None if f is None else [self.font(F.get(f)[0]), str(F.get(f)[1])]])
        xo = []
        for k, v in (F.get(r.get('XObject')) or {}).items():
            xo.append([k, v[0]])
            self.object(v)
        return dict(fonts=fonts, gs=gs, xo=xo)

    def object(self, ref):
        if ref[0] in self.objects:
            return
        self.objects[ref[0]] = None
        d, _ = self.F.get(ref)
        if d.get('Subtype') == 'Form':
            self.objects[ref[0]] = dict(resources=self.resources(d.get('Resources')), ops=self.ops(self.F.stream(ref)))

    def ops(self, data):
        out, F = [], self.F
        for o, a in ops(data):
            n = [str(x) if isinstance(x, Num) else x for x in a]
            if o in ('BDC', 'BMC'):
                p = F.get(a[1]) if len(a) > 1 else None
                t = p.get('ActualText') if isinstance(p, dict) else None
                if isinstance(t, bytes):
                    t = t[2:].decode('utf-16-be') if t[:2] == b'\xfe\xff' else t.decode('latin1')
                else:
                    t = None
                out.append(['BDC', '/' + a[0], t])
            elif o in ('EMC', 'q', 'Q', 'BT', 'ET', 'T*'):
                out.append([o])
            elif o in ('gs', 'Do'):
                out.append([o, a[0]])
            elif o == 'TD':
                out.append(['TL', neg(n[1])])
                out.append(['Td'] + n)
            elif o in ('Tf', 'Tc', 'Tw', 'Tz', 'TL', 'Ts', 'Td', 'Tm'):
                out.append([o] + n)
            elif o == 'Tj':
                out.append(['Tj', list(a[0])])
            elif o == 'TJ':
                out.append(['TJ', [str(x) if isinstance(x, Num) else list(x) for x in a[0]]])
            elif o in ("'", '"'):
                raise Exception(o)
            else:
                out.append(['other'])
        return out

def neg(s):
    return s[1:] if s.startswith('-') else '-' + s

for f in sorted(glob.glob('/repo/tests/datatests/data_pdf_parser/*.pdf')):
    F = File(open(f, 'rb').read())
    pages = F.get(F.get(F.trailer['Root'])['Pages'])
    page = F.get(pages['Kids'][0])
    c = Conv(F)
    res = c.resources(page.get('Resources', pages.get('Resources')))
    cs = F.get(page['Contents'])
    cs = cs if isinstance(cs, list) else [page['Contents']]
    o = c.ops(b'\n'.join(F.stream(x) for x in cs))
    print(json.dumps(dict(resources=res, ops=o, fonts=list(c.fonts.items()), objects=list(c.objects.items()), winansi=winansi())))
