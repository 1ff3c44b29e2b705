#!/usr/bin/env python3
"""Writes or checks lean/Verif/Model/Source.lean, GenCodecText.lean and WalkerText.lean: the text of Go files of /repo, as Lean terms.

    embed.py write   writes the files
    embed.py         checks that the files are what `write` would write
"""
import sys

REPO = '/repo/proto/'
OUT = __file__.rsplit('/', 2)[0] + '/lean/Verif/Model/Source.lean'
TMPL = __file__.rsplit('/', 2)[0] + '/lean/Verif/Model/GenCodecText.lean'
# Lean name, file, first and last line (None: all)
FILES = [
    ('sizeGo', 'size.go', None),
    ('encodeGo', 'encode.go', None),
    ('decodeGo', 'decode.go', None),
    ('normalCodecGo', 'normal_codec.go', None),
    ('requiredCodecGo', 'required_codec.go', None),
    ('optionCodecGo', 'option_codec.go', None),
    ('isSomeGo', 'option.go', (23, 25)),
    ('unsafePointerGo', 'option.go', (46, 48)),
    ('structGo', 'struct.go', (1, 149)),
    ('derefGo', 'walker.go', (280, 282)),
    ('growSliceGo', 'slice.go', (90, 99)),
    ('fieldErrorGo', 'error.go', (23, 29)),
    ('messageSizeGo', 'walker.go', (88, 96)),
    ('messageEncodeGo', 'walker.go', (97, 106)),
    ('messageDecodeGo', 'walker.go', (107, 118)),
    ('pointerSizeGo', 'walker.go', (343, 349)),
    ('pointerEncodeGo', 'walker.go', (353, 359)),
    ('pointerDecodeGo', 'walker.go', (364, 370)),
    ('sliceSizeGo', 'slice.go', (33, 42)),
    ('sliceEncodeGo', 'slice.go', (47, 55)),
    ('sliceDecodeGo', 'slice.go', (61, 74)),
    ('mapSizeGo', 'map.go', (35, 55)),
    ('mapEncodeGo', 'map.go', (64, 93)),
    ('mapDecodeGo', 'map.go', (117, 143)),
    ('apiGo', 'proto.go', (15, 61)),
    ('inspectGo', 'proto.go', (68, 70)),
]

WALK = __file__.rsplit('/', 2)[0] + '/lean/Verif/Model/WalkerText.lean'
# the functions of type analysis, each on its own
WALKER = [
    ('codec', 'walker.go', 29, 75),
    ('structCodec', 'walker.go', 77, 121),
    ('baseKindOf', 'walker.go', 123, 125),
    ('baseTypeOf', 'walker.go', 127, 132),
    ('structInfo', 'walker.go', 134, 276),
    ('pointer', 'walker.go', 284, 297),
    ('required', 'walker.go', 299, 340),
    ('pointerSizeFuncOf', 'walker.go', 342, 350),
    ('pointerEncodeFuncOf', 'walker.go', 352, 360),
    ('pointerDecodeFuncOf', 'walker.go', 362, 371),
    ('sliceCodecOf', 'slice.go', 13, 29),
    ('sliceSizeFuncOf', 'slice.go', 31, 43),
    ('sliceEncodeFuncOf', 'slice.go', 45, 56),
    ('sliceDecodeFuncOf', 'slice.go', 58, 75),
    ('mapCodec', 'map.go', 20, 28),
    ('mapSizeFuncOf', 'map.go', 30, 56),
    ('mapEncodeFuncOf', 'map.go', 58, 94),
    ('mapDecodeFuncOf', 'map.go', 100, 144),
    ('parseStructTag', 'struct.go', 159, 223),
    ('splitFields', 'struct.go', 225, 227),
    ('cachedStructInfoOf', 'proto.go', 111, 125),
]

def q(l):
    return 't!"' + l.replace('\\', '\\\\').replace('"', '\\"').replace('\t', '\\t') + '"'

def template():
    src = open(REPO + 'gen/option/main.go').read()
    at = 'const decodeTmpl = `'
    assert src.count(at) == 1
    ls = src[src.index(at) + len(at):]
    ls = ls[:ls.index('`')].split('\n')
    assert ls[-1] == ''
    return '''import Verif.Model.Source
/-
The template in gen/option/main.go, line by line. Written by tools/embed.py, which compares it with /repo as well.
-/
namespace Pb.Go

/-- proto/gen/option/main.go:11-47 -/
def decodeTmpl : Text := lines [
''' + ',\n'.join('  ' + q(l) for l in ls[:-1]) + ']\n\nend Pb.Go\n'

def walker():
    out = ['''import Verif.Model.Source
/-
The text of the functions that analyse types, as it is in /repo/proto, line by line. Written by tools/embed.py, which compares it with
/repo as well.
-/
namespace Pb.Go.WalkText
''']
    for name, f, a, b in WALKER:
        ls = open(REPO + f).read().split('\n')[a - 1:b]
        assert ls[-1] == '}' and ls[0].startswith('func ')
        out.append(f'/-- proto/{f}:{a}-{b} -/\ndef {name}Go : Text := lines [')
        out.append(',\n'.join('  ' + q(l) for l in ls) + ']\n')
    out.append('end Pb.Go.WalkText\n')
    return '\n'.join(out)

def text():
    out = ['''import Verif.Spec.GoSyntax
/-
The text of Go files of the library, as it is in /repo/proto, line by line. Written by tools/embed.py; `tools/embed.py` without arguments
compares this file with /repo.
-/
namespace Pb.Go

/-- Lines, each with a newline after it. -/
def lines (ls : List Text) : Text := ls.flatMap (· ++ ['\\n'])
''']
    for name, f, r in FILES:
        ls = open(REPO + f).read().split('\n')
        assert ls[-1] == ''
        ls = ls[:-1]
        if r:
            ls = ls[r[0] - 1:r[1]]
        where = f'proto/{f}' + (f':{r[0]}-{r[1]}' if r else '')
        out.append(f'/-- {where} -/\ndef {name} : Text := lines [')
        out.append(',\n'.join('  ' + q(l) for l in ls) + ']\n')
    out.append('end Pb.Go\n')
    return '\n'.join(out)

if sys.argv[1:] == ['write']:
    open(OUT, 'w').write(text())
    open(TMPL, 'w').write(template())
    open(WALK, 'w').write(walker())
else:
    ok = open(OUT).read() == text() and open(TMPL).read() == template() and open(WALK).read() == walker()
    print('same' if ok else 'different')
    sys.exit(0 if ok else 1)
