#!/usr/bin/env python3
"""Writes lean/Verif/Model/SourceTree.lean: the syntax trees of the texts in Model/Source. That they are the trees of these texts is proved
in Lean; nothing depends on this program."""
import subprocess, re

LEAN = __file__.rsplit('/', 2)[0] + '/lean'
PROG = r'''
import Verif.Model.Source
open Pb Pb.Go
def T (t : Text) : String := "t!\"" ++ String.ofList t ++ "\""
def B : BinOp → String
  | .add => ".add" | .sub => ".sub" | .mul => ".mul" | .div => ".div" | .rem => ".rem" | .shl => ".shl" | .shr => ".shr" | .and => ".and"
  | .or => ".or" | .xor => ".xor" | .eq => ".eq" | .ne => ".ne" | .lt => ".lt" | .le => ".le" | .gt => ".gt" | .ge => ".ge"
  | .land => ".land" | .lor => ".lor"
def U : UnOp → String
  | .neg => ".neg" | .not => ".not" | .deref => ".deref" | .addr => ".addr" | .sliceOf => ".sliceOf"
def E : Expr → String
  | .ident n => s!"(.ident {T n})"
  | .num n => s!"(.num {n})"
  | .str s => s!"(.str {T s})"
  | .un o e => s!"(.un {U o} {E e})"
  | .bin o a b => s!"(.bin {B o} {E a} {E b})"
  | .call f a => s!"(.call {E f} {E a})"
  | .sel e n => s!"(.sel {E e} {T n})"
  | .index e i => s!"(.index {E e} {E i})"
  | .slice e i j => s!"(.slice {E e} {E i} {E j})"
  | .spread e => s!"(.spread {E e})"
  | .lit e i => s!"(.lit {E e} {E i})"
  | .kv e i => s!"(.kv {E e} {E i})"
  | .none => ".none"
  | .arg e i => s!"(.arg {E e} {E i})"
def S : Stmt → String
  | .skip => ".skip"
  | .seq a b => s!"(.seq {S a}\n    {S b})"
  | .define l e => s!"(.define {E l} {E e})"
  | .assign l e => s!"(.assign {E l} {E e})"
  | .opAssign o l e => s!"(.opAssign {B o} {E l} {E e})"
  | .var n t => s!"(.var {T n} {E t})"
  | .ret e => s!"(.ret {E e})"
  | .ite i c t e => s!"(.ite {S i} {E c}\n    {S t}\n    {S e})"
  | .switch t c => s!"(.switch {E t}\n    {S c})"
  | .case e b r => s!"(.case {E e}\n    {S b}\n    {S r})"
  | .default b r => s!"(.default {S b} {S r})"
  | .range k v e b => s!"(.range {T k} {T v} {E e}\n    {S b})"
  | .loop i c p b => s!"(.loop {S i} {E c} {S p}\n    {S b})"
  | .expr e => s!"(.expr {E e})"
  | .defer e => s!"(.defer {E e})"
  | .cont => ".cont"
def L {α} (f : α → String) (l : List α) : String := "[" ++ ", ".intercalate (l.map f) ++ "]"
def P (p : Text × Expr) : String := s!"({T p.1}, {E p.2})"
def K : Tok → String
  | .word w => s!".word {T w}"
  | .op w => s!".op {T w}"
  | .str w => s!".str {T w}"
  | .semi => ".semi"
def F (n : String) (f : FuncDecl) : String := s!"def {n} : FuncDecl where\n  recv := {match f.recv with | some r => "some " ++ P r | none => "none"}\n  name := {T f.name}\n  params := {L P f.params}\n  results := {L P f.results}\n  body :=\n    {S f.body}\n"
def closure (p : String) (t : Text) : IO Unit := do
  match parseClosure t with
  | none => IO.println s!"FAIL {p}"
  | some f => IO.println (F s!"closure_{p}" f)
def D (p : String) : Decl → String × String
  | .func f => (s!"{p}_{String.ofList f.name}", F s!"{p}_{String.ofList f.name}" f)
  | .var n e => (s!".var {T n} {E e}", "")
  | .imports ps => (s!".imports {L T ps}", "")
  | .other w ts => (s!".other {T w} {L K ts}", "")
def out (p src : String) (t : Text) : IO Unit := do
  match parse t with
  | none => IO.println s!"FAIL {p}"
  | some ds =>
    for d in ds do
      let r := D p d
      if r.2 ≠ "" then IO.println r.2
    IO.println s!"/-- The declarations in `{src}`. -/\ndef {p}_decls : List Decl := [\n  {",\n  ".intercalate (ds.map fun d => match d with | .func _ => ".func " ++ (D p d).1 | _ => (D p d).1)}]\n"
'''
FILES = [('size', 'sizeGo'), ('encode', 'encodeGo'), ('decode', 'decodeGo'), ('normal', 'normalCodecGo'), ('required', 'requiredCodecGo'),
         ('option', 'optionCodecGo'), ('isSome', 'isSomeGo'), ('unsafePointer', 'unsafePointerGo'), ('struct', 'structGo'),
         ('deref', 'derefGo'), ('growSlice', 'growSliceGo'), ('fieldError', 'fieldErrorGo'),
         ('api', 'apiGo'), ('inspect', 'inspectGo')]
CLOSURES = {'messageSize': 'walker.go:88-96', 'messageEncode': 'walker.go:97-106', 'messageDecode': 'walker.go:107-118',
            'pointerSize': 'walker.go:343-349', 'pointerEncode': 'walker.go:353-359', 'pointerDecode': 'walker.go:364-370',
            'sliceSize': 'slice.go:33-42', 'sliceEncode': 'slice.go:47-55', 'sliceDecode': 'slice.go:61-74',
            'mapSize': 'map.go:35-55', 'mapEncode': 'map.go:64-93', 'mapDecode': 'map.go:117-143'}
prog = PROG + ''.join(f'#eval out "{p}" "{s}" {s}\n' for p, s in FILES)
prog += ''.join(f'#eval closure "{p}" {p}Go\n' for p in CLOSURES)
o = subprocess.run(['lake', 'env', 'lean', '--stdin'], input=prog, cwd=LEAN, capture_output=True, text=True).stdout
assert 'FAIL' not in o and ': error' not in o, o[:2000]
GO = {'size': 'size.go', 'encode': 'encode.go', 'decode': 'decode.go', 'normal': 'normal_codec.go', 'required': 'required_codec.go',
      'option': 'option_codec.go', 'isSome': 'option.go', 'unsafePointer': 'option.go', 'struct': 'struct.go', 'deref': 'walker.go', 'growSlice': 'slice.go',
      'fieldError': 'error.go', 'api': 'proto.go', 'inspect': 'proto.go'}

def cite(m):
    if m.group(1) == 'closure':
        return f'/-- {CLOSURES[m.group(2)]} -/\n' + m.group(0)
    f = GO[m.group(1)]
    ls = open('/repo/proto/' + f).read().split('\n')
    i = next(i for i, l in enumerate(ls) if re.match(r'func (\([^)]*\) )?' + m.group(2) + r'\(', l))
    j = next(j for j in range(i, len(ls)) if ls[j] == '}')
    return f'/-- {f}:{i + 1}-{j + 1} -/\n' + m.group(0)

o = re.sub(r'^def ([a-zA-Z]+)_(\w+) : FuncDecl', cite, o, flags=re.M)
head = '''import Verif.Model.Source
/-
The syntax trees of the texts in `Model/Source`, written by tools/trees.py. That they are the trees of these texts is
`Props/Source.lean` `C75_trees`.
-/
namespace Pb.Go.Tree

'''
open(LEAN + '/Verif/Model/SourceTree.lean', 'w').write(head + o.rstrip('\n') + '\n\nend Pb.Go.Tree\n')
