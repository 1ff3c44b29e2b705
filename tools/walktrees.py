#!/usr/bin/env python3
"""Writes lean/Verif/Model/WalkerTree.lean: the syntax trees of the texts in Model/WalkerText, as `Spec/GoWide` reads them. That they are
the trees of these texts is proved in Lean; nothing depends on this program."""
import importlib.util, os, re, subprocess, sys

TOOLS = os.path.dirname(os.path.abspath(__file__))
LEAN = TOOLS.rsplit('/', 1)[0] + '/lean'
src = open(TOOLS + '/trees.py').read()
PROG = src[src.index("PROG = r'''") + 11:src.index("'''\nFILES")].replace('import Verif.Model.Source\n', 'import Verif.Model.WalkerText\nimport Verif.Spec.GoWide\n')
e = open(TOOLS + '/embed.py').read()
exec(e[e.index('WALKER = ['):e.index(']\n', e.index('WALKER = [')) + 2])
PROG += '''
def wide (p : String) (t : Text) : IO Unit := do
  match parseWide t with
  | none => IO.println s!"FAIL {p}"
  | some (f, _) => IO.println (F p f)
'''
prog = PROG + ''.join(f'#eval wide "src_{n}" Pb.Go.WalkText.{n}Go\n' for n, *_ in WALKER)
o = subprocess.run(['lake', 'env', 'lean', '--stdin'], input=prog, cwd=LEAN, capture_output=True, text=True).stdout
assert 'FAIL' not in o and ': error' not in o, o[:2000]
at = {n: f'{f}:{a}-{b}' for n, f, a, b in WALKER}
o = re.sub(r'^def src_(\w+) : FuncDecl', lambda m: f'/-- {at[m.group(1)]} -/\n' + m.group(0), o, flags=re.M)
head = '''import Verif.Model.WalkerText
/-
The syntax trees of the texts in `Model/WalkerText`, written by tools/walktrees.py. That they are the trees of these texts is
`Props/SourceWalk.lean` `C79_trees`.
-/
namespace Pb.Go.WalkText

'''
open(LEAN + '/Verif/Model/WalkerTree.lean', 'w').write(head + o.rstrip('\n') + '\n\nend Pb.Go.WalkText\n')
