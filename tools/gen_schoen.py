"""Generates lean/Verif/Model/SchoenData.lean from the literals `z` and `f` of
the schoen classes of rbfopt_test_functions.py (the file is parsed as text with
`ast`, never imported or run). Coordinates are written in millionths, values in
tenths, both exact."""
import ast
from decimal import Decimal
P='/repo/src/rbfopt/rbfopt_test_functions.py'
src=open(P).read()
lines=src.split('\n')
def lit(node):
    """exact decimal value of a numeric literal of the source"""
    if isinstance(node,ast.UnaryOp): return -lit(node.operand)
    return Decimal(ast.get_source_segment(src,node))
out=['/-! Data of the schoen test functions, generated by tools/gen_schoen.py from',
 'rbfopt_test_functions.py: coordinates of the points in millionths, values in tenths.',
 'The data of `schoen_10_1_cat` and `schoen_10_2_cat` are their own literals. -/','',
 'namespace Rbfopt.SchoenData','']
for c in ast.parse(src).body:
    if isinstance(c,ast.ClassDef) and c.name.startswith('schoen'):
        d={s.targets[0].id:s.value for s in c.body if isinstance(s,ast.Assign)}
        z=[[lit(e)*10**6 for e in r.elts] for r in d['z'].args[0].elts]
        f=[lit(e)*10 for e in d['f'].args[0].elts]
        assert all(v==int(v) for r in z for v in r) and all(v==int(v) for v in f)
        out.append(f"/-- `{c.name}.z`, rbfopt_test_functions.py:{d['z'].lineno}-{d['z'].end_lineno}. -/")
        out.append(f"def z_{c.name[7:]} : List (List ℕ) :=\n  ["+',\n   '.join('['+', '.join(str(int(v)) for v in r)+']' for r in z)+']\n')
        out.append(f"/-- `{c.name}.f`, rbfopt_test_functions.py:{d['f'].lineno}-{d['f'].end_lineno}. -/")
        fs=[str(int(v)) for v in f]
        out.append(f"def f_{c.name[7:]} : List ℤ :=\n  ["+',\n   '.join(', '.join(fs[i:i+10]) for i in range(0,len(fs),10))+']\n')
out.append('end Rbfopt.SchoenData')
txt='\n'.join(out)+'\n'
txt='import Mathlib.Data.Nat.Notation\nimport Mathlib.Data.Int.Notation\n\n'+txt
open('/verif/lean/Verif/Model/SchoenData.lean','w').write(txt)
