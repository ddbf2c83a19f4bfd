"""Writes lean/Verif/DslPy.lean: the abstract syntax of /repo/llmlift_scripts/dsl.py, read with Python's own parser."""
import ast

SRC = "/repo/llmlift_scripts/dsl.py"
OUT = "/verif/lean/Verif/DslPy.lean"
BIN = {ast.Add: "add", ast.Sub: "sub", ast.Mult: "mul", ast.FloorDiv: "floordiv", ast.Mod: "mod"}
CMP = {ast.Eq: "eq", ast.Lt: "lt", ast.LtE: "le", ast.Gt: "gt", ast.GtE: "ge"}


def opt(e):
    return "none" if e is None else f"(some {par(e)})"


def par(e):
    return "(" + ex(e) + ")"


def lst(es):
    return "[" + ", ".join(ex(e) for e in es) + "]"


def ex(e):
    if isinstance(e, ast.Name):
        return f'.name "{e.id}"'
    if isinstance(e, ast.Constant) and type(e.value) is int:
        return f".num {e.value}"
    if isinstance(e, ast.BinOp):
        return f".bin .{BIN[type(e.op)]} {par(e.left)} {par(e.right)}"
    if isinstance(e, ast.Compare) and len(e.ops) == 1:
        return f".cmp .{CMP[type(e.ops[0])]} {par(e.left)} {par(e.comparators[0])}"
    if isinstance(e, ast.BoolOp):
        op = "and" if isinstance(e.op, ast.And) else "or"
        if len(e.values) == 1:
            return ex(e.values[0])
        return f".{op} {par(e.values[0])} ({ex(ast.BoolOp(e.op, e.values[1:]))})"
    if isinstance(e, ast.UnaryOp) and isinstance(e.op, ast.Not):
        return f".not {par(e.operand)}"
    if isinstance(e, ast.IfExp):
        return f".ite {par(e.test)} {par(e.body)} {par(e.orelse)}"
    if isinstance(e, ast.Call) and not e.keywords:
        return f".call {par(e.func)} {lst(e.args)}"
    if isinstance(e, ast.Subscript):
        if isinstance(e.slice, ast.Slice):
            assert e.slice.step is None
            return f".slice {par(e.value)} {opt(e.slice.lower)} {opt(e.slice.upper)}"
        return f".index {par(e.value)} {par(e.slice)}"
    if isinstance(e, ast.List):
        return f".list {lst(e.elts)}"
    if isinstance(e, ast.Starred):
        return f".starred {par(e.value)}"
    raise ValueError(ast.dump(e))


def ty(t):
    if isinstance(t, ast.Name):
        return {"int": ".int", "bool": ".bool"}[t.id]
    if t.value.id == "List":
        return f".list {tp(t.slice)}"
    assert t.value.id == "Callable"
    a, r = t.slice.elts
    return f".callable {tp(r)} [{', '.join(ty(x) for x in a.elts)}]"


def tp(t):
    s = ty(t)
    return s if " " not in s else f"({s})"


def wrap(s, ind, width=150):
    out, cur = [], ind
    for w in s.split(" "):
        if len(cur) + len(w) + 1 > width:
            out.append(cur.rstrip())
            cur = ind
        cur += w + " "
    out.append(cur.rstrip())
    return "\n".join(out)


tree = ast.parse(open(SRC).read())
names, defs = [], []
for f in tree.body:
    if not isinstance(f, ast.FunctionDef):
        continue
    (ret,) = f.body
    params = ", ".join(f'("{a.arg}", {ty(a.annotation)})' for a in f.args.args)
    parts = f.name.split("_")
    name = "py" + "".join(p.capitalize() for p in parts)
    names.append(name)
    defs.append(f"/-- `{f.name}` (`llmlift_scripts/dsl.py` {f.lineno}-{f.end_lineno}). -/\ndef {name} : PyDef where\n"
                f'  name := "{f.name}"\n' + wrap(f"params := [{params}]", "  ") + f"\n  ret := {ty(f.returns)}\n" +
                "  body :=\n" + wrap(ex(ret.value), "    ") + "\n")
with open(OUT, "w") as o:
    o.write('''import Verif.PyModule
/-
The functions of `llmlift_scripts/dsl.py`, written by `scripts/mkdsl.py`, which reads the file with Python's own parser.  `a or b or c` is
`.or a (.or b c)`, as in `Verif.PySyntax`.
-/
namespace Metalift.Ten
open Py (PyDef)

''')
    o.write("\n".join(defs))
    o.write("\n/-- The module. -/\ndef dslModule : List PyDef :=\n" + wrap("[" + ", ".join(names) + "]", "  ") + "\n\nend Metalift.Ten\n")
