"""Write lean/Verif/Declared.lean: the tables that the classes of /repo/pyflp declare, read with `ast` (nothing is run).

Usage: python3 tools/declared.py > lean/Verif/Declared.lean
"""

import ast
import glob

CONST = {"BYTE": 0, "WORD": 64, "DWORD": 128, "TEXT": 192, "DATA": 208}


def consts():
    for node in ast.parse(open("/repo/pyflp/_events.py").read()).body:
        target = node.target if isinstance(node, ast.AnnAssign) else node.targets[0] if isinstance(node, ast.Assign) else None
        if isinstance(target, ast.Name) and target.id in CONST:
            assert number(node.value) == CONST[target.id]


def number(e):
    if isinstance(e, ast.Constant):
        return e.value
    if isinstance(e, ast.Name):
        return CONST[e.id]
    if isinstance(e, ast.BinOp) and isinstance(e.op, ast.Add):
        return number(e.left) + number(e.right)
    if isinstance(e, ast.BinOp) and isinstance(e.op, ast.LShift):
        return number(e.left) << number(e.right)
    if isinstance(e, ast.Call) and ast.unparse(e.func) == "Final":
        return number(e.args[0])
    raise ValueError(ast.unparse(e))


def q(s):
    assert '"' not in s and "\\" not in s and "\n" not in s, s
    return '"' + s + '"'


def lst(xs):
    return "[" + ", ".join(xs) + "]"


def con(e):
    """A construct expression."""
    t = ast.unparse(e)
    if isinstance(e, ast.BinOp) and isinstance(e.op, ast.Mult):  # con * "docs"
        return con(e.left)
    if isinstance(e, ast.Attribute) and t.startswith("c."):
        return f".prim {q(t[2:])}"
    if isinstance(e, ast.Name):
        return f".prim {q(t)}"
    if isinstance(e, ast.Subscript) and isinstance(e.slice, ast.Constant):
        return f".array ({con(e.value)}) {e.slice.value}"
    if isinstance(e, ast.Call):
        f = ast.unparse(e.func)
        if f == "c.Optional":
            return f".optional ({con(e.args[0])})"
        if f == "c.Bytes":
            return f".bytes {number(e.args[0])}"
        if f == "c.If":
            return f".cond {q(ast.unparse(e.args[0]).replace(chr(39), ''))} ({con(e.args[1])})"
        if f.startswith("StdEnum["):
            return f".stdEnum {q(f[8:-1])} ({con(e.args[0])})"
        if f == "c.Enum":
            return f".enum ({con(e.args[0])})"
        if f in ("HeightAdapter", "List2Tuple", "LinearMusical", "Log2", "LogNormal"):
            rest = ", ".join(ast.unparse(a) for a in e.args[1:])
            return f".adapt {q(f + ('' if not rest else '(' + rest + ')'))} ({con(e.args[0])})"
    raise ValueError(t)


def struct_fields(call):
    out = []
    for a in call.args:
        while isinstance(a, ast.BinOp) and isinstance(a.op, ast.Mult):  # "name" / con * "docs"
            a = a.left
        assert isinstance(a, ast.BinOp) and isinstance(a.op, ast.Div), ast.unparse(a)
        out.append(f"({q(a.left.value)}, {con(a.right)})")
    return out


def struct(e):
    """`c.Struct(...)`, perhaps compiled or in a `c.GreedyRange`; None for nested ones."""
    compiled = False
    if isinstance(e, ast.Call) and isinstance(e.func, ast.Attribute) and e.func.attr == "compile":
        compiled, e = True, e.func.value
    greedy = False
    if isinstance(e, ast.Call) and ast.unparse(e.func) == "c.GreedyRange":
        greedy, e = True, e.args[0]
    if not (isinstance(e, ast.Call) and ast.unparse(e.func) == "c.Struct"):
        return None
    try:
        return greedy, compiled, struct_fields(e)
    except ValueError:
        return None


events, flags, structs, props, nested, plugins, choices, subs, vst, shown = [], [], [], [], [], [], [], [], [], []
consts()


def public(cls):
    """The public names in the body of a class, in order (`vars(cls)`), and what they are."""
    out = {}
    for s in cls.body:
        if isinstance(s, ast.Assign):
            val = s.value
            out.setdefault(ast.unparse(s.targets[0]), "descriptor" if isinstance(val, ast.Call) else "constant")
        elif isinstance(s, ast.AnnAssign) and s.value is not None:
            out.setdefault(ast.unparse(s.target), "descriptor" if isinstance(s.value, ast.Call) else "constant")
        elif isinstance(s, ast.FunctionDef):
            out.setdefault(s.name, "property" if "property" in [ast.unparse(d) for d in s.decorator_list] else "method")
    return [(k, v) for k, v in out.items() if not k.startswith("_")]


def vst_props(path, cls):
    """Properties of `VSTPlugin` and of the classes in it."""
    for s in cls.body:
        if isinstance(s, ast.ClassDef):
            vst_props(path + [s.name], s)
        elif isinstance(s, ast.Assign) and isinstance(s.value, ast.Call):
            name, val = ast.unparse(s.targets[0]), s.value
            f = val.func
            f = ast.unparse(f.value if isinstance(f, ast.Subscript) else f)
            if f in ("_VSTPluginProp", "_VSTFlagProp"):
                kw = {k.arg: k.value for k in val.keywords}
                prop = kw.pop("prop").value if "prop" in kw else None
                inv = kw.pop("inverted").value if "inverted" in kw else False
                assert not kw and len(val.args) == 1
                vst.append((".".join(path), name, f, ast.unparse(val.args[0]).split("."), prop, inv))


for path in sorted(glob.glob("/repo/pyflp/*.py")):
    for cls in ast.parse(open(path).read()).body:
        if not isinstance(cls, ast.ClassDef):
            continue
        bases = [ast.unparse(b) for b in cls.bases]
        base = bases[0] if bases else ""
        if "ModelReprMixin" in bases and not any(isinstance(s, ast.FunctionDef) and s.name == "__repr__" for s in cls.body):
            shown.append((cls.name, public(cls)))
        if cls.name == "VSTPlugin":
            vst_props([], cls)
        for s in cls.body:
            if isinstance(s, ast.Assign):
                name, val = ast.unparse(s.targets[0]), s.value
            elif isinstance(s, ast.AnnAssign) and s.value is not None:
                name, val = ast.unparse(s.target), s.value
            else:
                continue
            if base == "EventEnum":
                if isinstance(val, ast.Tuple):
                    events.append((cls.name, name, number(val.elts[0]), ast.unparse(val.elts[1])))
                else:
                    events.append((cls.name, name, number(val), ""))
            elif base == "enum.IntFlag":
                flags.append((cls.name, name, number(val)))
            elif name == "STRUCT" and base in ("StructEventBase", "ListEventBase"):
                r = struct(val)
                if r is not None:
                    structs.append((cls.name, *r))
            elif cls.name == "_VSTPluginEventID":
                subs.append((name, number(val)))
            elif name == "INTERNAL_NAME":
                assert base.startswith("_PluginBase[")
                plugins.append((cls.name, val.value, base[12:-1]))
            elif isinstance(val, ast.Call) and ast.unparse(val.func) == "PluginProp":
                choices.append((cls.name, name, [ast.unparse(a) for a in val.args]))
            elif isinstance(val, ast.Call):
                f = val.func
                f = ast.unparse(f.value if isinstance(f, ast.Subscript) else f)
                if f in ("EventProp", "StructProp", "FlagProp", "_WrapperProp", "_NativePluginProp"):
                    kw = {k.arg: k.value for k in val.keywords}
                    args = list(val.args)
                    flag = None
                    if f in ("FlagProp", "_WrapperProp"):
                        flag = ast.unparse(args.pop(0)).split(".")
                    ids = [ast.unparse(a).split(".") for a in args]
                    prop = kw.pop("prop").value if "prop" in kw else None
                    inv = kw.pop("inverted").value if "inverted" in kw else False
                    default = ast.unparse(kw.pop("default")) if "default" in kw else ""
                    ro = kw.pop("readonly").value if "readonly" in kw else False
                    assert not kw, kw
                    props.append((cls.name, name, f, flag, ids, prop, inv, default, base, ro))
                elif f == "NestedProp":
                    nested.append((cls.name, name, ast.unparse(val.args[0]), [ast.unparse(a).split(".") for a in val.args[1:]]))

print('''/-!
# What the classes of PyFLP declare

Generated by `tools/declared.py` from the text of `/repo/pyflp/*.py`: the event ids and their types (`EventEnum` classes),
the members of the flag classes (`enum.IntFlag`), the flat structs of the event classes (`STRUCT`) and the properties
declared with descriptors.  This file is independent of the model; `Props/Declared.lean` compares the two.
-/

namespace PyFLP.Declared

/-- A member of an `EventEnum` class, with the name of its event class (empty if there is none). -/
structure EventDecl where
  cls : String
  member : String
  id : Nat
  type : String
  deriving DecidableEq, Repr

/-- A member of a flag class. -/
structure FlagDecl where
  cls : String
  member : String
  value : Nat
  deriving DecidableEq, Repr

/-- Construct expressions that occur as fields. -/
inductive Con
  /-- `c.Int32ul`, `c.Flag`, …; `FourByteBool` -/
  | prim (name : String)
  /-- `c.Bytes(n)` -/
  | bytes (n : Nat)
  /-- `con[n]` -/
  | array (con : Con) (n : Nat)
  | optional (con : Con)
  /-- `c.If(condition, con)` -/
  | cond (condition : String) (con : Con)
  /-- `StdEnum[cls](con)` -/
  | stdEnum (cls : String) (con : Con)
  /-- `c.Enum(con, …)` -/
  | enum (con : Con)
  /-- another adapter -/
  | adapt (name : String) (con : Con)
  deriving DecidableEq, Repr

/-- The `STRUCT` of an event class: `greedy` if it is in a `c.GreedyRange`, `compiled` with `.compile()`. -/
structure StructDecl where
  cls : String
  greedy : Bool
  compiled : Bool
  fields : List (String × Con)
  deriving DecidableEq, Repr

/-- A property: class, attribute, descriptor, flag, event ids (enum class and member), the arguments `prop`, `inverted`,
`default` and `readonly`, and the first base class of the class. -/
structure PropDecl where
  cls : String
  attr : String
  descr : String
  flag : Option (String × String)
  events : List (String × String)
  prop : Option String
  inverted : Bool
  default : String
  readonly : Bool
  base : String
  deriving DecidableEq, Repr

/-- A `NestedProp`: class, attribute, class of the model, event ids. -/
structure NestedDecl where
  cls : String
  attr : String
  model : String
  events : List (String × String)
  deriving DecidableEq, Repr

/-- A class of plugins: its `INTERNAL_NAME` and the class of its data event. -/
structure PluginDecl where
  cls : String
  internalName : String
  type : String
  deriving DecidableEq, Repr

/-- A `PluginProp` with its classes. -/
structure ChoiceDecl where
  cls : String
  attr : String
  types : List String
  deriving DecidableEq, Repr

/-- A property of `VSTPlugin`: the class in it that declares it (empty for itself), attribute, descriptor, sub-event or
flag, `prop` and `inverted`. -/
structure VstDecl where
  cls : String
  attr : String
  descr : String
  what : String × String
  prop : Option String
  inverted : Bool
  deriving DecidableEq, Repr

/-- A class with `ModelReprMixin` and no `__repr__` of its own: the public names in its body, and what they are. -/
structure ReprDecl where
  cls : String
  names : List (String × String)
  deriving DecidableEq, Repr
''')


def table(name, typ, doc, rows):
    print(f"/-- {doc} -/\ndef {name} : List {typ} := [")
    print(",\n".join("  " + r for r in rows) + "]\n")


def opt(x, f):
    return "none" if x is None else f"(some {f(x)})"


def pair(p):
    assert len(p) == 2, p
    return f"({q(p[0])}, {q(p[1])})"


def boolean(b):
    return "true" if b else "false"


table("events", "EventDecl", "The members of all `EventEnum` classes.",
      [f"⟨{q(a)}, {q(b)}, {c}, {q(d)}⟩" for a, b, c, d in events])
table("flags", "FlagDecl", "The members of all flag classes.", [f"⟨{q(a)}, {q(b)}, {c}⟩" for a, b, c in flags])
table("structs", "StructDecl", "The flat structs.",
      [f"⟨{q(a)}, {boolean(g)}, {boolean(c)}, [\n      " + ",\n      ".join(f) + "]⟩" for a, g, c, f in structs])
table("props", "PropDecl", "The properties.",
      [f"⟨{q(a)}, {q(b)}, {q(d)}, {opt(fl, pair)}, {lst([pair(i) for i in ids])}, {opt(pr, q)}, {boolean(inv)}, {q(df)}, "
       f"{boolean(ro)}, {q(base)}⟩" for a, b, d, fl, ids, pr, inv, df, base, ro in props])
table("nested", "NestedDecl", "The models within models.",
      [f"⟨{q(a)}, {q(b)}, {q(m)}, {lst([pair(i) for i in ids])}⟩" for a, b, m, ids in nested])
table("plugins", "PluginDecl", "The classes of plugins.", [f"⟨{q(a)}, {q(b)}, {q(t)}⟩" for a, b, t in plugins])
table("choices", "ChoiceDecl", "The classes that can be the plugin of a model.",
      [f"⟨{q(a)}, {q(b)}, {lst([q(t) for t in ts])}⟩" for a, b, ts in choices])
table("subevents", "(String × Nat)", "The sub-events of VST plugin data (`_VSTPluginEventID`).", [f"({q(a)}, {n})" for a, n in subs])
table("vst", "VstDecl", "The properties of `VSTPlugin`.",
      [f"⟨{q(a)}, {q(b)}, {q(d)}, {pair(w)}, {opt(pr, q)}, {boolean(i)}⟩" for a, b, d, w, pr, i in vst])
table("reprs", "ReprDecl", "The classes that get their `__repr__` from `ModelReprMixin`.",
      [f"⟨{q(a)}, {lst([pair(n) for n in ns])}⟩" for a, ns in shown])
print("end PyFLP.Declared")
