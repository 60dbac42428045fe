import Verif.Text
import Verif.Flt
/-!
# A first-order model of the `construct` combinators used by PyFLP

`Leaf` covers the primitive constructs and the adapters of `pyflp/_adapters.py`
that occur as struct fields; `Fld` adds `c.Optional` and `c.If`; a flat
`c.Struct` is a list of named fields; `c.GreedyRange` repeats a struct.

Semantics of `construct` 2.10 that are used (trusted base):
* parsing a primitive from too few bytes raises; building an out-of-range
  integer or a `Bytes(n)` of another length raises;
* `c.Optional(x)` = `c.Select(x, c.Pass)`: any exception while parsing gives
  `None` and consumes nothing, any exception while building writes nothing;
* `c.Flag` parses `byte != 0` and builds `01`/`00` from the truth value of the
  object, so building `None` writes `00`;
* `Struct.parse` ignores bytes after the last field.
-/

namespace PyFLP

/-- The transcendental functions used by two adapters (`math.log2`, `2 ** x`):
results are bit patterns of binary64 values.  Nothing is assumed about them
unless a theorem says so. -/
class FloatEnv where
  /-- `2 ** (k / 10000)` (`_adapters.py:64-65`, factor 10000); `none` = `OverflowError`. -/
  exp2 : Int → Option Nat
  /-- `int(10000 * math.log2(x))` (`_adapters.py:61-62`); `none` = exception. -/
  log2 : Nat → Option Int
  /-- `2 ** (n / 2**12) / 2**15` (`_adapters.py:93`). -/
  lnPow : Nat → Nat
  /-- `int(2**12 * (math.log2(x) + 15))` (`_adapters.py:83`), for `0 < x ≤ 1`. -/
  lnLog : Nat → Int

/-- Values of struct fields. -/
inductive LV
  /-- `int`, an `IntEnum`/`IntFlag` member or `construct.Enum` value. -/
  | int (i : Int)
  | bool (b : Bool)
  | bytes (bs : Bytes)
  /-- a binary32 / binary64 number, as its bit pattern -/
  | f32 (bits : Nat)
  | f64 (bits : Nat)
  | pair (a b : Int)
  /-- `MusicalTime` -/
  | time (bars beats ticks : Int)
  | str (s : PStr)
  /-- a plain `int` given to a field of enum members (`StdEnum`): it has no `.value` (`_adapters.py:97-98`).  The members
  of enums are `.int`, like the numbers of other fields. -/
  | num (n : Int)
  deriving DecidableEq, Repr

/-- Python truth value (`bool(obj)`), used by `c.Flag` when building. -/
def LV.truthy : LV → Bool
  | .int i => i ≠ 0
  | .bool b => b
  | .bytes bs => bs ≠ []
  | .f32 n => n ≠ 0 ∧ n ≠ 2 ^ 31
  | .f64 n => n ≠ 0 ∧ n ≠ 2 ^ 63
  | .pair _ _ => true
  | .time _ _ _ => true
  | .str s => s ≠ []
  | .num n => n ≠ 0

/-- `float(x)` of a number, as a bit pattern. -/
def LV.toFloat : LV → Py Nat
  | .f64 n => .ok n
  | .f32 n => .ok (f64OfF32 n)
  | .int i =>
    match f64Bits i with
    | some n => .ok n
    | none => .error .overflowError
  | .bool b => .ok (if b then 0x3FF0000000000000 else 0)
  | _ => .error .typeError

/-- Primitive constructs. -/
inductive Leaf
  /-- `c.Int{8w}{s,u}l`, `c.Byte`; also `StdEnum[E](c.Int…)` where `E` is a
  `ct.EnumBase` or an unsigned `enum.IntFlag`, and `c.Enum(c.Int…)`: these keep
  every integer value (unknown values become pseudo-members). -/
  | int (w : Nat) (signed : Bool)
  /-- `StdEnum[F](c.Int32sl)` with `F` an `enum.IntFlag` whose members have the
  bits `mask`: negative values are not kept (Python ≥ 3.11). -/
  | flagsS (mask : Nat)
  /-- `c.Flag` -/
  | flag
  /-- `c.Bytes(n)` -/
  | raw (n : Nat)
  /-- `c.Bytes(n)` inside a compiled struct: reads up to `n` bytes, writes any. -/
  | rawC (n : Nat)
  /-- `c.GreedyBytes` -/
  | greedy
  /-- `c.Float32l`, `c.Float64l` -/
  | f32 | f64
  /-- `_adapters.py:29-31` -/
  | fourBool
  /-- `arrangement.py:123-128` over `c.Float32l` -/
  | height
  /-- `List2Tuple(c.Int32ul[2])`, `_adapters.py:34-40` -/
  | pair32
  /-- `LinearMusical(c.Int32ul)`, `_adapters.py:43-53` -/
  | musical
  /-- `Log2(c.Int32sl, 10000)`, `_adapters.py:56-65` -/
  | log2
  /-- `LogNormal(c.Int16ul[2], (0, 61440))`, `_adapters.py:70-93` -/
  | logNormal
  deriving DecidableEq, Repr

/-- Number of bits of `n` rounded up: smallest `2^k` greater than `n`. -/
def allBits (mask : Nat) : Nat := 2 ^ (if mask = 0 then 0 else Nat.log2 mask + 1) - 1

/-- `F(v).value` for an `enum.IntFlag` class `F` with members covering `mask`
(Python ≥ 3.11, boundary `KEEP`): non-negative values are kept, negative ones
are replaced by a complement. -/
def intFlagValue (mask : Nat) (v : Int) : Int :=
  if 0 ≤ v then v
  else
    let all : Int := allBits mask
    -- `value.bit_length()` of a negative int is that of its absolute value
    let bl : Nat := Nat.log2 v.natAbs + 1
    if v < -(all + 1) ∨ ((v % (all + 1)).toNat &&& (allBits mask - mask)) ≠ 0 then
      max (all + 1) ((2 ^ bl : Nat) : Int) + v
    else all + 1 + v

/-- `(_adapters.py:50-53)` `divmod` by 768 then 48; ticks are times 5. -/
def musicalDecode (n : Int) : LV :=
  .time (n / 768) (n % 768 / 48) (n % 768 % 48 * 5)

/-- `(_adapters.py:44-48)` including the binary64 product `ticks * 0.2`. -/
def musicalEncode (bars beats ticks : Int) : Int :=
  bars * 768 + beats * 48 + trunc (fl ((ticks : Rat) * fl (1 / 5)))

/-- `str(int(obj * 100)) + "%"` (`arrangement.py:124-125`); `none` for
infinities and NaN (`OverflowError`/`ValueError`). -/
def heightDecode (bits : Nat) : Option PStr :=
  (f32Value bits).map fun q => intRepr (trunc (fl (q * 100))) ++ [37]

/-- `int(obj[:-1]) / 100` packed as binary32 (`arrangement.py:127-128`). -/
def heightEncode (s : PStr) : Option Nat :=
  match pyInt s.dropLast with
  | none => none
  | some n => f32Bits (fl ((n : Rat) / 100))

/-- Bit pattern of `1.0`. -/
def f64One : Nat := 0x3FF0000000000000

/-- `LogNormal._decode` (`_adapters.py:85-93`). -/
def lnDecode [FloatEnv] (a b : Int) : Option Nat :=
  if a = 0 then some 0
  else if b ≠ 63 then none
  else some (min f64One (FloatEnv.lnPow a.toNat))

/-- `LogNormal._encode` with bound `(0, 61440)` (`_adapters.py:75-83`).
Non-negative binary64 values are ordered like their bit patterns. -/
def lnEncode [FloatEnv] (bits : Nat) : Option (Int × Int) :=
  if bits = 0 ∨ bits = 2 ^ 63 then some (0, 0)
  else if bits ≤ f64One then some (min (max 0 (FloatEnv.lnLog bits)) 61440, 63)
  else none

/-- Two integers in a row. -/
def int2Parse (w : Nat) (bs : Bytes) : Py (Int × Int × Bytes) :=
  match intParse w false bs with
  | .error e => .error e
  | .ok (a, r) =>
    match intParse w false r with
    | .error e => .error e
    | .ok (b, r') => .ok (a, b, r')

@[inherit_doc int2Parse]
def int2Build (w : Nat) (a b : Int) : Py Bytes :=
  match intBuild w false a with
  | .error e => .error e
  | .ok x =>
    match intBuild w false b with
    | .error e => .error e
    | .ok y => .ok (x ++ y)

variable [FloatEnv]

/-- Parsing one primitive from the front of the stream. -/
def leafParse : Leaf → Bytes → Py (LV × Bytes)
  | .int w s, bs => (intParse w s bs).map fun (v, r) => (.int v, r)
  | .flagsS m, bs => (intParse 4 true bs).map fun (v, r) => (.int (intFlagValue m v), r)
  | .flag, bs =>
    match bs with
    | [] => .error .streamError
    | b :: r => .ok (.bool (b ≠ 0), r)
  | .raw n, bs => if bs.length < n then .error .streamError else .ok (.bytes (bs.take n), bs.drop n)
  | .rawC n, bs => .ok (.bytes (bs.take n), bs.drop n)
  | .greedy, bs => .ok (.bytes bs, [])
  | .f32, bs => (intParse 4 false bs).map fun (v, r) => (.f32 v.toNat, r)
  | .f64, bs => (intParse 8 false bs).map fun (v, r) => (.f64 v.toNat, r)
  | .fourBool, bs => (intParse 4 false bs).map fun (v, r) => (.bool (v ≠ 0), r)
  | .height, bs =>
    match intParse 4 false bs with
    | .error e => .error e
    | .ok (v, r) =>
      match heightDecode v.toNat with
      | some s => .ok (.str s, r)
      | none => .error .overflowError
  | .pair32, bs => (int2Parse 4 bs).map fun (a, b, r) => (.pair a b, r)
  | .musical, bs => (intParse 4 false bs).map fun (v, r) => (musicalDecode v, r)
  | .log2, bs =>
    match intParse 4 true bs with
    | .error e => .error e
    | .ok (v, r) =>
      match FloatEnv.exp2 v with
      | some x => .ok (.f64 x, r)
      | none => .error .overflowError
  | .logNormal, bs =>
    match int2Parse 2 bs with
    | .error e => .error e
    | .ok (a, b, r) =>
      match lnDecode a b with
      | some x => .ok (.f64 x, r)
      | none => .error .valueError

/-- Building one primitive.  `none` stands for Python's `None`.  Numbers of another type are converted as `struct.pack` and
`math.log2` do; other types raise.  (Simplification: integers beyond the floats raise in `log2` fields too, and `int(obj)` of
floats and texts in `fourBool` fields is not modelled.) -/
def leafBuild : Leaf → Option LV → Py Bytes
  | .int w s, some (.int v) => intBuild w s v
  | .int w s, some (.bool b) => intBuild w s (if b then 1 else 0)
  | .flagsS _, some (.int v) => intBuild 4 true v
  | .flag, v => .ok [if (v.map LV.truthy).getD false then 1 else 0]
  | .raw n, some (.bytes bs) => if bs.length = n then .ok bs else .error .streamError
  | .rawC _, some (.bytes bs) => .ok bs
  | .greedy, some (.bytes bs) => .ok bs
  | .f32, some (.f32 n) => intBuild 4 false n
  | .f32, some v =>
    match v.toFloat with
    | .error e => .error e
    | .ok x =>
      match f32OfF64 x with
      | some n => intBuild 4 false n
      | none => .error .overflowError
  | .f64, some v =>
    match v.toFloat with
    | .error e => .error e
    | .ok n => intBuild 8 false n
  | .fourBool, some (.bool b) => intBuild 4 false (if b then 1 else 0)
  | .fourBool, some (.int i) => intBuild 4 false i
  | .height, some (.str s) =>
    match heightEncode s with
    | some n => intBuild 4 false n
    | none => .error .valueError
  | .pair32, some (.pair a b) => int2Build 4 a b
  | .musical, some (.time a b c) => intBuild 4 false (musicalEncode a b c)
  | .log2, some v =>
    match v.toFloat with
    | .error e => .error e
    | .ok n =>
      match FloatEnv.log2 n with
      | some i => intBuild 4 true i
      | none => .error .valueError
  | .logNormal, some v =>
    match v.toFloat with
    | .error e => .error e
    | .ok n =>
      match lnEncode n with
      | some (a, b) => int2Build 2 a b
      | none => .error .valueError
  | .int _ _, some (.num _) => .error .attributeError
  | .flagsS _, some (.num _) => .error .attributeError
  | _, _ => .error .typeError

/-- Keyword parameters passed to `STRUCT.parse/build`: `len=len(data)` for
struct events (`_events.py:336`), `new=not len(data) % 60` for playlists
(`arrangement.py:90`). -/
structure Ctx where
  len : Nat
  deriving DecidableEq, Repr

/-- A struct field. -/
inductive Fld
  | req (l : Leaf)
  /-- `c.Optional(l)` -/
  | opt (l : Leaf)
  /-- `c.If(c.this._.len == n, l)` -/
  | ifLen (n : Nat) (l : Leaf)
  /-- `c.If(c.this._params["new"], l)`, `new = not len % 60` -/
  | ifNew (l : Leaf)
  deriving DecidableEq, Repr

/-- A flat `c.Struct`. -/
abbrev Fields := List (String × Fld)
/-- A parsed struct (`construct.Container`), in field order. -/
abbrev Rec := List (String × Option LV)

/-- Parsing one field. -/
def fldParse (cx : Ctx) : Fld → Bytes → Py (Option LV × Bytes)
  | .req l, bs => (leafParse l bs).map fun (v, r) => (some v, r)
  | .opt l, bs =>
    match leafParse l bs with
    | .ok (v, r) => .ok (some v, r)
    | .error _ => .ok (none, bs)
  | .ifLen n l, bs =>
    if cx.len = n then (leafParse l bs).map fun (v, r) => (some v, r) else .ok (none, bs)
  | .ifNew l, bs =>
    if cx.len % 60 = 0 then (leafParse l bs).map fun (v, r) => (some v, r) else .ok (none, bs)

/-- Building one field. -/
def fldBuild (cx : Ctx) : Fld → Option LV → Py Bytes
  | .req l, v => leafBuild l v
  | .opt l, v =>
    match leafBuild l v with
    | .ok bs => .ok bs
    | .error _ => .ok []
  | .ifLen n l, v => if cx.len = n then leafBuild l v else .ok []
  | .ifNew l, v => if cx.len % 60 = 0 then leafBuild l v else .ok []

/-- `c.Struct(...).parse_stream`. -/
def structParse (cx : Ctx) : Fields → Bytes → Py (Rec × Bytes)
  | [], bs => .ok ([], bs)
  | (n, f) :: fs, bs =>
    match fldParse cx f bs with
    | .error e => .error e
    | .ok (v, r) =>
      match structParse cx fs r with
      | .error e => .error e
      | .ok (rec, r') => .ok ((n, v) :: rec, r')

/-- `c.Struct(...).build`.  Python looks fields up by name; containers keep the
names and order of the struct they were parsed with, so the model goes through
both lists together and a name mismatch is a `KeyError`. -/
def structBuild (cx : Ctx) : Fields → Rec → Py Bytes
  | [], [] => .ok []
  | (n, f) :: fs, (n', v) :: rec =>
    if n = n' then
      match fldBuild cx f v with
      | .error e => .error e
      | .ok b =>
        match structBuild cx fs rec with
        | .error e => .error e
        | .ok bs => .ok (b ++ bs)
    else .error .keyError
  | _, _ => .error .keyError

/-- `c.GreedyRange(struct)`: parse items until one raises, then rewind to its
start.  An item that consumes nothing would make Python loop for ever; the
model stops there (no struct of the library is empty). -/
def greedyParse (cx : Ctx) (fs : Fields) (bs : Bytes) : List Rec × Bytes :=
  match structParse cx fs bs with
  | .error _ => ([], bs)
  | .ok (rec, r) =>
    if r.length < bs.length then
      let (recs, r') := greedyParse cx fs r
      (rec :: recs, r')
    else ([], bs)
termination_by bs.length

/-- `c.GreedyRange(struct).build`. -/
def greedyBuild (cx : Ctx) (fs : Fields) : List Rec → Py Bytes
  | [] => .ok []
  | rec :: recs =>
    match structBuild cx fs rec with
    | .error e => .error e
    | .ok b =>
      match greedyBuild cx fs recs with
      | .error e => .error e
      | .ok bs => .ok (b ++ bs)

end PyFLP
