import Verif.Bytes
/-!
# Floating point as exact rationals with explicit rounding

IEEE binary64 arithmetic (`*`, `/` on Python floats) is modelled as the exact
rational operation followed by `fl` (round to 53 significant bits, ties to
even).  Overflow and underflow of binary64 is not modelled: the library only uses
this arithmetic on colours, heights, ticks and tempos.
-/

namespace PyFLP

/-- `2 ^ e` for any integer `e`. -/
def pow2 (e : Int) : Rat :=
  if 0 ≤ e then ((2 ^ e.toNat : Nat) : Rat) else 1 / ((2 ^ (-e).toNat : Nat) : Rat)

/-- `⌊log2 q⌋` for `q > 0`. -/
def ilog2 (q : Rat) : Int :=
  let e : Int := (Nat.log2 q.num.natAbs : Int) - (Nat.log2 q.den : Int)
  if q < pow2 e then e - 1 else e

/-- Round to the nearest integer, ties to even (Python's `round(float)`). -/
def roundHE (q : Rat) : Int :=
  let f := q.floor
  if q - f < 1 / 2 then f
  else if 1 / 2 < q - f then f + 1
  else if f % 2 = 0 then f else f + 1

/-- `|q|`. -/
def rabs (q : Rat) : Rat := if q < 0 then -q else q

/-- Round to `p` significant bits, ties to even. -/
def fround (p : Nat) (q : Rat) : Rat :=
  if q = 0 then 0
  else
    let e := ilog2 (rabs q) - ((p : Int) - 1)
    (roundHE (q / pow2 e) : Rat) * pow2 e

/-- The binary64 value nearest to `q`. -/
def fl (q : Rat) : Rat := fround 53 q

/-- `int(x)`: truncation towards zero. -/
def trunc (q : Rat) : Int := if q < 0 then -((-q).floor) else q.floor

/-- Value of a binary32 bit pattern; `none` for infinities and NaNs. -/
def f32Value (bits : Nat) : Option Rat :=
  let e : Nat := bits / 2 ^ 23 % 256
  let m : Nat := bits % 2 ^ 23
  if e = 255 then none
  else
    let a : Rat := if e = 0 then (m : Rat) * pow2 (-149) else ((8388608 + m : Nat) : Rat) * pow2 ((e : Int) - 150)
    some (if bits / 2 ^ 31 % 2 = 1 then -a else a)

/-- `struct.pack("<f", q)` as a bit pattern; `none` = `OverflowError`. -/
def f32Bits (q : Rat) : Option Nat :=
  if q = 0 then some 0
  else
    let a := rabs q
    let e := max (ilog2 a) (-126)
    let m := (roundHE (a / pow2 (e - 23))).toNat
    let n := (((e + 126) * 2 ^ 23 : Int)).toNat + m
    if 255 * 2 ^ 23 ≤ n then none
    else some (if q < 0 then 2 ^ 31 + n else n)

/-- Value of a binary64 bit pattern; `none` for infinities and NaNs. -/
def f64Value (bits : Nat) : Option Rat :=
  let e : Nat := bits / 2 ^ 52 % 2048
  let m : Nat := bits % 2 ^ 52
  if e = 2047 then none
  else
    let a : Rat := if e = 0 then (m : Rat) * pow2 (-1074) else ((2 ^ 52 + m : Nat) : Rat) * pow2 ((e : Int) - 1075)
    some (if bits / 2 ^ 63 % 2 = 1 then -a else a)

/-- `float(i)` as a bit pattern (`PyLong_AsDouble`: ties to even); `none` = `OverflowError`. -/
def f64Bits (i : Int) : Option Nat :=
  if i = 0 then some 0
  else
    let e := Nat.log2 i.natAbs
    let m := (roundHE ((i.natAbs : Rat) / pow2 ((e : Int) - 52))).toNat
    let n := (e + 1022) * 2 ^ 52 + m
    if 2047 * 2 ^ 52 ≤ n then none
    else some (if i < 0 then 2 ^ 63 + n else n)

/-- `struct.pack("<f", x)` of a binary64 number (`PyFloat_Pack4`): the nearest binary32 number; `none` = `OverflowError`.
Infinities stay, NaNs keep the sign and the upper bits and become quiet. -/
def f32OfF64 (bits : Nat) : Option Nat :=
  let sign := bits / 2 ^ 63 % 2 * 2 ^ 31
  match f64Value bits with
  | some q => if q = 0 then some sign else f32Bits q
  | none =>
    if bits % 2 ^ 52 = 0 then some (sign + 255 * 2 ^ 23)
    else some (sign + 255 * 2 ^ 23 + 2 ^ 22 + bits % 2 ^ 51 / 2 ^ 29)

/-- The binary64 number of the same value as a binary32 number (`struct.unpack("<f", ...)`). -/
def f64OfF32 (bits : Nat) : Nat :=
  let sign := bits / 2 ^ 31 % 2 * 2 ^ 63
  let e := bits / 2 ^ 23 % 256
  let m := bits % 2 ^ 23
  if e = 255 then sign + 2047 * 2 ^ 52 + (if m = 0 then 0 else 2 ^ 51 + m % 2 ^ 22 * 2 ^ 29)
  else if e = 0 then
    if m = 0 then sign
    else sign + (Nat.log2 m + 874) * 2 ^ 52 + (m * 2 ^ (52 - Nat.log2 m) - 2 ^ 52)
  else sign + (e + 896) * 2 ^ 52 + m * 2 ^ 29

end PyFLP
