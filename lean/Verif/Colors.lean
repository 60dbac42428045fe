import Verif.ChannelProps
import Verif.KindLemmas
/-!
# Colours of tracks (`arrangement.py:233-241`, `types.py:57-68`)
-/

namespace PyFLP

/-- `RGBA` (`types.py:57-61`): four binary64 numbers. -/
structure Rgba where
  red : Rat
  green : Rat
  blue : Rat
  alpha : Rat
  deriving DecidableEq, Repr

/-- `RGBA.from_bytes(value.to_bytes(4, "little"))` (`arrangement.py:237`, `types.py:63-65`). -/
def Rgba.ofInt (n : Int) : Py Rgba :=
  if 0 ≤ n ∧ n < 2 ^ 32 then
    let b := fun i : Nat => colDecode (UInt8.ofNat (n.toNat / 256 ^ i))
    .ok ⟨b 0, b 1, b 2, b 3⟩
  else .error .overflowError

/-- `int.from_bytes(bytes(value), "little")` (`arrangement.py:240`, `types.py:67-68`). -/
def Rgba.toInt (c : Rgba) : Py Int :=
  match colEncode c.red with
  | .error e => .error e
  | .ok r =>
    match colEncode c.green with
    | .error e => .error e
    | .ok g =>
      match colEncode c.blue with
      | .error e => .error e
      | .ok b =>
        match colEncode c.alpha with
        | .error e => .error e
        | .ok a => .ok (leNat (r ++ g ++ b ++ a))

/-- `Track.color` (`arrangement.py:233-241, 273`).  Simplification: a field with a value that is no number (which only an
assignment can put there) raises `AttributeError`. -/
def trackColor : Descr Rgba where
  ids := [238]
  default := none
  readonly := false
  get := fun e =>
    match structGet e "color" with
    | .error x => .error x
    | .ok none => .ok none
    | .ok (some (.int n)) => (Rgba.ofInt n).map some
    | .ok (some _) => .error .attributeError
  set := fun e v =>
    match v.toInt with
    | .error x => .error x
    | .ok n => structSet e "color" (some (.int n))

theorem u32_valid [FloatEnv] {x : LV} (h : leafValid u32 x) : ∃ n : Nat, x = .int n ∧ n < 4294967296 := by
  cases x <;> simp [leafValid, u32, intFits] at h
  next i => exact ⟨i.toNat, by rw [Int.toNat_of_nonneg h.1], by omega⟩

theorem valid_u32 [FloatEnv] {n : Nat} (h : n < 4294967296) : leafValid u32 (.int n) := by
  simp [leafValid, u32, intFits]
  omega

theorem ofInt_bytes {n : Nat} (h : n < 4294967296) : Rgba.ofInt (n : Int) =
    .ok ⟨colDecode (UInt8.ofNat n), colDecode (UInt8.ofNat (n / 256)), colDecode (UInt8.ofNat (n / 65536)),
      colDecode (UInt8.ofNat (n / 16777216))⟩ := by
  unfold Rgba.ofInt
  rw [if_pos (by omega)]
  simp only [Int.toNat_natCast, Nat.pow_zero, Nat.div_one]

end PyFLP
