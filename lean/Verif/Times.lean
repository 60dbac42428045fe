import Verif.Flt
import Verif.Descriptors
/-!
# Creation date and working time of a project (`project.py:57, 65-66, 234-244, 482-491`), remote controllers (`controller.py`)
-/

namespace PyFLP

/-- Microseconds of a day. -/
def dayMicros : Int := 86400000000

/-- The number of microseconds of `datetime.timedelta(days=x)` for a float (`accum` and `delta_new` of CPython): the whole
days are exact, the fraction of a day is multiplied as a float, and the result is rounded to even. -/
def daysMicros (x : Rat) : Int :=
  let days := trunc x
  let frac := x - days
  let us := fl (frac * dayMicros)
  let whole := days * dayMicros + trunc us
  let leftover := us - trunc us
  roundHE (whole + leftover)

/-- `datetime.timedelta(days=x)`, in microseconds: at most 999999999 days; `PyLong_FromDouble` refuses infinities and NaNs. -/
def timedelta (bits : Nat) : Py Int :=
  match f64Value bits with
  | none => if bits % 2 ^ 52 = 0 then .error .overflowError else .error .valueError
  | some x =>
    let us := daysMicros x
    if us / dayMicros < -999999999 ∨ 999999999 < us / dayMicros then .error .overflowError else .ok us

/-- `_DELPHI_EPOCH` (`project.py:57`), 30 December 1899, in microseconds since the beginning of the year 1. -/
def delphiEpoch : Int := 693593 * dayMicros

/-- `_DELPHI_EPOCH + delta`, in microseconds since the beginning of the year 1; the year must be at most 9999. -/
def afterEpoch (us : Int) : Py Int :=
  if 0 ≤ delphiEpoch + us ∧ delphiEpoch + us < 3652059 * dayMicros then .ok (delphiEpoch + us) else .error .overflowError

namespace World

/-- `event[key]` of the timestamp event, if there is one (`project.py:242-244, 489-491`). -/
def timestampField (w : World) (t : Nat) (key : String) : Py (Option Nat) :=
  if w.contains t 237 then
    match w.heap.first t 237 with
    | .error e => .error e
    | .ok ref =>
      match structGet (w.ev ref) key with
      | .error e => .error e
      | .ok (some (.f64 bits)) => .ok (some bits)
      | .ok _ => .error .typeError
  else .ok none

/-- `project.created_on` (`project.py:236-244`). -/
def createdOn (w : World) : Py (Option Int) :=
  match w.timestampField 0 "created_on" with
  | .error e => .error e
  | .ok none => .ok none
  | .ok (some bits) =>
    match timedelta bits with
    | .error e => .error e
    | .ok us => (afterEpoch us).map some

/-- `project.time_spent` (`project.py:482-491`). -/
def timeSpent (w : World) : Py (Option Int) :=
  match w.timestampField 0 "time_spent" with
  | .error e => .error e
  | .ok none => .ok none
  | .ok (some bits) => (timedelta bits).map some

/-- `self.events.first(ControllerID.Remote)["parameter_data"]` (`controller.py:61, 73`). -/
def remoteData (w : World) (t : Nat) : Py (Option LV) :=
  match w.heap.first t 227 with
  | .error e => .error e
  | .ok ref => structGet (w.ev ref) "parameter_data"

/-- `controller.parameter` (`controller.py:57-64`): the walrus operator binds weaker than `is not`, so that `value` is a
boolean, and `True & 0x7FFF` is 1. -/
def remoteParameter (w : World) (t : Nat) : Py (Option Int) :=
  match w.remoteData t with
  | .error e => .error e
  | .ok x =>
    let value := x.isSome
    .ok (if value then some ((Nat.land value.toNat 32767 : Nat) : Int) else none)

/-- `controller.controls_vst` (`controller.py:66-76`), in the same way. -/
def remoteControlsVst (w : World) (t : Nat) : Py (Option Bool) :=
  match w.remoteData t with
  | .error e => .error e
  | .ok x =>
    let value := x.isSome
    .ok (if value then some (decide (0 < Nat.land value.toNat 32768)) else none)

end World

end PyFLP
