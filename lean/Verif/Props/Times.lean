import Verif.FltLemmas
import Verif.Times
import Verif.Props.Assigned
/-!
# C98: creation date and working time, C99: remote controllers
-/

namespace PyFLP
open Spec

namespace Spec

/-- Whether a year of the Gregorian calendar has 366 days. -/
def leapYear (y : Nat) : Bool := y % 4 = 0 && (y % 100 ≠ 0 || y % 400 = 0)

/-- Days of a month. -/
def monthDays (y m : Nat) : Nat :=
  if m = 2 then if leapYear y then 29 else 28 else if m = 4 ∨ m = 6 ∨ m = 9 ∨ m = 11 then 30 else 31

/-- Days between 1 January of the year 1 and a date. -/
def daysBefore (y m d : Nat) : Nat :=
  ((List.range (y - 1)).map fun k => if leapYear (k + 1) then 366 else 365).sum +
  ((List.range (m - 1)).map fun k => monthDays y (k + 1)).sum + (d - 1)

/-- The first timestamp of the project stores these numbers of days: the creation date as days after 30 December 1899, and
the time spent. Both are bit patterns of doubles. -/
def Timestamp (evs : List Event) (created spent : Nat) : Prop :=
  ∃ r, valueOf evs 237 = some (.fields r) ∧ Rec.lookup r "created_on" = some (some (.f64 created)) ∧
    Rec.lookup r "time_spent" = some (some (.f64 spent))

end Spec

/-! ## Arithmetic -/

theorem trunc_frac (q : Rat) : |q - trunc q| < 1 := by
  unfold trunc
  split
  · obtain ⟨h1, h2⟩ := floor_bounds (-q)
    rw [abs_lt]
    push_cast
    constructor <;> linarith
  · obtain ⟨h1, h2⟩ := floor_bounds q
    rw [abs_lt]
    constructor <;> linarith

/-- Converting days to microseconds is wrong by no more than half a microsecond and the rounding of one multiplication. -/
theorem daysMicros_err (x : Rat) : |(daysMicros x : Rat) - x * 86400000000| ≤ 1 / 2 + 1 / 65536 := by
  have hf := trunc_frac x
  generalize hfr : x - (trunc x : Rat) = f at hf
  have hx : x = trunc x + f := by rw [← hfr]; ring
  have e : daysMicros x = roundHE ((trunc x : Rat) * 86400000000 + fl (f * 86400000000)) := by
    unfold daysMicros dayMicros
    dsimp only
    rw [hfr]
    congr 1
    push_cast
    ring
  have h1 := roundHE_err ((trunc x : Rat) * 86400000000 + fl (f * 86400000000))
  have h2 := fl_err (f * 86400000000)
  rw [← e] at h1
  have h3 : |f * 86400000000| / 2 ^ 53 ≤ 1 / 65536 := by
    rw [abs_mul, abs_of_pos (show (0 : Rat) < 86400000000 by norm_num)]
    rw [div_le_iff₀ (by norm_num)]
    have : |f| * 86400000000 ≤ 1 * 86400000000 := by
      apply mul_le_mul_of_nonneg_right hf.le (by norm_num)
    refine le_trans this ?_
    norm_num
  have h4 := le_trans h2 h3
  rw [abs_le] at h1 h4 ⊢
  have h5 : x * 86400000000 = (trunc x : Rat) * 86400000000 + f * 86400000000 := by
    rw [← add_mul, ← hx]
  rw [h5]
  constructor <;> linarith [h1.1, h1.2, h4.1, h4.2]

/-- Whole days are exact. -/
theorem daysMicros_int (n : Int) : daysMicros (n : Rat) = n * 86400000000 := by
  unfold daysMicros dayMicros
  dsimp only
  rw [trunc_int, sub_self, zero_mul, show fl (0 : Rat) = 0 from rfl, show trunc (0 : Rat) = 0 from rfl]
  have : (((n * 86400000000 + 0 : Int) : Rat) + (0 - ((0 : Int) : Rat))) = ((n * 86400000000 : Int) : Rat) := by push_cast; ring
  rw [this, roundHE_int]

theorem daysMicros_le {x : Rat} {n : Int} (h : x ≤ n) : daysMicros x ≤ n * 86400000000 := by
  have := (abs_le.1 (daysMicros_err x)).2
  have h2 : x * 86400000000 ≤ n * 86400000000 := mul_le_mul_of_nonneg_right h (by norm_num)
  have : (daysMicros x : Rat) < ((n * 86400000000 + 1 : Int) : Rat) := by push_cast; linarith
  have := Int.cast_lt.1 this
  omega

theorem le_daysMicros {x : Rat} {n : Int} (h : (n : Rat) ≤ x) : n * 86400000000 ≤ daysMicros x := by
  have := (abs_le.1 (daysMicros_err x)).1
  have h2 : (n : Rat) * 86400000000 ≤ x * 86400000000 := mul_le_mul_of_nonneg_right h (by norm_num)
  have : ((n * 86400000000 - 1 : Int) : Rat) < (daysMicros x : Rat) := by push_cast; linarith
  have := Int.cast_lt.1 this
  omega

theorem timedelta_ok {bits : Nat} {x : Rat} (h : f64Value bits = some x) (h1 : -999999999 ≤ x) (h2 : x ≤ 999999999) :
    timedelta bits = .ok (daysMicros x) := by
  have a := le_daysMicros (n := -999999999) (x := x) (by push_cast; exact h1)
  have b := daysMicros_le (n := 999999999) (x := x) (by push_cast; exact h2)
  unfold timedelta dayMicros
  rw [h]
  dsimp only
  rw [if_neg]
  omega

theorem timedelta_bad {bits : Nat} (h : ∀ x, f64Value bits = some x → 1000000000 ≤ x ∨ x < -1000000000) :
    timedelta bits = .error (if bits / 2 ^ 52 % 2048 = 2047 ∧ bits % 2 ^ 52 ≠ 0 then .valueError else .overflowError) := by
  unfold timedelta
  cases hx : f64Value bits with
  | none =>
    have : bits / 2 ^ 52 % 2048 = 2047 := by
      unfold f64Value at hx
      dsimp only at hx
      by_contra hc
      rw [if_neg hc] at hx
      cases hx
    dsimp only
    by_cases h0 : bits % 2 ^ 52 = 0
    · rw [if_pos h0, if_neg (fun hc => hc.2 h0)]
    · rw [if_neg h0, if_pos ⟨this, h0⟩]
  | some x =>
    have : ¬ bits / 2 ^ 52 % 2048 = 2047 := by
      intro hc
      unfold f64Value at hx
      dsimp only at hx
      rw [if_pos hc] at hx
      cases hx
    dsimp only
    rw [if_neg (c := _ ∧ _) (by tauto), if_pos]
    unfold dayMicros
    rcases h x hx with h | h
    · have := le_daysMicros (n := 1000000000) (x := x) (by push_cast; exact h)
      omega
    · left
      have e := (abs_le.1 (daysMicros_err x)).2
      have h3 : daysMicros x ≤ -1000000000 * 86400000000 := daysMicros_le (by push_cast; exact h.le)
      omega

/-! ## C98 -/

theorem timestampField_none {w : World} {L : Nat → Prop} (r : WReach w L) (h0 : L 0)
    (h : ∀ e ∈ w.project.events, e.id ≠ 237) (key : String) : w.timestampField 0 key = .ok none := by
  have : w.contains 0 237 = false := by
    rw [Bool.eq_false_iff]
    intro hc
    obtain ⟨x, hx, hid⟩ := (contains_iff w 0 237).1 hc
    have he := (events_shown r h0 x hx).2
    refine h (w.ev x.1) ?_ (by rw [he, hid])
    show _ ∈ w.events 0
    rw [World.events_eq]
    exact List.mem_map.2 ⟨_, hx, rfl⟩
  unfold World.timestampField
  rw [this]
  rfl

theorem timestampField_some {w : World} {L : Nat → Prop} (r : WReach w L) (h0 : L 0) {rec : Rec}
    (h : valueOf w.project.events 237 = some (.fields rec)) {key : String} {bits : Nat}
    (hk : Rec.lookup rec key = some (some (.f64 bits))) : w.timestampField 0 key = .ok (some bits) := by
  unfold World.timestampField
  rcases first_spec w.heap 0 237 with ⟨pre, post, ref', h1, h2, h3⟩ | ⟨h1, h2⟩
  · have : w.contains 0 237 = true := (contains_iff w 0 237).2 ⟨(ref', 237), by rw [h2]; simp, rfl⟩
    rw [this, if_pos rfl]
    rcases World.first_value r h0 237 with ⟨ref, f1, _, f2, _⟩ | ⟨_, f2⟩
    · rw [show w.events 0 = w.project.events from rfl, h] at f2
      injection f2 with f2
      rw [f1]
      simp only [structGet, ← f2, hk]
    · rw [show w.events 0 = w.project.events from rfl, h] at f2; cases f2
  · rcases World.first_value r h0 237 with ⟨ref, f1, _⟩ | ⟨_, f2⟩
    · rw [f1] at h1; cases h1
    · rw [show w.events 0 = w.project.events from rfl, h] at f2; cases f2

/-- C98: without a timestamp both are `None`. -/
theorem C98_none {w : World} {L : Nat → Prop} (r : WReach w L) (h0 : L 0) (h : ∀ e ∈ w.project.events, e.id ≠ 237) :
    w.createdOn = .ok none ∧ w.timeSpent = .ok none := by
  unfold World.createdOn World.timeSpent
  rw [timestampField_none r h0 h, timestampField_none r h0 h]
  exact ⟨rfl, rfl⟩

/-- C98: `time_spent` is the stored number of days, to the microsecond, if it is at most 999999999 days. -/
theorem C98_time_spent_partial {w : World} {L : Nat → Prop} (r : WReach w L) (h0 : L 0) {created spent : Nat}
    (h : Timestamp w.project.events created spent) {x : Rat} (hx : f64Value spent = some x) (h1 : -999999999 ≤ x)
    (h2 : x ≤ 999999999) :
    ∃ us, w.timeSpent = .ok (some us) ∧ |(us : Rat) - x * 86400000000| ≤ 1 / 2 + 1 / 65536 ∧
      ∀ n : Int, x = n → us = n * 86400000000 := by
  obtain ⟨rec, e1, -, e2⟩ := h
  refine ⟨daysMicros x, ?_, daysMicros_err x, fun n hn => by rw [hn, daysMicros_int]⟩
  unfold World.timeSpent
  rw [timestampField_some r h0 e1 e2]
  dsimp only
  rw [timedelta_ok hx h1 h2]
  rfl

/-- C98: `created_on`, in microseconds after the beginning of the year 1, is the stored number of days after 30 December
1899, to the microsecond, if this is between the beginning of the year 1 and that of the last day of the year 9999. -/
theorem C98_created_on_partial {w : World} {L : Nat → Prop} (r : WReach w L) (h0 : L 0) {created spent : Nat}
    (h : Timestamp w.project.events created spent) {x : Rat} (hx : f64Value created = some x)
    (h1 : 0 ≤ (daysBefore 1899 12 30 : Rat) + x) (h2 : (daysBefore 1899 12 30 : Rat) + x ≤ daysBefore 9999 12 31) :
    ∃ us, w.createdOn = .ok (some us) ∧
      |(us : Rat) - (daysBefore 1899 12 30 + x) * 86400000000| ≤ 1 / 2 + 1 / 65536 ∧
      ∀ n : Int, x = n → us = (daysBefore 1899 12 30 + n) * 86400000000 := by
  obtain ⟨rec, e1, e2, -⟩ := h
  have d1 : daysBefore 1899 12 30 = 693593 := by decide +kernel
  have d2 : daysBefore 9999 12 31 = 3652058 := by decide +kernel
  rw [d1] at h1 h2 ⊢
  rw [d2] at h2
  push_cast at h1 h2
  have a := le_daysMicros (n := -693593) (x := x) (by push_cast; linarith)
  have b := daysMicros_le (n := 2958465) (x := x) (by push_cast; linarith)
  refine ⟨693593 * 86400000000 + daysMicros x, ?_, ?_, fun n hn => by rw [hn, daysMicros_int]; push_cast; ring⟩
  · unfold World.createdOn
    rw [timestampField_some r h0 e1 e2]
    dsimp only
    rw [timedelta_ok hx (by linarith) (by linarith)]
    dsimp only
    unfold afterEpoch delphiEpoch dayMicros
    rw [if_pos (by omega)]
    rfl
  · have := daysMicros_err x
    have e : (((693593 * 86400000000 + daysMicros x : Int) : Rat) - ((693593 : Nat) + x) * 86400000000) =
        (daysMicros x : Rat) - x * 86400000000 := by push_cast; ring
    rw [e]
    exact this

/-- C98 is false otherwise: out of range numbers of days raise `OverflowError`, NaNs raise `ValueError`. -/
theorem C98_raises_refuted {w : World} {L : Nat → Prop} (r : WReach w L) (h0 : L 0) {created spent : Nat}
    (h : Timestamp w.project.events created spent) :
    ((∀ x, f64Value spent = some x → 1000000000 ≤ x ∨ x < -1000000000) → ∃ e, w.timeSpent = .error e) ∧
    ((∀ x, f64Value created = some x →
        (daysBefore 9999 12 31 : Rat) + 1 ≤ daysBefore 1899 12 30 + x ∨ (daysBefore 1899 12 30 : Rat) + x < -1) →
      ∃ e, w.createdOn = .error e) := by
  obtain ⟨rec, e1, e2, e3⟩ := h
  constructor
  · intro hx
    unfold World.timeSpent
    rw [timestampField_some r h0 e1 e3]
    dsimp only
    rw [timedelta_bad hx]
    exact ⟨_, rfl⟩
  · intro hx
    rw [show daysBefore 1899 12 30 = 693593 by decide +kernel, show daysBefore 9999 12 31 = 3652058 by decide +kernel] at hx
    push_cast at hx
    unfold World.createdOn
    rw [timestampField_some r h0 e1 e2]
    dsimp only
    cases ht : timedelta created with
    | error e => exact ⟨e, rfl⟩
    | ok us =>
      dsimp only
      cases hv : f64Value created with
      | none =>
        unfold timedelta at ht
        rw [hv] at ht
        dsimp only at ht
        split at ht <;> cases ht
      | some x =>
        have hus : us = daysMicros x := by
          unfold timedelta at ht
          rw [hv] at ht
          dsimp only at ht
          split at ht
          · cases ht
          · injection ht with ht; exact ht.symm
        unfold afterEpoch delphiEpoch dayMicros
        rw [if_neg]
        · exact ⟨_, rfl⟩
        · rcases hx x hv with h | h
          · have := le_daysMicros (n := 2958466) (x := x) (by push_cast; linarith)
            omega
          · have := daysMicros_le (n := -693594) (x := x) (by push_cast; linarith)
            omega

theorem parsed_value [FloatEnv] {file : Bytes} {p : Project} (h : parseFile file = .ok p) {e : Event} (he : e ∈ p.events) :
    ∃ bs, e.kind.parse bs = .ok e.value := by
  obtain ⟨_, _, _, _, _, _, _, _, _, _, data, _, _, _, _, _, _, _, _, fs, _, hd⟩ := parse_iff.1 h
  have : ∀ before fs evs, Decoded before fs evs → ∀ e ∈ evs, ∃ bs, e.kind.parse bs = .ok e.value := by
    intro before fs evs hd
    induction hd with
    | nil => intro e he; cases he
    | cons d t ih =>
      intro e he
      rcases List.mem_cons.1 he with rfl | he
      · exact ⟨_, d.value⟩
      · exact ih e he
  exact this _ _ _ hd e he

theorem timestamp_parse [FloatEnv] {bs : Bytes} {v : Value} (h : (Kind.struct .timestamp).parse bs = .ok v) :
    ∃ c t, v = .fields [("created_on", some (.f64 c)), ("time_spent", some (.f64 t))] := by
  have h' : (structParse ⟨bs.length⟩ (SName.fields .timestamp) bs).map (fun x => Value.fields x.1) = .ok v := h
  cases hp : structParse ⟨bs.length⟩ (SName.fields .timestamp) bs with
  | error e => rw [hp] at h'; cases h'
  | ok y =>
    rw [hp] at h'
    cases h'
    obtain ⟨rec, r⟩ := y
    have hp' : structParse ⟨bs.length⟩ [("created_on", .req .f64), ("time_spent", .req .f64)] bs = .ok (rec, r) := hp
    obtain ⟨v1, m1, rec1, a1, a2, rfl⟩ := structParse_cons hp'
    obtain ⟨v2, m2, rec2, b1, b2, rfl⟩ := structParse_cons a2
    cases b2
    have leaf : ∀ {cx : Ctx} {bs r : Bytes} {v : Option LV}, fldParse cx (.req .f64) bs = .ok (v, r) → ∃ n, v = some (.f64 n) := by
      intro cx bs r v h
      unfold fldParse leafParse at h
      cases hi : intParse 8 false bs with
      | error e => simp [hi, Except.map] at h
      | ok y =>
        simp only [hi, Except.map, Except.ok.injEq, Prod.mk.injEq] at h
        exact ⟨_, h.1.symm⟩
    obtain ⟨c, rfl⟩ := leaf a1
    obtain ⟨t, rfl⟩ := leaf b1
    exact ⟨c, t, rfl⟩

/-- C98: every timestamp of a file that parses stores two doubles. -/
theorem C98_timestamp [FloatEnv] {file : Bytes} {p : Project} (h : parseFile file = .ok p) (hts : ∃ e ∈ p.events, e.id = 237) :
    ∃ created spent, Timestamp p.events created spent := by
  cases hf : p.events.find? (fun e => e.id == 237) with
  | none =>
    obtain ⟨e, he, hid⟩ := hts
    exact absurd hid (by simpa using List.find?_eq_none.1 hf e he)
  | some e =>
    have he := List.mem_of_find?_eq_some hf
    have hid : e.id = 237 := by simpa using List.find?_some hf
    have hk : e.kind = .struct .timestamp := (parsed_typed h e he).1 _ (by rw [hid]; decide +kernel)
    obtain ⟨bs, hb⟩ := parsed_value h he
    rw [hk] at hb
    obtain ⟨c, t, hv⟩ := timestamp_parse hb
    refine ⟨c, t, [("created_on", some (.f64 c)), ("time_spent", some (.f64 t))], ?_, rfl, rfl⟩
    unfold valueOf
    rw [hf]
    exact congrArg some hv

/-- A case of C98: created on 1 January 2023 (44927 days after the epoch) at noon, a day and a half of work. -/
example : let p : Project := ⟨0, 1, 96, [⟨199, .ascii, .str (PStr.lit "20.8.3"), 7⟩,
      ⟨237, .struct .timestamp, .fields [("created_on", some (.f64 0x40E5EFF000000000)), ("time_spent", some (.f64 0x3FF8000000000000))], 16⟩]⟩
    WReach (World.ofProject p) (· = 0) ∧ Timestamp (World.ofProject p).project.events 0x40E5EFF000000000 0x3FF8000000000000 ∧
    f64Value 0x40E5EFF000000000 = some (44927 + 1 / 2) ∧ f64Value 0x3FF8000000000000 = some (3 / 2) ∧
    (World.ofProject p).createdOn = .ok (some ((daysBefore 2023 1 1 : Int) * 86400000000 + 43200000000)) ∧
    (World.ofProject p).timeSpent = .ok (some 129600000000) :=
  ⟨.parsed _, ⟨_, rfl, rfl, rfl⟩, by decide +kernel, by decide +kernel, by decide +kernel, by decide +kernel⟩

/-- Cases of the refutation: a NaN, and a creation date in the year 10000. -/
example : let p : Project := ⟨0, 1, 96, [
      ⟨237, .struct .timestamp, .fields [("created_on", some (.f64 0x4146924100000000)), ("time_spent", some (.f64 0x7FF8000000000000))], 16⟩]⟩
    (World.ofProject p).timeSpent = .error .valueError ∧ (World.ofProject p).createdOn = .error .overflowError :=
  ⟨by decide +kernel, by decide +kernel⟩

/-! ## C99 -/

namespace Spec

/-- The word of the remote controller that holds the number of the parameter (15 bits) and whether it is one of a VST. -/
def ParameterData (evs : List Event) (v : Option Int) : Prop :=
  ∃ r, valueOf evs 227 = some (.fields r) ∧ Rec.lookup r "parameter_data" = some (v.map LV.int)

end Spec

theorem remoteData_eq {w : World} {L : Nat → Prop} (r : WReach w L) {t : Nat} (ht : L t) {v : Option Int}
    (h : ParameterData (w.events t) v) : w.remoteData t = .ok (v.map LV.int) := by
  obtain ⟨rec, h1, h2⟩ := h
  unfold World.remoteData
  rcases World.first_value r ht 227 with ⟨ref, f1, _, f2, _⟩ | ⟨_, f2⟩
  · rw [h1] at f2
    injection f2 with f2
    rw [f1]
    simp only [structGet, ← f2, h2]
  · rw [h1] at f2; cases f2

/-- C99: both properties are `None` exactly if the controller has no parameter word. -/
theorem C99_none_partial {w : World} {L : Nat → Prop} (r : WReach w L) {t : Nat} (ht : L t) {v : Option Int}
    (h : ParameterData (w.events t) v) :
    ∃ n b, w.remoteParameter t = .ok n ∧ w.remoteControlsVst t = .ok b ∧ (n = none ↔ v = none) ∧ (b = none ↔ v = none) := by
  unfold World.remoteParameter World.remoteControlsVst
  rw [remoteData_eq r ht h]
  cases v with
  | none => exact ⟨_, _, rfl, rfl, by simp, by simp⟩
  | some v => exact ⟨_, _, rfl, rfl, by simp, by simp⟩

/-- C99 is false: `parameter` is 1 and `controls_vst` is `False`, whatever the word. -/
theorem C99_parameter_refuted {w : World} {L : Nat → Prop} (r : WReach w L) {t : Nat} (ht : L t) {v : Int}
    (h : ParameterData (w.events t) (some v)) :
    w.remoteParameter t = .ok (some 1) ∧ w.remoteControlsVst t = .ok (some false) := by
  unfold World.remoteParameter World.remoteControlsVst
  rw [remoteData_eq r ht h]
  constructor <;> simp

/-- A controller that is linked to parameter 5 of a VST. -/
example : let p : Project := ⟨0, 1, 96, [⟨227, .struct .remoteController, .fields [("_u1", some (.bytes [0, 0])),
      ("_u2", some (.int 0)), ("_u3", some (.int 0)), ("parameter_data", some (.int (32768 + 5))),
      ("destination_data", some (.int 0)), ("_u4", none), ("_u5", none)], 8⟩]⟩
    WReach (World.ofProject p) (· = 0) ∧ ParameterData ((World.ofProject p).events 0) (some (32768 + 5)) ∧
    (World.ofProject p).remoteParameter 0 = .ok (some 1) ∧ (World.ofProject p).remoteControlsVst 0 = .ok (some false) :=
  ⟨.parsed _, ⟨_, rfl, rfl⟩, by decide +kernel, by decide +kernel⟩

end PyFLP
