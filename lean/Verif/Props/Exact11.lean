import Verif.Props.Times
/-!
# C98: exactly which timestamps can be read
-/

namespace PyFLP
open Spec

/-- Doubles of at least `2 ^ k` are multiples of `2 ^ (k - 52)`. -/
theorem f64_grid {bits : Nat} {x : Rat} (h : f64Value bits = some x) {k : Nat} (hk : k ≤ 52) (hx : (2 : Rat) ^ k ≤ |x|) :
    ∃ n : Int, x * 2 ^ (52 - k) = n := by
  unfold f64Value at h
  dsimp only at h
  split at h
  · cases h
  · injection h with h
    generalize hm : bits % 2 ^ 52 = m at h
    generalize he : bits / 2 ^ 52 % 2048 = e at h
    have hml : m < 2 ^ 52 := by rw [← hm]; exact Nat.mod_lt _ (by norm_num)
    generalize ha : (if e = 0 then (m : Rat) * pow2 (-1074) else ((2 ^ 52 + m : Nat) : Rat) * pow2 ((e : Int) - 1075)) = a at h
    have hax : |x| = |a| := by
      rw [← h]; split
      · exact abs_neg a
      · rfl
    rw [hax] at hx
    have key : ∃ n : Int, a * 2 ^ (52 - k) = n := by
      split at ha
      · exfalso
        have h1 : |a| < 1 := by
          rw [← ha, abs_of_nonneg (mul_nonneg (Nat.cast_nonneg _) (pow2_pos _).le)]
          have : (m : Rat) < pow2 52 := by
            rw [show (52 : Int) = ((52 : Nat) : Int) from rfl, pow2_nat]; exact_mod_cast hml
          calc (m : Rat) * pow2 (-1074) < pow2 52 * pow2 (-1074) := mul_lt_mul_of_pos_right this (pow2_pos _)
            _ = pow2 (52 + -1074) := (pow2_add _ _).symm
            _ ≤ pow2 0 := pow2_mono (by norm_num)
            _ = 1 := rfl
        have h2 : (1 : Rat) ≤ 2 ^ k := one_le_pow₀ (by norm_num)
        linarith
      · have hM : ((2 ^ 52 + m : Nat) : Rat) < pow2 53 := by
          rw [show (53 : Int) = ((53 : Nat) : Int) from rfl, pow2_nat]
          have : 2 ^ 52 + m < 2 ^ 53 := by omega
          exact_mod_cast this
        have hlt : pow2 (k : Int) < pow2 (53 + ((e : Int) - 1075)) := by
          rw [pow2_add, pow2_nat]
          push_cast
          refine lt_of_le_of_lt hx ?_
          rw [← ha, abs_of_nonneg (mul_nonneg (Nat.cast_nonneg _) (pow2_pos _).le)]
          exact mul_lt_mul_of_pos_right hM (pow2_pos _)
        have hke := pow2_lt_iff.1 hlt
        obtain ⟨j, hj⟩ : ∃ j : Nat, (e : Int) - 1075 + ((52 - k : Nat) : Int) = j := ⟨((e : Int) - 1075 + ((52 - k : Nat) : Int)).toNat, by omega⟩
        refine ⟨((2 ^ 52 + m) * 2 ^ j : Nat), ?_⟩
        have : (2 : Rat) ^ (52 - k) = pow2 ((52 - k : Nat) : Int) := by rw [pow2_nat]; push_cast; rfl
        rw [← ha, this, mul_assoc, ← pow2_add, hj, pow2_nat]
        push_cast
        rfl
    obtain ⟨n, hn⟩ := key
    rw [← h]
    split
    · exact ⟨-n, by rw [neg_mul, hn]; push_cast; rfl⟩
    · exact ⟨n, hn⟩

/-- A double below a number `c` that is not small is some microseconds below. -/
theorem below_grid {bits : Nat} {x : Rat} (h : f64Value bits = some x) {k : Nat} (hk : 19 ≤ k) (hk' : k ≤ 52) {c : Int}
    (hc : (2 : Rat) ^ k ≤ |x|) (hx : x < c) : x * 86400000000 + 2 ≤ c * 86400000000 := by
  obtain ⟨n, hn⟩ := f64_grid h hk' hc
  obtain ⟨d, hd⟩ : ∃ d, d = 52 - k := ⟨_, rfl⟩
  rw [← hd] at hn
  have hp : (0 : Rat) < 2 ^ d := by positivity
  have h1 : (n : Rat) < ((c * 2 ^ d : Int) : Rat) := by
    push_cast
    rw [← hn]
    exact mul_lt_mul_of_pos_right hx hp
  have h2 : n + 1 ≤ c * 2 ^ d := Int.cast_lt.1 h1
  have h3 : (n : Rat) + 1 ≤ c * 2 ^ d := by exact_mod_cast h2
  rw [← hn] at h3
  have h4 : (2 : Rat) ^ d ≤ 2 ^ 33 := pow_le_pow_right₀ (by norm_num) (by omega)
  have h5 : 1 ≤ (c - x) * 2 ^ d := by linarith
  have h6 : (c - x) * 2 ^ d ≤ (c - x) * 2 ^ 33 := mul_le_mul_of_nonneg_left h4 (by linarith)
  have h7 : (1 : Rat) ≤ (c - x) * 2 ^ 33 := le_trans h5 h6
  norm_num at h7
  nlinarith

theorem f64Value_none {bits : Nat} (h : f64Value bits = none) : bits / 2 ^ 52 % 2048 = 2047 := by
  unfold f64Value at h
  dsimp only at h
  by_contra hc
  rw [if_neg hc] at h
  cases h

theorem daysMicros_lt {bits : Nat} {x : Rat} (h : f64Value bits = some x) {c : Int} (hc : (2 : Rat) ^ 19 ≤ |(c : Rat)| - 1) (hx : x < c) :
    daysMicros x < c * 86400000000 := by
  by_cases hs : (2 : Rat) ^ 19 ≤ |x|
  · have h1 := below_grid h (k := 19) (by norm_num) (by norm_num) hs hx
    have h2 := (abs_le.1 (daysMicros_err x)).2
    have : (daysMicros x : Rat) < ((c * 86400000000 : Int) : Rat) := by push_cast; linarith
    exact Int.cast_lt.1 this
  · have h1 : x ≤ ((c - 1 : Int) : Rat) := by
      push_cast
      rw [not_le, abs_lt] at hs
      rcases abs_cases (c : Rat) with ⟨ha, _⟩ | ⟨ha, _⟩
      · rw [ha] at hc; linarith [hs.2]
      · rw [ha] at hc; linarith [hs.1]
    have := daysMicros_le h1
    omega

/-- C98: `time_spent` can be read exactly if it is at least -999999999 and less than 1000000000 days, and is the stored number of
days, to the microsecond; `created_on` can be read exactly if the date is in the years 1 to 9999, and is the stored number of
days after 30 December 1899.  Other numbers raise `OverflowError`, like infinities; NaNs raise `ValueError`. -/
theorem C98_exact {w : World} {L : Nat → Prop} (r : WReach w L) (h0 : L 0) {created spent : Nat}
    (h : Timestamp w.project.events created spent) :
    (∀ x, f64Value spent = some x →
      (-999999999 ≤ x ∧ x < 1000000000 → ∃ us, w.timeSpent = .ok (some us) ∧
        |(us : Rat) - x * 86400000000| ≤ 1 / 2 + 1 / 65536 ∧ ∀ n : Int, x = n → us = n * 86400000000) ∧
      (¬ (-999999999 ≤ x ∧ x < 1000000000) → w.timeSpent = .error .overflowError)) ∧
    (f64Value spent = none →
      w.timeSpent = .error (if spent % 2 ^ 52 = 0 then .overflowError else .valueError)) ∧
    (∀ x, f64Value created = some x →
      (0 ≤ (daysBefore 1899 12 30 : Rat) + x ∧ (daysBefore 1899 12 30 : Rat) + x < daysBefore 9999 12 31 + 1 →
        ∃ us, w.createdOn = .ok (some us) ∧
          |(us : Rat) - (daysBefore 1899 12 30 + x) * 86400000000| ≤ 1 / 2 + 1 / 65536 ∧
          ∀ n : Int, x = n → us = (daysBefore 1899 12 30 + n) * 86400000000) ∧
      (¬ (0 ≤ (daysBefore 1899 12 30 : Rat) + x ∧ (daysBefore 1899 12 30 : Rat) + x < daysBefore 9999 12 31 + 1) →
        w.createdOn = .error .overflowError)) ∧
    (f64Value created = none →
      w.createdOn = .error (if created % 2 ^ 52 = 0 then .overflowError else .valueError)) := by
  obtain ⟨rec, e1, e2, e3⟩ := h
  rw [show daysBefore 1899 12 30 = 693593 by decide +kernel, show daysBefore 9999 12 31 = 3652058 by decide +kernel]
  have hts : w.timeSpent = (timedelta spent).map some := by
    unfold World.timeSpent; rw [timestampField_some r h0 e1 e3]
  have hco : w.createdOn = match timedelta created with
      | .error e => .error e
      | .ok us => (afterEpoch us).map some := by
    unfold World.createdOn; rw [timestampField_some r h0 e1 e2]; rfl
  have td : ∀ (bits : Nat) (x : Rat), f64Value bits = some x →
      (-999999999 ≤ x ∧ x < 1000000000 → timedelta bits = .ok (daysMicros x)) ∧
      (¬ (-999999999 ≤ x ∧ x < 1000000000) → timedelta bits = .error .overflowError) := by
    intro bits x hx
    unfold timedelta dayMicros
    rw [hx]
    dsimp only
    constructor
    · rintro ⟨a, b⟩
      have h1 := le_daysMicros (n := -999999999) (x := x) (by push_cast; exact a)
      have h2 := daysMicros_lt hx (c := 1000000000) (by norm_num) (by push_cast; exact b)
      rw [if_neg]
      omega
    · intro hc
      rw [if_pos]
      by_cases a : -999999999 ≤ x
      · have b : 1000000000 ≤ x := by
          by_contra hb
          exact hc ⟨a, not_le.1 hb⟩
        have := le_daysMicros (n := 1000000000) (x := x) (by push_cast; exact b)
        omega
      · have := daysMicros_lt hx (c := -999999999) (by norm_num) (by push_cast; exact not_le.1 a)
        omega
  have tn : ∀ bits : Nat, f64Value bits = none →
      timedelta bits = .error (if bits % 2 ^ 52 = 0 then .overflowError else .valueError) := by
    intro bits hx
    unfold timedelta
    rw [hx]
    dsimp only
    split <;> rfl
  refine ⟨fun x hx => ⟨fun hr => ⟨daysMicros x, ?_, daysMicros_err x, fun n hn => by rw [hn, daysMicros_int]⟩, fun hr => ?_⟩,
    fun hx => ?_, fun x hx => ⟨fun hr => ?_, fun hr => ?_⟩, fun hx => ?_⟩
  · rw [hts, (td _ _ hx).1 hr]; rfl
  · rw [hts, (td _ _ hx).2 hr]; rfl
  · rw [hts, tn _ hx]; rfl
  · push_cast at hr
    have a := le_daysMicros (n := -693593) (x := x) (by push_cast; linarith [hr.1])
    have b := daysMicros_lt hx (c := 2958466) (by norm_num) (by push_cast; linarith [hr.2])
    refine ⟨693593 * 86400000000 + daysMicros x, ?_, ?_, fun n hn => by rw [hn, daysMicros_int]; push_cast; ring⟩
    · rw [hco, (td _ _ hx).1 ⟨by linarith [hr.1], by linarith [hr.2]⟩]
      dsimp only
      unfold afterEpoch delphiEpoch dayMicros
      rw [if_pos (by omega)]
      rfl
    · have := daysMicros_err x
      have e : (((693593 * 86400000000 + daysMicros x : Int) : Rat) - ((693593 : Nat) + x) * 86400000000) =
          (daysMicros x : Rat) - x * 86400000000 := by push_cast; ring
      rw [e]
      exact this
  · push_cast at hr
    rw [hco]
    by_cases ht : -999999999 ≤ x ∧ x < 1000000000
    · rw [(td _ _ hx).1 ht]
      dsimp only
      unfold afterEpoch delphiEpoch dayMicros
      rw [if_neg]
      · rfl
      · rintro ⟨c1, c2⟩
        apply hr
        constructor
        · by_contra hc
          have := daysMicros_lt hx (c := -693593) (by norm_num) (by push_cast; linarith [not_le.1 hc])
          omega
        · by_contra hc
          have := le_daysMicros (n := 2958466) (x := x) (by push_cast; linarith [not_lt.1 hc])
          omega
    · rw [(td _ _ hx).2 ht]
  · rw [hco, tn _ hx]

/-- The last double before the end of the year 9999, the number -999999999 and the double below it. -/
example : f64Value 0x41469240FFFFFFFF = some (2958466 - 1 / 2 ^ 31) ∧ f64Value 0xC1CDCD64FF800000 = some (-999999999) ∧
    f64Value 0xC1CDCD64FF800001 = some (-999999999 - 1 / 2 ^ 23) := by
  refine ⟨?_, ?_, ?_⟩ <;> (unfold f64Value; simp only [pow2_eq]; norm_num)

end PyFLP
