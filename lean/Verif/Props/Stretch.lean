import Verif.FltLemmas
import Verif.ConstructLemmas
/-!
# Musical times as they are stored (C102)
-/

namespace PyFLP

namespace Spec

/-- The length of a musical time in ticks: 240 ticks a beat, 16 beats a bar. -/
def timeTicks (bars beats ticks : Int) : Int := (bars * 16 + beats) * 240 + ticks

end Spec

open Spec

theorem roundHE_ge {x : Rat} {m : Int} (h : (m : Rat) ≤ x) : m ≤ roundHE x := by
  have hf : m ≤ x.floor := Rat.le_floor_iff.2 h
  unfold roundHE
  dsimp only
  split
  · exact hf
  split
  · omega
  split <;> omega

/-- Rounding does not cross a whole number. -/
theorem fl_ge_int {q : Rat} {n : Int} (hn : (n : Rat) ≤ q) (h0 : 0 < q) (hb : q < 2 ^ 53) : (n : Rat) ≤ fl q := by
  have hpos := (abs_of_pos h0)
  unfold fl fround
  rw [if_neg h0.ne']
  dsimp only
  rw [rabs_eq, hpos]
  have hlt : ilog2 q < 53 := ilog2_lt h0 (by rw [pow2_eq]; norm_num at hb ⊢; exact hb)
  obtain ⟨k, hk⟩ : ∃ k : Nat, ilog2 q - (((53 : Nat) : Int) - 1) = -(k : Int) := ⟨(52 - ilog2 q).toNat, by omega⟩
  rw [hk]
  have hp : pow2 (-(k : Int)) * pow2 (k : Int) = 1 := by rw [← pow2_add]; simp [pow2_eq]
  have hpp := pow2_pos (-(k : Int))
  have hm : ((n * (2 ^ k : Nat) : Int) : Rat) ≤ q / pow2 (-(k : Int)) := by
    rw [le_div_iff₀ hpp]
    push_cast
    have : (2 : Rat) ^ k = pow2 (k : Int) := by rw [pow2_nat]; push_cast; rfl
    rw [this, mul_assoc, mul_comm (pow2 (k : Int)), hp, mul_one]
    exact hn
  have hr := roundHE_ge hm
  have hr' : ((n * (2 ^ k : Nat) : Int) : Rat) ≤ (roundHE (q / pow2 (-(k : Int))) : Rat) := by exact_mod_cast hr
  have := mul_le_mul_of_nonneg_right hr' hpp.le
  refine le_trans (le_of_eq ?_) this
  push_cast
  have h2 : (2 : Rat) ^ k = pow2 (k : Int) := by rw [pow2_nat]; push_cast; rfl
  rw [h2, mul_assoc, mul_comm (pow2 (k : Int)), hp, mul_one]

/-- `int(5k * 0.2) == k` for every number that fits the field. -/
theorem ticks_exact_all {k : Int} (h0 : 0 ≤ k) (h : k < 2 ^ 32) : trunc (fl (((5 * k : Int) : Rat) * fl (1 / 5))) = k := by
  have hf : fl (1 / 5) = 3602879701896397 / 18014398509481984 := by decide +kernel
  rw [hf]
  rcases Int.lt_or_eq_of_le h0 with h0 | rfl
  · have k0 : (0 : Rat) < k := by exact_mod_cast h0
    have k1 : (k : Rat) < 4294967296 := by
      have : k < 4294967296 := by omega
      exact_mod_cast this
    push_cast
    have a1 : (k : Rat) ≤ 5 * k * (3602879701896397 / 18014398509481984) := by linarith
    have a2 : (5 * (k : Rat) * (3602879701896397 / 18014398509481984)) ≤ k * (1 + 1 / 1000000000000000) := by linarith
    generalize 5 * (k : Rat) * (3602879701896397 / 18014398509481984) = q at *
    have q0 : 0 < q := by linarith
    have f1 : (k : Rat) ≤ fl q := fl_ge_int a1 q0 (by norm_num; linarith)
    have e := fl_err q
    rw [abs_of_pos q0, abs_le] at e
    have f2 : fl q < k + 1 := by
      have := e.2
      norm_num at this
      linarith
    unfold trunc
    rw [if_neg (by linarith)]
    exact floor_eq f1 f2
  · decide +kernel

variable [FloatEnv]

/-- C102. Storing a musical time whose ticks are a multiple of five and reading it again gives a time of
the same length, in whole bars, beats below 16 and ticks below 240; a time of that form reads back the
same. -/
theorem C102_time_partial (bars beats ticks : Int) (h1 : 0 ≤ bars) (h2 : 0 ≤ beats) (h3 : 0 ≤ ticks) (h5 : 5 ∣ ticks)
    (hfit : timeTicks bars beats ticks < 5 * 2 ^ 32) (rest : Bytes) :
    ∃ bs bars' beats' ticks', leafBuild .musical (some (.time bars beats ticks)) = .ok bs ∧ bs.length = 4 ∧
      leafParse .musical (bs ++ rest) = .ok (.time bars' beats' ticks', rest) ∧
      timeTicks bars' beats' ticks' = timeTicks bars beats ticks ∧ 0 ≤ bars' ∧
      (0 ≤ beats' ∧ beats' < 16) ∧ (0 ≤ ticks' ∧ ticks' < 240) ∧
      (beats < 16 → ticks < 240 → bars' = bars ∧ beats' = beats ∧ ticks' = ticks) := by
  obtain ⟨k, rfl⟩ := h5
  have k0 : 0 ≤ k := by omega
  unfold timeTicks at hfit
  have hn : musicalEncode bars beats (5 * k) = bars * 768 + beats * 48 + k := by
    unfold musicalEncode
    rw [ticks_exact_all k0 (by omega)]
  obtain ⟨n, hn'⟩ : ∃ n : Nat, bars * 768 + beats * 48 + k = n := ⟨(bars * 768 + beats * 48 + k).toNat, by omega⟩
  have hlt : n < 256 ^ 4 := by
    have : (n : Int) < 4294967296 := by omega
    norm_num
    omega
  have hb := intBuild_nat hlt
  refine ⟨leBytes 4 n, (n : Int) / 768, (n : Int) % 768 / 48, (n : Int) % 768 % 48 * 5, ?_, ?_, ?_, ?_, ?_, ?_, ?_, ?_⟩
  · show intBuild 4 false (musicalEncode bars beats (5 * k)) = _
    rw [hn, hn', hb]
  · simp
  · simp only [leafParse]
    rw [intParse_intBuild hb]
    rfl
  · unfold timeTicks; omega
  · omega
  · omega
  · omega
  · intro a b; omega

/-- C102 is false for other ticks: four ticks are stored as none. -/
theorem C102_time_refuted : ¬ ∀ (bars beats ticks : Int) (bs : Bytes) (v : LV), 0 ≤ bars → 0 ≤ beats → beats < 16 →
    0 ≤ ticks → ticks < 240 → leafBuild .musical (some (.time bars beats ticks)) = .ok bs →
    leafParse .musical bs = .ok (v, []) → v = .time bars beats ticks := by
  intro h
  have := h 0 0 4 [0, 0, 0, 0] (.time 0 0 0) (by decide) (by decide) (by decide) (by decide) (by decide)
    (by show intBuild 4 false (musicalEncode 0 0 4) = _; decide +kernel)
    (by
      simp only [leafParse]
      rw [show intParse 4 false [0, 0, 0, 0] = .ok (0, []) by decide +kernel]
      rfl)
  cases this

/-- Two bars, three beats and 25 ticks. -/
example : timeTicks 2 3 25 < 5 * 2 ^ 32 ∧ (5 : Int) ∣ 25 := by decide

end PyFLP
