import Verif.Construct
import Mathlib.Analysis.SpecialFunctions.Log.Base
import Mathlib.Analysis.SpecialFunctions.Pow.Real
import Mathlib.Analysis.Complex.ExponentialBounds
import Mathlib.Data.Int.Log
import Mathlib.NumberTheory.Padics.PadicVal.Basic

/-!
# Logarithms that are nearly right

The model leaves `math.log2` and `2 ** x` open (`FloatEnv`).  This file says what it means that they are accurate, and shows
that functions like that exist.
-/

namespace PyFLP

namespace Spec

/-- The value of a binary64 bit pattern with an exponent that is not 2047. -/
noncomputable def f64Val (bits : Nat) : ℝ :=
  (if bits / 2 ^ 63 = 1 then -1 else 1) *
    (if bits / 2 ^ 52 % 2048 = 0 then ((bits % 2 ^ 52 : Nat) : ℝ) * 2 ^ (-1074 : ℤ)
      else ((2 ^ 52 + bits % 2 ^ 52 : Nat) : ℝ) * 2 ^ (((bits / 2 ^ 52 % 2048 : Nat) : ℤ) - 1075))

/-- The bit pattern of a positive finite number. -/
def Positive (bits : Nat) : Prop := 0 < bits ∧ bits < 0x7FF0000000000000

/-- `int(y)`: what is behind the point is cut off. -/
noncomputable def cut (y : ℝ) : ℤ := if 0 ≤ y then ⌊y⌋ else ⌈y⌉

/-- The functions of the interpreter are right up to `ε`, before they are cut off: measured in the unit in which FL Studio
stores the number (1/10000 of an octave, 1/4096 of an octave). -/
structure Accurate (env : FloatEnv) (ε : ℝ) : Prop where
  exp2 : ∀ k : Int, |k| ≤ 10000000 → ∃ b, env.exp2 k = some b ∧ Positive b ∧ |10000 * Real.logb 2 (f64Val b) - k| ≤ ε
  log2 : ∀ b, Positive b → ∃ y, |y - 10000 * Real.logb 2 (f64Val b)| ≤ ε ∧ env.log2 b = some (cut y)
  lnPow : ∀ n, 1 ≤ n → n ≤ 65535 → Positive (env.lnPow n) ∧ |4096 * (Real.logb 2 (f64Val (env.lnPow n)) + 15) - n| ≤ ε
  lnLog : ∀ b, Positive b → b ≤ f64One → ∃ y, |y - 4096 * (Real.logb 2 (f64Val b) + 15)| ≤ ε ∧ env.lnLog b = cut y

end Spec

open Spec

theorem cut_zero {y : ℝ} (h1 : -1 < y) (h2 : y < 1) : cut y = 0 := by
  unfold cut
  split
  · rename_i h
    exact Int.floor_eq_zero_iff.2 ⟨h, h2⟩
  · rename_i h
    exact Int.ceil_eq_zero_iff.2 ⟨h1, (not_le.1 h).le⟩

theorem cut_bounds (y : ℝ) : (0 ≤ y → (cut y : ℝ) ≤ y ∧ y < cut y + 1) ∧ (y ≤ 0 → y ≤ cut y ∧ (cut y : ℝ) < y + 1) := by
  constructor
  · intro h
    unfold cut
    rw [if_pos h]
    exact ⟨Int.floor_le y, Int.lt_floor_add_one y⟩
  · intro h
    unfold cut
    split
    · rename_i h'
      have : y = 0 := le_antisymm h h'
      subst this
      simp
    · exact ⟨Int.le_ceil y, Int.ceil_lt_add_one y⟩

/-! ## Such functions exist -/

namespace Ideal

/-- The bit pattern of the largest binary64 number that is not above `x`. -/
noncomputable def down (x : ℝ) : Nat :=
  (Int.log 2 x + 1023).toNat * 2 ^ 52 + (⌊x * 2 ^ (52 - Int.log 2 x)⌋₊ - 2 ^ 52)

theorem down_val {E M : Nat} (h1 : 1 ≤ E) (h2 : E ≤ 2046) (hM : M < 2 ^ 52) :
    Positive (E * 2 ^ 52 + M) ∧ f64Val (E * 2 ^ 52 + M) = ((2 ^ 52 + M : Nat) : ℝ) * 2 ^ ((E : ℤ) - 1075) := by
  have d1 : (E * 2 ^ 52 + M) / 2 ^ 52 = E := by
    rw [Nat.mul_comm, Nat.mul_add_div (by positivity), Nat.div_eq_of_lt hM, Nat.add_zero]
  have d2 : (E * 2 ^ 52 + M) % 2 ^ 52 = M := by
    rw [Nat.mul_comm, Nat.mul_add_mod, Nat.mod_eq_of_lt hM]
  have d3 : E % 2048 = E := Nat.mod_eq_of_lt (by omega)
  have d4 : (E * 2 ^ 52 + M) / 2 ^ 63 = 0 := Nat.div_eq_of_lt (by omega)
  refine ⟨⟨by omega, by omega⟩, ?_⟩
  unfold f64Val
  rw [d1, d2, d3, d4, if_neg (by decide), if_neg (by omega), one_mul]

theorem down_spec {x : ℝ} (hx : 0 < x) (h1 : -1022 ≤ Int.log 2 x) (h2 : Int.log 2 x ≤ 1023) :
    Positive (down x) ∧ f64Val (down x) ≤ x ∧ x < f64Val (down x) * (1 + 2 ^ (-52 : ℤ)) ∧ 0 < f64Val (down x) ∧
    ∃ (m : Nat) (j : ℤ), f64Val (down x) = m * 2 ^ j := by
  have l1 : (2 : ℝ) ^ Int.log 2 x ≤ x := by exact_mod_cast Int.zpow_log_le_self (b := 2) (by decide) hx
  have l2 : x < (2 : ℝ) ^ (Int.log 2 x + 1) := by exact_mod_cast Int.lt_zpow_succ_log_self (b := 2) (by decide) x
  unfold down
  generalize Int.log 2 x = e at *
  have p2 : (0 : ℝ) < 2 ^ (52 - e) := by positivity
  have z1 : (2 : ℝ) ^ (52 : ℕ) ≤ x * 2 ^ (52 - e) := by
    calc (2 : ℝ) ^ (52 : ℕ) = 2 ^ e * 2 ^ (52 - e) := by
          rw [← zpow_add₀ (by norm_num)]
          norm_num
      _ ≤ x * 2 ^ (52 - e) := mul_le_mul_of_nonneg_right l1 p2.le
  have z2 : x * 2 ^ (52 - e) < (2 : ℝ) ^ (53 : ℕ) := by
    calc x * 2 ^ (52 - e) < 2 ^ (e + 1) * 2 ^ (52 - e) := mul_lt_mul_of_pos_right l2 p2
      _ = (2 : ℝ) ^ (53 : ℕ) := by
          rw [← zpow_add₀ (by norm_num), show e + 1 + (52 - e) = ((53 : ℕ) : ℤ) by push_cast; ring, zpow_natCast]
  generalize hz : x * 2 ^ (52 - e) = z at *
  have hz0 : 0 ≤ z := le_trans (by positivity) z1
  generalize hm : ⌊z⌋₊ = m
  have m1 : 2 ^ 52 ≤ m := by
    rw [← hm]
    exact Nat.le_floor (by exact_mod_cast z1)
  have m2 : m < 2 ^ 53 := by
    rw [← hm]
    exact (Nat.floor_lt hz0).2 (by exact_mod_cast z2)
  have m3 : (m : ℝ) ≤ z := by rw [← hm]; exact Nat.floor_le hz0
  have m4 : z < m + 1 := by rw [← hm]; exact Nat.lt_floor_add_one z
  obtain ⟨v1, v2⟩ := down_val (E := (e + 1023).toNat) (M := m - 2 ^ 52) (by omega) (by omega) (by omega)
  have he : (((e + 1023).toNat : ℕ) : ℤ) - 1075 = e - 52 := by omega
  rw [show 2 ^ 52 + (m - 2 ^ 52) = m by omega, he] at v2
  have hx' : x = z * 2 ^ (e - 52) := by
    rw [← hz, mul_assoc, ← zpow_add₀ (by norm_num)]
    norm_num
  have q : (0 : ℝ) < 2 ^ (e - 52) := by positivity
  have hmpos : (0 : ℝ) < m := by
    have : 0 < m := by omega
    exact_mod_cast this
  refine ⟨v1, ?_, ?_, ?_, m, e - 52, v2⟩
  · rw [v2, hx']
    exact mul_le_mul_of_nonneg_right m3 q.le
  · rw [v2, hx']
    have : z < m * (1 + 2 ^ (-52 : ℤ)) := by
      have hm52 : (1 : ℝ) ≤ m * 2 ^ (-52 : ℤ) := by
        have : ((2 : ℝ) ^ (52 : ℕ)) ≤ m := by exact_mod_cast m1
        calc (1 : ℝ) = 2 ^ (52 : ℕ) * 2 ^ (-52 : ℤ) := by norm_num
          _ ≤ m * 2 ^ (-52 : ℤ) := mul_le_mul_of_nonneg_right this (by positivity)
      rw [mul_add, mul_one]
      linarith
    calc z * 2 ^ (e - 52) < m * (1 + 2 ^ (-52 : ℤ)) * 2 ^ (e - 52) := mul_lt_mul_of_pos_right this q
      _ = m * 2 ^ (e - 52) * (1 + 2 ^ (-52 : ℤ)) := by ring
  · rw [v2]
    positivity

/-- Rounding down is nothing in octaves. -/
theorem down_log {x : ℝ} (hx : 0 < x) (h1 : -1022 ≤ Int.log 2 x) (h2 : Int.log 2 x ≤ 1023) :
    Real.logb 2 (f64Val (down x)) ≤ Real.logb 2 x ∧ Real.logb 2 x - Real.logb 2 (f64Val (down x)) ≤ 2 ^ (-51 : ℤ) := by
  obtain ⟨-, a, b, c, -⟩ := down_spec hx h1 h2
  refine ⟨Real.logb_le_logb_of_le (by norm_num) c a, ?_⟩
  have hl2 : (1 / 2 : ℝ) < Real.log 2 := by
    have := Real.log_two_gt_d9
    linarith
  have hlt : Real.log x ≤ Real.log (f64Val (down x)) + 2 ^ (-52 : ℤ) := by
    calc Real.log x ≤ Real.log (f64Val (down x) * (1 + 2 ^ (-52 : ℤ))) := Real.log_le_log hx b.le
      _ = Real.log (f64Val (down x)) + Real.log (1 + 2 ^ (-52 : ℤ)) := Real.log_mul c.ne' (by positivity)
      _ ≤ Real.log (f64Val (down x)) + 2 ^ (-52 : ℤ) := by
        have := Real.log_le_sub_one_of_pos (show (0 : ℝ) < 1 + 2 ^ (-52 : ℤ) by positivity)
        linarith
  unfold Real.logb
  rw [← sub_div, div_le_iff₀ (by linarith)]
  have h51 : (2 : ℝ) ^ (-51 : ℤ) = 2 * 2 ^ (-52 : ℤ) := by norm_num
  rw [h51]
  have hp : (0 : ℝ) < 2 ^ (-52 : ℤ) := by positivity
  nlinarith

/-- Functions that round down. -/
noncomputable def env : FloatEnv where
  exp2 k := if |k| ≤ 10000000 then some (down (2 ^ ((k : ℝ) / 10000))) else none
  log2 b := some (cut (10000 * Real.logb 2 (f64Val b)))
  lnPow n := down (2 ^ ((n : ℝ) / 4096 - 15))
  lnLog b := cut (4096 * (Real.logb 2 (f64Val b) + 15))

theorem log_pow2 {y : ℝ} : Real.logb 2 ((2 : ℝ) ^ y) = y := Real.logb_rpow (by norm_num) (by norm_num)

theorem ilog_pow2 {y : ℝ} (h1 : -1022 ≤ y) (h2 : y < 1024) : -1022 ≤ Int.log 2 ((2 : ℝ) ^ y) ∧ Int.log 2 ((2 : ℝ) ^ y) ≤ 1023 := by
  have hpos : (0 : ℝ) < 2 ^ y := Real.rpow_pos_of_pos (by norm_num) y
  constructor
  · apply (Int.zpow_le_iff_le_log (b := 2) (by decide) hpos).1
    calc (((2 : ℕ) : ℝ)) ^ (-1022 : ℤ) = (2 : ℝ) ^ (((-1022 : ℤ) : ℝ)) := by rw [Real.rpow_intCast, Nat.cast_ofNat]
      _ ≤ 2 ^ y := Real.rpow_le_rpow_of_exponent_le (by norm_num) (by push_cast; exact h1)
  · have : Int.log 2 ((2 : ℝ) ^ y) < 1024 := by
      apply (Int.lt_zpow_iff_log_lt (b := 2) (by decide) hpos).1
      calc (2 : ℝ) ^ y < (2 : ℝ) ^ (((1024 : ℤ) : ℝ)) := Real.rpow_lt_rpow_of_exponent_lt (by norm_num) (by push_cast; exact h2)
        _ = (((2 : ℕ) : ℝ)) ^ (1024 : ℤ) := by rw [Real.rpow_intCast, Nat.cast_ofNat]
    omega

theorem accurate : Accurate env (2 ^ (-30 : ℤ)) where
  exp2 k hk := by
    have hk' : -(10000000 : ℝ) ≤ k ∧ (k : ℝ) ≤ 10000000 := by
      have := abs_le.1 hk
      constructor
      · exact_mod_cast this.1
      · exact_mod_cast this.2
    have hpos : (0 : ℝ) < 2 ^ ((k : ℝ) / 10000) := Real.rpow_pos_of_pos (by norm_num) _
    obtain ⟨i1, i2⟩ := ilog_pow2 (y := (k : ℝ) / 10000) (by linarith) (by linarith)
    refine ⟨_, if_pos hk, (down_spec hpos i1 i2).1, ?_⟩
    obtain ⟨d1, d2⟩ := down_log hpos i1 i2
    rw [log_pow2] at d1 d2
    rw [abs_le]
    norm_num at d2 ⊢
    constructor <;> linarith
  log2 b _ := ⟨_, by simp, rfl⟩
  lnPow n h1 h2 := by
    have hn : (0 : ℝ) ≤ n ∧ (n : ℝ) ≤ 65535 := ⟨by positivity, by exact_mod_cast h2⟩
    have hpos : (0 : ℝ) < 2 ^ ((n : ℝ) / 4096 - 15) := Real.rpow_pos_of_pos (by norm_num) _
    obtain ⟨i1, i2⟩ := ilog_pow2 (y := (n : ℝ) / 4096 - 15) (by linarith) (by linarith)
    refine ⟨(down_spec hpos i1 i2).1, ?_⟩
    obtain ⟨d1, d2⟩ := down_log hpos i1 i2
    rw [log_pow2] at d1 d2
    show |4096 * (Real.logb 2 (f64Val (down (2 ^ ((n : ℝ) / 4096 - 15)))) + 15) - n| ≤ _
    rw [abs_le]
    norm_num at d2 ⊢
    constructor <;> linarith
  lnLog b _ _ := ⟨_, by simp, rfl⟩

/-- A root of two that is not a whole power of two is no binary64 number. -/
theorem root_ne {k n : ℕ} (hn : 0 < n) (hk : ¬ n ∣ k) (m : Nat) (j : ℤ) : (2 : ℝ) ^ ((k : ℝ) / n) ≠ m * 2 ^ j := by
  intro h
  have hn' : (n : ℝ) ≠ 0 := by exact_mod_cast hn.ne'
  have h1 : (2 : ℝ) ^ (k : ℕ) = ((m : ℝ) * 2 ^ j) ^ n := by
    rw [← h]
    have e1 : ((2 : ℝ) ^ ((k : ℝ) / n)) ^ n = (2 : ℝ) ^ ((k : ℝ) / n * n) := by
      rw [Real.rpow_mul (by norm_num), Real.rpow_natCast]
    rw [e1, div_mul_cancel₀ _ hn', Real.rpow_natCast]
  have hm : m ≠ 0 := by
    rintro rfl
    rw [Nat.cast_zero, zero_mul, zero_pow (by omega)] at h1
    exact absurd h1 (by positivity)
  have h2 : (2 : ℚ) ^ k = ((m : ℚ) * 2 ^ j) ^ n := by
    have h1' : (((2 : ℚ) ^ k : ℚ) : ℝ) = ((((m : ℚ) * 2 ^ j) ^ n : ℚ) : ℝ) := by
      push_cast
      exact h1
    exact_mod_cast h1'
  have : Fact (Nat.Prime 2) := ⟨Nat.prime_two⟩
  have h3 := congrArg (padicValRat 2) h2
  have hself : padicValRat 2 (2 : ℚ) = 1 := by exact_mod_cast padicValRat.self (p := 2) (by decide)
  have hmq : (m : ℚ) ≠ 0 := by exact_mod_cast hm
  have h2q : (2 : ℚ) ≠ 0 := by norm_num
  rw [padicValRat.pow, padicValRat.pow, hself, mul_one] at h3
  apply hk
  exact Int.natCast_dvd_natCast.1 (Dvd.intro _ h3.symm)

end Ideal

end PyFLP
