import Mathlib.Tactic.Linarith
import Mathlib.Tactic.Positivity
import Mathlib.Tactic.FieldSimp
import Mathlib.Data.Rat.Floor
import Mathlib.Algebra.Order.Field.Power
import Verif.Flt
/-!
# Error bounds of the rounding functions
-/

namespace PyFLP

theorem pow2_eq (e : Int) : pow2 e = (2 : Rat) ^ e := by
  unfold pow2
  split
  · next h =>
    obtain ⟨n, rfl⟩ := Int.eq_ofNat_of_zero_le h
    simp
  · next h =>
    obtain ⟨n, hn⟩ := Int.eq_ofNat_of_zero_le (show 0 ≤ -e by omega)
    have : e = -(n : Int) := by omega
    subst this
    simp

theorem pow2_pos (e : Int) : 0 < pow2 e := by rw [pow2_eq]; positivity

theorem pow2_add (a b : Int) : pow2 (a + b) = pow2 a * pow2 b := by
  rw [pow2_eq, pow2_eq, pow2_eq, zpow_add₀ (by norm_num)]

theorem pow2_succ (a : Int) : pow2 (a + 1) = pow2 a * 2 := by
  rw [pow2_add]; rfl

theorem pow2_nat (n : Nat) : pow2 (n : Int) = ((2 ^ n : Nat) : Rat) := by
  rw [pow2_eq]; simp

theorem pow2_mono {a b : Int} (h : a ≤ b) : pow2 a ≤ pow2 b := by
  rw [pow2_eq, pow2_eq]; exact zpow_le_zpow_right₀ (by norm_num) h

theorem pow2_lt {a b : Int} (h : a < b) : pow2 a < pow2 b := by
  rw [pow2_eq, pow2_eq]; exact zpow_lt_zpow_right₀ (by norm_num) h

theorem pow2_lt_iff {a b : Int} : pow2 a < pow2 b ↔ a < b := by
  rw [pow2_eq, pow2_eq]; exact zpow_lt_zpow_iff_right₀ (by norm_num)

/-- `ilog2` brackets its argument. -/
theorem ilog2_spec {q : Rat} (h : 0 < q) : pow2 (ilog2 q) ≤ q ∧ q < pow2 (ilog2 q + 1) := by
  have hnum : 0 < q.num := Rat.num_pos.2 h
  have hn0 : q.num.natAbs ≠ 0 := by omega
  have hd0 : q.den ≠ 0 := q.den_nz
  have n1 := Nat.log2_self_le hn0
  have n2 := @Nat.lt_log2_self q.num.natAbs
  have d1 := Nat.log2_self_le hd0
  have d2 := @Nat.lt_log2_self q.den
  generalize hA : Nat.log2 q.num.natAbs = A at *
  generalize hB : Nat.log2 q.den = B at *
  have hq : q = (q.num.natAbs : Rat) / (q.den : Rat) := by
    have h' : (q.num.natAbs : Rat) = (q.num : Rat) := by
      rw [← Int.cast_natCast, Int.natAbs_of_nonneg hnum.le]
    rw [h']; exact (Rat.num_div_den q).symm
  have hd : (0 : Rat) < (q.den : Rat) := by exact_mod_cast Nat.pos_of_ne_zero hd0
  have n1' : pow2 A ≤ (q.num.natAbs : Rat) := by rw [pow2_nat]; exact_mod_cast n1
  have n2' : (q.num.natAbs : Rat) < pow2 (A + 1 : Int) := by
    have : ((A : Int) + 1) = ((A + 1 : Nat) : Int) := by omega
    rw [this, pow2_nat]; exact_mod_cast n2
  have d1' : pow2 B ≤ (q.den : Rat) := by rw [pow2_nat]; exact_mod_cast d1
  have d2' : (q.den : Rat) < pow2 (B + 1 : Int) := by
    have : ((B : Int) + 1) = ((B + 1 : Nat) : Int) := by omega
    rw [this, pow2_nat]; exact_mod_cast d2
  -- bounds with one bit of slack
  have hup : q < pow2 ((A : Int) - B + 1) := by
    rw [hq, div_lt_iff₀ hd]
    calc (q.num.natAbs : Rat) < pow2 (A + 1 : Int) := n2'
      _ = pow2 ((A : Int) - B + 1) * pow2 B := by rw [← pow2_add]; congr 1; omega
      _ ≤ pow2 ((A : Int) - B + 1) * q.den := by
        apply mul_le_mul_of_nonneg_left d1' (pow2_pos _).le
  have hlo : pow2 ((A : Int) - B - 1) ≤ q := by
    rw [hq, le_div_iff₀ hd]
    calc pow2 ((A : Int) - B - 1) * q.den ≤ pow2 ((A : Int) - B - 1) * pow2 (B + 1 : Int) := by
          apply mul_le_mul_of_nonneg_left d2'.le (pow2_pos _).le
      _ = pow2 A := by rw [← pow2_add]; congr 1; omega
      _ ≤ _ := n1'
  unfold ilog2
  simp only [hA, hB]
  split
  · next hlt =>
    refine ⟨hlo, ?_⟩
    rwa [sub_add_cancel]
  · next hge =>
    exact ⟨le_of_not_gt hge, hup⟩

theorem ilog2_lt {q : Rat} (h : 0 < q) {k : Int} (hk : q < pow2 k) : ilog2 q < k := by
  have := (ilog2_spec h).1.trans_lt hk
  exact pow2_lt_iff.1 this

theorem le_ilog2 {q : Rat} (h : 0 < q) {k : Int} (hk : pow2 k ≤ q) : k ≤ ilog2 q := by
  have := hk.trans_lt (ilog2_spec h).2
  have := pow2_lt_iff.1 this
  omega

theorem floor_bounds (q : Rat) : (q.floor : Rat) ≤ q ∧ q < q.floor + 1 := by
  constructor
  · exact Int.floor_le q
  · exact Int.lt_floor_add_one q

theorem floor_int (n : Int) : ((n : Rat)).floor = n := Rat.floor_intCast n

theorem floor_eq {q : Rat} {n : Int} (h1 : (n : Rat) ≤ q) (h2 : q < n + 1) : q.floor = n :=
  Int.floor_eq_iff.2 ⟨h1, h2⟩

theorem roundHE_err (q : Rat) : |(roundHE q : Rat) - q| ≤ 1 / 2 := by
  obtain ⟨h1, h2⟩ := floor_bounds q
  unfold roundHE
  simp only
  rw [abs_le]
  split
  · constructor <;> linarith
  · split
    · constructor <;> push_cast <;> linarith
    · split
      · constructor <;> linarith
      · constructor <;> push_cast <;> linarith

theorem roundHE_int (n : Int) : roundHE (n : Rat) = n := by
  unfold roundHE
  simp only [floor_int]
  rw [if_pos (by norm_num)]

theorem rabs_eq (q : Rat) : rabs q = |q| := by
  unfold rabs
  split
  · next h => rw [abs_of_neg h]
  · next h => rw [abs_of_nonneg (le_of_not_gt h)]

theorem fround_err (p : Nat) (q : Rat) : |fround p q - q| ≤ |q| * pow2 (-(p : Int)) := by
  unfold fround
  split
  · next h => subst h; simp
  · next h =>
    have hpos : 0 < rabs q := by rw [rabs_eq]; exact abs_pos.2 h
    obtain ⟨l1, -⟩ := ilog2_spec hpos
    simp only
    generalize hE : ilog2 (rabs q) = E at *
    rw [rabs_eq] at l1
    have he := roundHE_err (q / pow2 (E - ((p : Int) - 1)))
    generalize (roundHE (q / pow2 (E - ((p : Int) - 1))) : Rat) = r at *
    have hp := pow2_pos (E - ((p : Int) - 1))
    have hr : r * pow2 (E - ((p : Int) - 1)) - q =
        (r - q / pow2 (E - ((p : Int) - 1))) * pow2 (E - ((p : Int) - 1)) := by
      field_simp
    rw [hr, abs_mul, abs_of_pos hp]
    calc |r - q / pow2 (E - ((p : Int) - 1))| * pow2 (E - ((p : Int) - 1))
        ≤ 1 / 2 * pow2 (E - ((p : Int) - 1)) := mul_le_mul_of_nonneg_right he hp.le
      _ = pow2 E * pow2 (-(p : Int)) := by
        rw [show E - ((p : Int) - 1) = (E + -(p : Int)) + 1 by ring, pow2_succ, pow2_add]; ring
      _ ≤ |q| * pow2 (-(p : Int)) := mul_le_mul_of_nonneg_right l1 (pow2_pos _).le

/-- Numbers with at most `p` significant bits are not changed. -/
theorem fround_exact {p : Nat} {m k : Int} (hm : |(m : Rat)| < pow2 p) :
    fround p ((m : Rat) * pow2 k) = (m : Rat) * pow2 k := by
  unfold fround
  split
  · next h => exact h.symm
  · next h =>
    have hpos : 0 < rabs ((m : Rat) * pow2 k) := by rw [rabs_eq]; exact abs_pos.2 h
    have hlt : ilog2 (rabs ((m : Rat) * pow2 k)) < p + k := by
      apply ilog2_lt hpos
      rw [rabs_eq, abs_mul, abs_of_pos (pow2_pos k), pow2_add]
      exact mul_lt_mul_of_pos_right hm (pow2_pos k)
    simp only
    generalize ilog2 (rabs ((m : Rat) * pow2 k)) = E at *
    obtain ⟨j, hj⟩ := Int.eq_ofNat_of_zero_le (show 0 ≤ k - (E - ((p : Int) - 1)) by omega)
    have hk : pow2 k = pow2 (E - ((p : Int) - 1)) * ((2 ^ j : Nat) : Rat) := by
      rw [← pow2_nat, ← pow2_add]; congr 1; omega
    have hp := (pow2_pos (E - ((p : Int) - 1))).ne'
    have hdiv : (m : Rat) * pow2 k / pow2 (E - ((p : Int) - 1)) = ((m * (2 ^ j : Nat) : Int) : Rat) := by
      rw [hk]; push_cast; field_simp
    rw [hdiv, roundHE_int, hk]
    push_cast
    ring

theorem fl_exact {m k : Int} (hm : |(m : Rat)| < 2 ^ 53) : fl ((m : Rat) * pow2 k) = (m : Rat) * pow2 k :=
  fround_exact (by rw [pow2_nat]; exact_mod_cast hm)

theorem fl_int {n : Int} (h1 : -(2 ^ 53) < n) (h2 : n < 2 ^ 53) : fl (n : Rat) = n := by
  have : fl ((n : Rat) * pow2 0) = (n : Rat) * pow2 0 := by
    apply fl_exact
    rw [abs_lt]
    constructor <;> exact_mod_cast (by assumption)
  simpa [pow2] using this

theorem fl_err (q : Rat) : |fl q - q| ≤ |q| / 2 ^ 53 := by
  have := fround_err 53 q
  rw [pow2_eq] at this
  calc |fl q - q| ≤ |q| * 2 ^ (-((53 : Nat) : Int)) := this
    _ = |q| / 2 ^ 53 := by rw [zpow_neg, zpow_natCast]; rfl

/-- Rounding keeps the sign. -/
theorem fl_nonneg {q : Rat} (h : 0 ≤ q) : 0 ≤ fl q := by
  have := fl_err q
  rw [abs_of_nonneg h, abs_le] at this
  have h2 : q / 2 ^ 53 ≤ q := by
    apply div_le_self h; norm_num
  linarith [this.1]

theorem trunc_nonneg {q : Rat} (h : 0 ≤ q) : (trunc q : Rat) ≤ q ∧ q < trunc q + 1 := by
  unfold trunc
  rw [if_neg (not_lt.2 h)]
  exact floor_bounds q

theorem trunc_int (n : Int) : trunc (n : Rat) = n := by
  unfold trunc
  split
  · rw [show (-(n : Rat)) = ((-n : Int) : Rat) by push_cast; rfl, floor_int]; omega
  · exact floor_int n

end PyFLP
