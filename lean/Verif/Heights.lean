import Verif.FltLemmas
import Verif.Construct
/-!
# Track heights only shrink

What reading a playlist track height (`arrangement.py:123-128`) and writing it again does to the
stored 32 bit pattern.
-/

namespace PyFLP

/-- The integer part of a number that is not negative is not negative. -/
theorem floor_nonneg' {q : Rat} (h : 0 ≤ q) : 0 ≤ q.floor := by
  obtain ⟨_, h2⟩ := floor_bounds q
  have : (0 : Rat) < ((q.floor + 1 : Int) : Rat) := by push_cast; linarith
  have : (0 : Int) < q.floor + 1 := by exact_mod_cast this
  omega

/-- Rounding to an integer does not cross an integer. -/
theorem roundHE_le {q : Rat} {n : Int} (h : q ≤ n) : roundHE q ≤ n := by
  obtain ⟨h1, h2⟩ := floor_bounds q
  have hf : q.floor ≤ n := by exact_mod_cast h1.trans h
  unfold roundHE
  simp only
  split
  · exact hf
  · next hh =>
    have hlt : q.floor + 1 ≤ n := by
      by_contra hc
      have : n = q.floor := by omega
      subst this
      have : q - q.floor < 1 / 2 := by linarith
      exact hh this
    split
    · exact hlt
    · split
      · exact hf
      · exact hlt

@[inherit_doc roundHE_le]
theorem le_roundHE {q : Rat} {n : Int} (h : (n : Rat) ≤ q) : n ≤ roundHE q := by
  obtain ⟨h1, h2⟩ := floor_bounds q
  have hf : n ≤ q.floor := Int.le_floor.2 h
  unfold roundHE
  simp only
  split
  · exact hf
  · split
    · omega
    · split <;> omega

/-- Rounding to `p` bits does not cross a number with `p` bits. -/
theorem abs_fround_le {p : Nat} {q g : Rat} (hp : 1 ≤ p) (h : |q| ≤ g) (hg : fround p g = g) : |fround p q| ≤ g := by
  by_cases hq : q = 0
  · subst hq
    unfold fround
    rw [if_pos rfl]
    simpa using h
  have hqpos : 0 < |q| := abs_pos.2 hq
  have hgpos : 0 < g := lt_of_lt_of_le hqpos h
  have hgne : g ≠ 0 := hgpos.ne'
  unfold fround at hg ⊢
  rw [if_neg hgne] at hg
  rw [if_neg hq]
  simp only at hg ⊢
  rw [rabs_eq] at hg ⊢
  rw [abs_of_pos hgpos] at hg
  obtain ⟨q1, q2⟩ := ilog2_spec hqpos
  obtain ⟨g1, g2⟩ := ilog2_spec hgpos
  have hle : ilog2 |q| ≤ ilog2 g := by
    have := ilog2_lt hqpos (lt_of_le_of_lt h g2)
    omega
  generalize hE : ilog2 |q| - ((p : Int) - 1) = E
  have hEp := pow2_pos E
  have key : ∀ K : Int, |q| ≤ (K : Rat) * pow2 E → |(roundHE (q / pow2 E) : Rat) * pow2 E| ≤ (K : Rat) * pow2 E := by
    intro K hK
    rw [abs_le] at hK
    have a1 : q / pow2 E ≤ K := by rw [div_le_iff₀ hEp]; exact hK.2
    have a2 : ((-K : Int) : Rat) ≤ q / pow2 E := by
      rw [le_div_iff₀ hEp]; push_cast; linarith [hK.1]
    have b1 : (roundHE (q / pow2 E) : Rat) ≤ K := by exact_mod_cast roundHE_le a1
    have b2 : ((-K : Int) : Rat) ≤ (roundHE (q / pow2 E) : Rat) := by exact_mod_cast le_roundHE a2
    rw [abs_mul, abs_of_pos hEp]
    apply mul_le_mul_of_nonneg_right _ hEp.le
    rw [abs_le]
    push_cast at b2
    exact ⟨b2, b1⟩
  rcases hle.lt_or_eq with hlt | heq
  · have hK : |q| ≤ ((2 ^ p : Nat) : Int) * pow2 E := by
      have : (((2 ^ p : Nat) : Int) : Rat) * pow2 E = pow2 (ilog2 |q| + 1) := by
        rw [show (((2 ^ p : Nat) : Int) : Rat) = ((2 ^ p : Nat) : Rat) by push_cast; rfl, ← pow2_nat, ← pow2_add]
        congr 1; omega
      rw [this]; exact q2.le
    have := key _ hK
    refine this.trans ?_
    have e : (((2 ^ p : Nat) : Int) : Rat) * pow2 E = pow2 (ilog2 |q| + 1) := by
      rw [show (((2 ^ p : Nat) : Int) : Rat) = ((2 ^ p : Nat) : Rat) by push_cast; rfl, ← pow2_nat, ← pow2_add]
      congr 1; omega
    rw [e]
    exact (pow2_mono (by omega)).trans g1
  · rw [← heq, hE] at hg
    have := key (roundHE (g / pow2 E)) (by rw [hg]; exact h)
    rw [hg] at this
    exact this

theorem abs_fl_le {q g : Rat} (h : |q| ≤ g) (hg : fl g = g) : |fl q| ≤ g := abs_fround_le (by omega) h hg

theorem fl_at_zero : fl 0 = 0 := by unfold fl fround; rw [if_pos rfl]

/-- The exponent of the bit pattern of a finite binary32 number, as `f32Bits` counts. -/
def f32Exp (mag : Nat) : Int := max ((mag / 2 ^ 23 : Nat) : Int) 1 - 127

/-- The value of a bit pattern, as a whole number times a power of two. -/
theorem f32Value_form {mag : Nat} (h : mag < 255 * 2 ^ 23) :
    ∃ m : Nat, f32Value mag = some ((m : Rat) * pow2 (f32Exp mag - 23)) ∧
      (f32Exp mag + 126) * 2 ^ 23 + m = mag ∧ m < 2 ^ 24 := by
  unfold f32Value
  have he : mag / 2 ^ 23 % 256 = mag / 2 ^ 23 := by omega
  have hs : ¬ mag / 2 ^ 31 % 2 = 1 := by omega
  simp only [he]
  rw [if_neg (by omega)]
  simp only [hs, if_false]
  by_cases h0 : mag / 2 ^ 23 = 0
  · refine ⟨mag % 2 ^ 23, ?_, ?_, by omega⟩
    · rw [if_pos h0]
      unfold f32Exp
      rw [h0]
      rfl
    · unfold f32Exp; rw [h0]; simp; omega
  · refine ⟨8388608 + mag % 2 ^ 23, ?_, ?_, by omega⟩
    · rw [if_neg h0]
      unfold f32Exp
      congr 3
      omega
    · unfold f32Exp; omega

/-- The bit pattern of a number is not greater than the bit pattern of a greater number. -/
theorem f32Bits_mag_le {a : Rat} {mag : Nat} {v : Rat} (ha : 0 < a) (hm : mag < 255 * 2 ^ 23) (hv : f32Value mag = some v)
    (h : a ≤ v) :
    ((((max (ilog2 a) (-126)) + 126) * 2 ^ 23 : Int)).toNat +
      (roundHE (a / pow2 (max (ilog2 a) (-126) - 23))).toNat ≤ mag := by
  obtain ⟨m, h1, h2, h3⟩ := f32Value_form hm
  rw [hv] at h1
  have hve : v = (m : Rat) * pow2 (f32Exp mag - 23) := Option.some.inj h1
  have hvp : 0 < v := lt_of_lt_of_le ha h
  obtain ⟨a1, a2⟩ := ilog2_spec ha
  have hee : -126 ≤ f32Exp mag := by unfold f32Exp; omega
  have hvlt : v < pow2 (f32Exp mag + 1) := by
    rw [hve, show f32Exp mag + 1 = ((24 : Nat) : Int) + (f32Exp mag - 23) by push_cast; ring, pow2_add, pow2_nat]
    apply mul_lt_mul_of_pos_right _ (pow2_pos _)
    exact_mod_cast h3
  have hle : max (ilog2 a) (-126) ≤ f32Exp mag := by
    have := ilog2_lt ha (lt_of_le_of_lt h hvlt)
    omega
  generalize hE : max (ilog2 a) (-126) = E at *
  have hE0 : -126 ≤ E := by omega
  have hEp := pow2_pos (E - 23)
  have r0 : 0 ≤ roundHE (a / pow2 (E - 23)) := le_roundHE (by
    push_cast
    exact div_nonneg ha.le hEp.le)
  rcases hle.lt_or_eq with hlt | heq
  · have r1 : roundHE (a / pow2 (E - 23)) ≤ 2 ^ 24 := by
      apply roundHE_le
      rw [div_le_iff₀ hEp]
      have : (((2 ^ 24 : Int)) : Rat) * pow2 (E - 23) = pow2 (E + 1) := by
        rw [show E + 1 = ((24 : Nat) : Int) + (E - 23) by push_cast; ring, pow2_add, pow2_nat]
        push_cast; rfl
      rw [this]
      exact a2.le.trans (pow2_mono (by omega))
    have hmag : (f32Exp mag + 127) * 2 ^ 23 ≤ mag := by unfold f32Exp at *; omega
    omega
  · have r1 : roundHE (a / pow2 (E - 23)) ≤ m := by
      apply roundHE_le
      rw [div_le_iff₀ hEp, heq]
      push_cast
      rw [← hve]; exact h
    rw [← heq] at h2
    omega

/-- Rounding a number to binary32 gives a bit pattern that is not greater than the one of a number
further from zero. -/
theorem f32Bits_le {q v : Rat} {mag : Nat} (hm : mag < 255 * 2 ^ 23) (hv : f32Value mag = some v) (h : |q| ≤ v) :
    ∃ n, f32Bits q = some n ∧ (0 ≤ q → n ≤ mag) ∧ (n = 0 ∨ (q < 0 ∧ 2 ^ 31 ≤ n ∧ n ≤ 2 ^ 31 + mag) ∨ (0 < q ∧ n ≤ mag)) := by
  unfold f32Bits
  split
  · exact ⟨0, rfl, fun _ => Nat.zero_le _, .inl rfl⟩
  · next hq =>
    have ha : 0 < rabs q := by rw [rabs_eq]; exact abs_pos.2 hq
    have := f32Bits_mag_le ha hm hv (by rw [rabs_eq]; exact h)
    simp only
    rw [if_neg (by omega)]
    by_cases hneg : q < 0
    · rw [if_pos hneg]
      exact ⟨_, rfl, fun h0 => absurd hneg (not_lt.2 h0), .inr (.inl ⟨hneg, by omega, by omega⟩)⟩
    · rw [if_neg hneg]
      exact ⟨_, rfl, fun _ => this, .inr (.inr ⟨lt_of_le_of_ne (not_lt.1 hneg) (Ne.symm hq), this⟩)⟩

/-- Reading a stored height and writing it again gives a bit pattern that is not greater, and that can be read. -/
theorem height_shrinks {bits : Nat} (hb : bits < 2 ^ 32) {s : PStr} (h : heightDecode bits = some s) :
    ∃ n, heightEncode s = some n ∧ n ≤ bits ∧ (heightDecode n).isSome := by
  unfold heightDecode at h
  rw [Option.map_eq_some_iff] at h
  obtain ⟨x, hx, rfl⟩ := h
  -- the magnitude
  generalize hmag : bits % 2 ^ 31 = mag
  have hmlt : mag < 2 ^ 31 := by omega
  have hfin : mag < 255 * 2 ^ 23 := by
    by_contra hc
    unfold f32Value at hx
    rw [if_pos (by omega)] at hx
    cases hx
  obtain ⟨m, v1, v2, v3⟩ := f32Value_form hfin
  generalize hk : f32Exp mag - 23 = k at *
  have hxabs : x = (if bits / 2 ^ 31 % 2 = 1 then -((m : Rat) * pow2 k) else (m : Rat) * pow2 k) := by
    have e1 : bits / 2 ^ 23 % 256 = mag / 2 ^ 23 % 256 := by omega
    have e2 : bits % 2 ^ 23 = mag % 2 ^ 23 := by omega
    have e3 : mag / 2 ^ 31 % 2 ≠ 1 := by omega
    unfold f32Value at hx v1
    simp only [e1, e2] at hx
    simp only [e3, if_false] at v1
    split at v1
    · cases v1
    · next hne =>
      rw [if_neg hne] at hx
      have hx := Option.some.inj hx
      have v1 := Option.some.inj v1
      rw [← hx, v1]
  have hv : f32Value mag = some ((m : Rat) * pow2 k) := v1
  generalize hvv : (m : Rat) * pow2 k = v at *
  have hv0 : 0 ≤ v := by rw [← hvv]; exact mul_nonneg (by exact_mod_cast Nat.zero_le m) (pow2_pos k).le
  have hxa : |x| = v := by
    rw [hxabs]
    split
    · rw [abs_neg, abs_of_nonneg hv0]
    · exact abs_of_nonneg hv0
  have hflv : fl v = v := by
    rw [← hvv]
    have : fl (((m : Int) : Rat) * pow2 k) = ((m : Int) : Rat) * pow2 k := fl_exact (by
      rw [abs_of_nonneg (by exact_mod_cast Nat.zero_le m)]
      have : (m : Rat) < 2 ^ 24 := by exact_mod_cast v3
      push_cast
      linarith)
    exact_mod_cast this
  have hfl100 : fl (x * 100) = x * 100 := by
    have hform : ∃ j : Int, x = (j : Rat) * pow2 k ∧ |(j : Rat)| = m := by
      rw [hxabs, ← hvv]
      split
      · exact ⟨-(m : Int), by push_cast; ring, by push_cast; rw [abs_neg, abs_of_nonneg (by exact_mod_cast Nat.zero_le m)]⟩
      · exact ⟨(m : Int), by push_cast; ring, by push_cast; rw [abs_of_nonneg (by exact_mod_cast Nat.zero_le m)]⟩
    obtain ⟨j, j1, j2⟩ := hform
    have : fl (((j * 100 : Int) : Rat) * pow2 k) = ((j * 100 : Int) : Rat) * pow2 k := fl_exact (by
      push_cast
      rw [abs_mul, j2, abs_of_pos (by norm_num)]
      have : (m : Rat) < 2 ^ 24 := by exact_mod_cast v3
      linarith)
    rw [j1, show (j : Rat) * pow2 k * 100 = ((j * 100 : Int) : Rat) * pow2 k by push_cast; ring, this]
  -- the percentage
  generalize hN : trunc (fl (x * 100)) = N
  rw [hfl100] at hN
  have hNabs : |(N : Rat)| ≤ |x| * 100 ∧ (x ≤ 0 → N ≤ 0) ∧ (0 ≤ x → 0 ≤ N) := by
    unfold trunc at hN
    split at hN
    · next hneg =>
      have hxneg : x < 0 := by linarith
      obtain ⟨c1, c2⟩ := floor_bounds (-(x * 100))
      have c3 : (0 : Int) ≤ (-(x * 100)).floor := floor_nonneg' (by linarith)
      have c3' : (0 : Rat) ≤ ((-(x * 100)).floor : Rat) := by exact_mod_cast c3
      subst hN
      refine ⟨?_, fun _ => by omega, fun h0 => by linarith⟩
      push_cast
      rw [abs_neg, abs_of_nonneg c3', abs_of_neg hxneg]
      linarith
    · next hnn =>
      have hx0 : 0 ≤ x := by linarith [not_lt.1 hnn]
      obtain ⟨c1, c2⟩ := floor_bounds (x * 100)
      have c3 : (0 : Int) ≤ (x * 100).floor := floor_nonneg' (by linarith)
      have c3' : (0 : Rat) ≤ ((x * 100).floor : Rat) := by exact_mod_cast c3
      subst hN
      refine ⟨?_, fun hle => ?_, fun _ => c3⟩
      · rw [abs_of_nonneg c3', abs_of_nonneg hx0]; exact c1
      · have : x = 0 := le_antisymm hle hx0
        subst this
        have : ((0 : Rat) * 100).floor = 0 := by rw [zero_mul]; exact floor_int 0
        rw [this]
  obtain ⟨n1, n2, n3⟩ := hNabs
  have hq : |(N : Rat) / 100| ≤ v := by
    rw [abs_div, abs_of_pos (show (0 : Rat) < 100 by norm_num), div_le_iff₀ (by norm_num), ← hxa]
    exact n1
  have hd := abs_fl_le hq hflv
  obtain ⟨n, f1, f2, f3⟩ := f32Bits_le hfin hv hd
  have henc : heightEncode (intRepr N ++ [37]) = some n := by
    unfold heightEncode
    rw [List.dropLast_concat, pyInt_intRepr]
    exact f1
  have hsome : ∀ n mag', n % 2 ^ 31 ≤ mag' → mag' < 255 * 2 ^ 23 → (heightDecode n).isSome := by
    intro n mag' h1 h2
    unfold heightDecode
    rw [Option.isSome_map]
    unfold f32Value
    simp only
    rw [if_neg (by omega)]
    rfl
  refine ⟨n, henc, ?_, ?_⟩
  · by_cases hsign : bits / 2 ^ 31 % 2 = 1
    · rcases f3 with f3 | ⟨f3, f4, f5⟩ | ⟨f3, f4⟩ <;> omega
    · have hx0 : 0 ≤ x := by rw [hxabs, if_neg hsign]; exact hv0
      have hq0 : 0 ≤ fl ((N : Rat) / 100) := fl_nonneg (div_nonneg (by exact_mod_cast n3 hx0) (by norm_num))
      have := f2 hq0
      omega
  · rcases f3 with f3 | ⟨f3, f4, f5⟩ | ⟨f3, f4⟩
    · exact hsome n 0 (by omega) (by omega)
    · exact hsome n mag (by omega) hfin
    · exact hsome n mag (by omega) hfin

end PyFLP
