import Verif.Heights
import Verif.Props.EventEq
import Mathlib.Tactic.Ring
import Mathlib.Tactic.FieldSimp
/-!
# Rounding to binary32 and binary64

`f32Bits` and `f64Bits` compute the nearest number of their type.  Both are instances of `roundMag`, for `P` fraction bits and
least exponent `lo`.
-/

namespace PyFLP

/-- The number without sign of a bit pattern without sign. -/
def magValue (P : Nat) (lo : Int) (x : Nat) : Rat := (fltMag P x : Rat) * pow2 (lo - P)

/-- The bit pattern without sign of the number nearest to `a`. -/
def roundMag (P : Nat) (lo : Int) (a : Rat) : Nat :=
  ((max (ilog2 a) lo - lo) * 2 ^ P).toNat + (roundHE (a / pow2 (max (ilog2 a) lo - P))).toNat

theorem fltMag_add {P k m : Nat} (h : k = 0 ∨ 2 ^ P ≤ m) (hm : m ≤ 2 ^ (P + 1)) : fltMag P (k * 2 ^ P + m) = m * 2 ^ k := by
  have hp : 0 < 2 ^ P := Nat.pow_pos (by decide)
  have hs : 2 ^ (P + 1) = 2 ^ P * 2 := Nat.pow_succ ..
  unfold fltMag
  rw [show k * 2 ^ P + m = m + 2 ^ P * k by ring, Nat.add_mul_div_left _ _ hp, Nat.add_mul_mod_self_left]
  rcases Nat.lt_or_ge m (2 ^ P) with h1 | h1
  · have hk : k = 0 := by omega
    subst hk
    rw [Nat.div_eq_of_lt h1, Nat.mod_eq_of_lt h1]
    simp
  · rcases Nat.lt_or_ge m (2 ^ (P + 1)) with h2 | h2
    · have hd : m / 2 ^ P = 1 := Nat.div_eq_of_lt_le (by omega) (by omega)
      have hr : m % 2 ^ P = m - 2 ^ P := by
        rw [Nat.mod_eq_sub_mod h1, Nat.mod_eq_of_lt (by omega)]
      rw [hd, hr, if_neg (by omega), show 1 + k - 1 = k by omega, show 2 ^ P + (m - 2 ^ P) = m by omega]
    · have hm2 : m = 2 ^ P * 2 := by omega
      subst hm2
      rw [Nat.mul_div_cancel_left _ hp, Nat.mul_mod_right, if_neg (by omega), show 2 + k - 1 = k + 1 by omega, Nat.pow_succ]
      ring

theorem magValue_add {P k m : Nat} {lo : Int} (h : k = 0 ∨ 2 ^ P ≤ m) (hm : m ≤ 2 ^ (P + 1)) :
    magValue P lo (k * 2 ^ P + m) = (m : Rat) * pow2 (lo + k - P) := by
  unfold magValue
  rw [fltMag_add h hm, show lo + (k : Int) - P = k + (lo - P) by ring, pow2_add, pow2_nat]
  push_cast
  ring

theorem magValue_lt {P : Nat} {lo : Int} {x y : Nat} (h : x < y) : magValue P lo x < magValue P lo y := by
  unfold magValue
  have : (fltMag P x : Rat) < fltMag P y := by exact_mod_cast fltMag_lt h
  exact mul_lt_mul_of_pos_right this (pow2_pos _)

theorem magValue_zero {P : Nat} {lo : Int} : magValue P lo 0 = 0 := by
  simp [magValue, fltMag]

theorem magValue_nonneg {P : Nat} {lo : Int} {x : Nat} : 0 ≤ magValue P lo x :=
  mul_nonneg (by positivity) (pow2_pos _).le

theorem magValue_inj {P : Nat} {lo : Int} {x y : Nat} (h : magValue P lo x = magValue P lo y) : x = y := by
  rcases Nat.lt_trichotomy x y with hh | hh | hh
  · exact absurd h (magValue_lt hh).ne
  · exact hh
  · exact absurd h (magValue_lt hh).ne'

/-- Every number is a multiple of the step at `2 ^ (lo + k)`, or smaller than `2 ^ (lo + k)`. -/
theorem magValue_step {P : Nat} {lo : Int} (k x : Nat) :
    (∃ j : Nat, magValue P lo x = (j : Rat) * pow2 (lo + k - P)) ∨ magValue P lo x < pow2 (lo + k) := by
  have hp : 0 < 2 ^ P := Nat.pow_pos (by decide)
  have hmod := Nat.mod_lt x hp
  have hu : pow2 (lo + k - P) = pow2 k * pow2 (lo - P) := by rw [← pow2_add]; congr 1; ring
  have hlow : ∀ {m : Nat}, fltMag P x = m → m < 2 ^ (P + k) → magValue P lo x < pow2 (lo + k) := by
    intro m h1 h2
    unfold magValue
    rw [h1, show lo + (k : Int) = ((P + k : Nat) : Int) + (lo - P) by push_cast; ring, pow2_add, pow2_nat]
    exact mul_lt_mul_of_pos_right (by exact_mod_cast h2) (pow2_pos _)
  rcases Nat.eq_zero_or_pos k with rfl | hk
  · refine .inl ⟨fltMag P x, ?_⟩
    unfold magValue
    rw [show lo + ((0 : Nat) : Int) - P = lo - P by simp]
  by_cases hx : x / 2 ^ P = 0
  · refine .inr (hlow (m := x % 2 ^ P) (by unfold fltMag; rw [if_pos hx]) (hmod.trans_le ?_))
    exact Nat.pow_le_pow_right (by decide) (by omega)
  · have hf : fltMag P x = (2 ^ P + x % 2 ^ P) * 2 ^ (x / 2 ^ P - 1) := by unfold fltMag; rw [if_neg hx]
    by_cases hge : k ≤ x / 2 ^ P - 1
    · refine .inl ⟨(2 ^ P + x % 2 ^ P) * 2 ^ (x / 2 ^ P - 1 - k), ?_⟩
      unfold magValue
      rw [hf, hu, pow2_nat]
      have : 2 ^ (x / 2 ^ P - 1) = 2 ^ (x / 2 ^ P - 1 - k) * 2 ^ k := by rw [← Nat.pow_add]; congr 1; omega
      rw [this]
      push_cast
      ring
    · refine .inr (hlow hf ?_)
      have h1 : 2 ^ P + x % 2 ^ P < 2 ^ (P + 1) := by rw [Nat.pow_succ]; omega
      calc (2 ^ P + x % 2 ^ P) * 2 ^ (x / 2 ^ P - 1) < 2 ^ (P + 1) * 2 ^ (x / 2 ^ P - 1) :=
            Nat.mul_lt_mul_of_pos_right h1 (Nat.pow_pos (by decide))
        _ = 2 ^ (P + 1 + (x / 2 ^ P - 1)) := (Nat.pow_add ..).symm
        _ ≤ 2 ^ (P + k) := Nat.pow_le_pow_right (by decide) (by omega)

/-- `roundHE` rounds to a nearest integer, and to the even one of two. -/
theorem roundHE_nearest (q : Rat) (j : Int) :
    |(roundHE q : Rat) - q| ≤ |(j : Rat) - q| ∧ (|(j : Rat) - q| = |(roundHE q : Rat) - q| → j = roundHE q ∨ roundHE q % 2 = 0) := by
  obtain ⟨h1, h2⟩ := floor_bounds q
  have hj : j ≤ q.floor ∨ q.floor + 1 ≤ j := by omega
  have key : ∀ {a : Rat}, |a - q| = if a ≤ q then q - a else a - q := by
    intro a
    split
    · next h => rw [abs_of_nonpos (by linarith)]; ring
    · next h => rw [abs_of_pos (by linarith)]
  have hjc : (j : Rat) ≤ q.floor ∨ (q.floor : Rat) + 1 ≤ j := by
    rcases hj with h | h
    · exact .inl (by exact_mod_cast h)
    · exact .inr (by exact_mod_cast h)
  have dj : q - q.floor ≤ |(j : Rat) - q| ∧ (j ≠ q.floor → j ≤ q.floor → q - q.floor + 1 ≤ |(j : Rat) - q|) ∨
      q.floor + 1 - q ≤ |(j : Rat) - q| ∧ (j ≠ q.floor + 1 → q.floor + 1 - q + 1 ≤ |(j : Rat) - q|) ∧ q.floor + 1 ≤ j := by
    rcases hjc with h | h
    · left
      rw [key, if_pos (by linarith)]
      refine ⟨by linarith, fun hne hle => ?_⟩
      have : (j : Rat) ≤ q.floor - 1 := by exact_mod_cast (show j ≤ q.floor - 1 by omega)
      linarith
    · right
      rw [key]
      have hle : q.floor + 1 ≤ j := by exact_mod_cast h
      split
      · next h' => exact absurd h' (by linarith)
      · refine ⟨by linarith, fun hne => ?_, hle⟩
        have : (q.floor : Rat) + 2 ≤ j := by exact_mod_cast (show q.floor + 2 ≤ j by omega)
        linarith
  unfold roundHE
  simp only
  split
  · next h =>
    have e : |((q.floor : Int) : Rat) - q| = q - q.floor := by rw [key, if_pos h1]
    rw [e]
    rcases dj with ⟨a, b⟩ | ⟨a, b, c⟩
    · refine ⟨a, fun heq => .inl ?_⟩
      by_contra hne
      have hjl : j ≤ q.floor := by
        rcases hj with h' | h'
        · exact h'
        · exfalso
          have : (q.floor : Rat) + 1 ≤ j := by exact_mod_cast h'
          rw [key] at heq
          split at heq <;> linarith
      have := b hne hjl
      linarith
    · exact ⟨by linarith, fun heq => by linarith⟩
  · next h =>
    split
    · next h' =>
      have e : |((q.floor + 1 : Int) : Rat) - q| = q.floor + 1 - q := by
        push_cast
        rw [key, if_neg (by linarith)]
      rw [e]
      rcases dj with ⟨a, b⟩ | ⟨a, b, c⟩
      · refine ⟨by linarith, fun heq => by linarith⟩
      · refine ⟨a, fun heq => .inl ?_⟩
        by_contra hne
        have := b hne
        linarith
    · next h' =>
      have hhalf : q - q.floor = 1 / 2 := le_antisymm (by linarith) (by linarith)
      split
      · next hev =>
        have e : |((q.floor : Int) : Rat) - q| = q - q.floor := by rw [key, if_pos h1]
        rw [e]
        refine ⟨?_, fun _ => .inr hev⟩
        rcases dj with ⟨a, b⟩ | ⟨a, b, c⟩ <;> linarith
      · next hod =>
        have e : |((q.floor + 1 : Int) : Rat) - q| = q.floor + 1 - q := by
          push_cast
          rw [key, if_neg (by linarith)]
        rw [e]
        refine ⟨?_, fun _ => .inr (by omega)⟩
        rcases dj with ⟨a, b⟩ | ⟨a, b, c⟩ <;> linarith

/-- The parts of a rounded number. -/
theorem roundMag_parts {P : Nat} {lo : Int} {a : Rat} (ha : 0 < a) :
    ∃ k m : Nat, roundMag P lo a = k * 2 ^ P + m ∧ lo + k = max (ilog2 a) lo ∧
      (m : Int) = roundHE (a / pow2 (lo + k - P)) ∧ (k = 0 ∨ (2 ^ P ≤ m ∧ pow2 (lo + k) ≤ a)) ∧ m ≤ 2 ^ (P + 1) ∧
      a < pow2 (lo + k + 1) := by
  obtain ⟨k, hk⟩ : ∃ k : Nat, lo + k = max (ilog2 a) lo := ⟨(max (ilog2 a) lo - lo).toNat, by omega⟩
  obtain ⟨l1, l2⟩ := ilog2_spec ha
  have hpos : 0 ≤ a / pow2 (lo + k - P) := (div_pos ha (pow2_pos _)).le
  have h0 : 0 ≤ roundHE (a / pow2 (lo + k - P)) := le_roundHE (by push_cast; exact hpos)
  obtain ⟨m, hm⟩ := Int.eq_ofNat_of_zero_le h0
  have hup : a < pow2 (lo + k + 1) := l2.trans_le (pow2_mono (by omega))
  refine ⟨k, m, ?_, hk, hm.symm, ?_, ?_, hup⟩
  · unfold roundMag
    rw [← hk, hm]
    have : ((lo + (k : Int) - lo) * 2 ^ P).toNat = k * 2 ^ P := by
      rw [show (lo + (k : Int) - lo) * 2 ^ P = ((k * 2 ^ P : Nat) : Int) by push_cast; ring]
      rfl
    rw [this]
    rfl
  · rcases Nat.eq_zero_or_pos k with h | h
    · exact .inl h
    · right
      have he : ilog2 a = lo + k := by omega
      rw [he] at l1
      refine ⟨?_, l1⟩
      have : ((2 ^ P : Nat) : Int) ≤ roundHE (a / pow2 (lo + k - P)) := by
        apply le_roundHE
        rw [le_div_iff₀ (pow2_pos _)]
        refine le_trans (le_of_eq ?_) l1
        rw [show lo + (k : Int) = (P : Int) + (lo + k - P) by ring, pow2_add, pow2_nat]
        push_cast
        ring_nf
      rw [hm] at this
      exact_mod_cast this
  · have : roundHE (a / pow2 (lo + k - P)) ≤ ((2 ^ (P + 1) : Nat) : Int) := by
      apply roundHE_le
      rw [div_le_iff₀ (pow2_pos _)]
      refine hup.le.trans (le_of_eq ?_)
      rw [show lo + (k : Int) + 1 = ((P + 1 : Nat) : Int) + (lo + k - P) by push_cast; ring, pow2_add, pow2_nat]
      push_cast
      ring_nf
    rw [hm] at this
    exact_mod_cast this

/-- Rounding gives a nearest number, and the even one of two. -/
theorem roundMag_nearest {P : Nat} {lo : Int} {a : Rat} (hP : 0 < P) (ha : 0 < a) (x : Nat) :
    |magValue P lo (roundMag P lo a) - a| ≤ |magValue P lo x - a| ∧
      (|magValue P lo x - a| = |magValue P lo (roundMag P lo a) - a| →
        magValue P lo x = magValue P lo (roundMag P lo a) ∨ roundMag P lo a % 2 = 0) := by
  obtain ⟨k, m, h1, h2, h3, h4, h5, h6⟩ := roundMag_parts (P := P) (lo := lo) ha
  have hu := pow2_pos (lo + k - P)
  have hval : magValue P lo (roundMag P lo a) = (roundHE (a / pow2 (lo + k - P)) : Rat) * pow2 (lo + k - P) := by
    rw [h1, magValue_add (h4.imp id And.left) h5, ← h3]
    push_cast
    rfl
  have hpar : roundMag P lo a % 2 = m % 2 := by
    rw [h1]
    obtain ⟨P', rfl⟩ : ∃ P', P = P' + 1 := ⟨P - 1, by omega⟩
    rw [Nat.pow_succ, ← Nat.mul_assoc]
    omega
  rw [hval, hpar]
  generalize hU : pow2 (lo + k - P) = u at *
  have scale : ∀ j : Int, |(j : Rat) * u - a| = |(j : Rat) - a / u| * u := by
    intro j
    rw [← abs_of_pos hu, ← abs_mul, abs_of_pos hu, sub_mul, div_mul_cancel₀ _ hu.ne']
  rcases magValue_step (P := P) (lo := lo) k x with ⟨j, hj⟩ | hlt
  · rw [hU] at hj
    obtain ⟨n1, n2⟩ := roundHE_nearest (a / u) j
    rw [hj, show ((j : Nat) : Rat) = ((j : Int) : Rat) by push_cast; rfl, scale, scale]
    refine ⟨mul_le_mul_of_nonneg_right n1 hu.le, fun heq => ?_⟩
    rcases n2 (mul_right_cancel₀ hu.ne' heq) with h | h
    · exact .inl (by rw [h])
    · right
      rw [← h3] at h
      omega
  · rcases h4 with rfl | ⟨h4, hle⟩
    · -- the step is the least one: every number is a multiple of it
      obtain ⟨n1, n2⟩ := roundHE_nearest (a / u) (fltMag P x)
      have hj : magValue P lo x = ((fltMag P x : Int) : Rat) * u := by
        unfold magValue
        rw [← hU]
        push_cast
        rw [add_zero]
      rw [hj, scale, scale]
      refine ⟨mul_le_mul_of_nonneg_right n1 hu.le, fun heq => ?_⟩
      rcases n2 (mul_right_cancel₀ hu.ne' heq) with h | h
      · exact .inl (by rw [h])
      · right
        rw [← h3] at h
        omega
    · -- smaller than `2 ^ (lo + k)`, which is a multiple of the step
      have he : pow2 (lo + k) = (((2 ^ P : Nat) : Int) : Rat) * u := by
        rw [← hU, show lo + (k : Int) = (P : Int) + (lo + k - P) by ring, pow2_add, pow2_nat]
        push_cast
        ring_nf
      obtain ⟨n1, -⟩ := roundHE_nearest (a / u) ((2 ^ P : Nat) : Int)
      have hb := mul_le_mul_of_nonneg_right n1 hu.le
      rw [← scale, ← scale, ← he] at hb
      have e1 : |pow2 (lo + k) - a| = a - pow2 (lo + k) := by rw [abs_of_nonpos (by linarith)]; ring
      have e2 : |magValue P lo x - a| = a - magValue P lo x := by rw [abs_of_nonpos (by linarith)]; ring
      rw [e1] at hb
      rw [e2]
      exact ⟨by linarith, fun h => by linarith⟩

/-- When rounding leaves the finite numbers. -/
theorem roundMag_big {P E : Nat} {lo : Int} {a : Rat} (hP : 0 < P) (hE : 2 ≤ E) (ha : 0 < a) :
    E * 2 ^ P ≤ roundMag P lo a ↔ pow2 (lo + E - 1) - pow2 (lo + E - 3 - P) ≤ a := by
  obtain ⟨k, m, h1, h2, h3, h4, h5, h6⟩ := roundMag_parts (P := P) (lo := lo) ha
  have hp : 0 < 2 ^ P := Nat.pow_pos (by decide)
  have hs : 2 ^ (P + 1) = 2 ^ P * 2 := Nat.pow_succ ..
  rw [h1]
  rcases Nat.lt_trichotomy (k + 2) E with hk | hk | hk
  · have hb : pow2 (lo + k + 1) ≤ pow2 (lo + E - 2) := pow2_mono (by omega)
    have hd : pow2 (lo + E - 1) = pow2 (lo + E - 2) * 2 := by rw [← pow2_succ]; congr 1; ring
    have hsm : pow2 (lo + E - 3 - P) < pow2 (lo + E - 2) := pow2_lt (by omega)
    constructor
    · intro h
      exfalso
      have : (k + 2) * 2 ^ P < E * 2 ^ P := Nat.mul_lt_mul_of_pos_right hk hp
      have e : (k + 2) * 2 ^ P = k * 2 ^ P + 2 ^ P * 2 := by ring
      omega
    · intro h
      exfalso
      linarith
  · subst hk
    have hu := pow2_pos (lo + k - P)
    have e1 : pow2 (lo + ((k + 2 : Nat) : Int) - 1) = (2 ^ (P + 1) : Rat) * pow2 (lo + k - P) := by
      rw [show lo + ((k + 2 : Nat) : Int) - 1 = ((P + 1 : Nat) : Int) + (lo + k - P) by push_cast; ring, pow2_add, pow2_nat]
      push_cast
      rfl
    have e2 : pow2 (lo + ((k + 2 : Nat) : Int) - 3 - P) = 1 / 2 * pow2 (lo + k - P) := by
      have : pow2 (lo + k - P) = pow2 (lo + ((k + 2 : Nat) : Int) - 3 - P) * 2 := by
        rw [← pow2_succ]; congr 1; push_cast; ring
      rw [this]
      ring
    rw [e1, e2, ← sub_mul, ← le_div_iff₀ hu]
    have hm : (k + 2) * 2 ^ P ≤ k * 2 ^ P + m ↔ 2 ^ (P + 1) ≤ m := by
      have : (k + 2) * 2 ^ P = k * 2 ^ P + 2 ^ P * 2 := by ring
      omega
    rw [hm]
    generalize a / pow2 (lo + k - P) = x at *
    constructor
    · intro h
      have herr := roundHE_err x
      rw [← h3, abs_le] at herr
      have : ((2 ^ (P + 1) : Nat) : Rat) ≤ m := by exact_mod_cast h
      push_cast at this herr
      linarith [herr.2]
    · intro h
      have hev : ((2 ^ (P + 1) : Nat) : Int) ≤ roundHE x := by
        obtain ⟨n1, n2⟩ := roundHE_nearest x ((2 ^ (P + 1) : Nat) : Int)
        by_contra hlt
        have hle : roundHE x ≤ ((2 ^ (P + 1) : Nat) : Int) - 1 := by omega
        have hle' : (roundHE x : Rat) ≤ 2 ^ (P + 1) - 1 := by exact_mod_cast hle
        have ea : |(roundHE x : Rat) - x| = x - roundHE x := by rw [abs_of_nonpos (by linarith)]; ring
        have hx : x ≤ 2 ^ (P + 1) := by
          by_contra hh
          have : ((2 ^ (P + 1) : Nat) : Int) ≤ roundHE x := le_roundHE (by push_cast; linarith)
          omega
        have eb : |(((2 ^ (P + 1) : Nat) : Int) : Rat) - x| = 2 ^ (P + 1) - x := by
          push_cast
          exact abs_of_nonneg (by linarith)
        rw [ea, eb] at n1 n2
        have hval : (roundHE x : Rat) = 2 ^ (P + 1) - 1 := by linarith
        have hval' : roundHE x = ((2 ^ (P + 1) : Nat) : Int) - 1 := by
          have : ((roundHE x : Int) : Rat) = ((((2 ^ (P + 1) : Nat) : Int) - 1 : Int) : Rat) := by push_cast; exact hval
          exact_mod_cast this
        rcases n2 (by rw [hval]; linarith) with h' | h'
        · omega
        · rw [hval', hs] at h'
          push_cast at h'
          omega
      rw [← h3] at hev
      exact_mod_cast hev
  · constructor
    · intro _
      have hle := (h4.resolve_left (by omega)).2
      have : pow2 (lo + E - 1) ≤ pow2 (lo + k) := pow2_mono (by omega)
      have := pow2_pos (lo + E - 3 - P)
      linarith
    · intro _
      have hle := (h4.resolve_left (by omega)).1
      have : (E - 1) * 2 ^ P ≤ k * 2 ^ P := Nat.mul_le_mul_right _ (by omega)
      have : E * 2 ^ P = (E - 1) * 2 ^ P + 2 ^ P := by
        rw [show E = E - 1 + 1 by omega]
        simp only [Nat.add_sub_cancel]
        ring
      omega

/-! ## binary32 and binary64 -/

theorem f32Value_mag (b : Nat) : f32Value b = if b % 2 ^ 31 < 255 * 2 ^ 23 then
    some (if b / 2 ^ 31 % 2 = 1 then -magValue 23 (-126) (b % 2 ^ 31) else magValue 23 (-126) (b % 2 ^ 31)) else none := by
  have he : b / 2 ^ 23 % 256 = b % 2 ^ 31 / 2 ^ 23 := by omega
  have hm : b % 2 ^ 23 = b % 2 ^ 31 % 2 ^ 23 := by omega
  unfold f32Value
  simp only
  rw [he, hm]
  have hlt : b % 2 ^ 31 < 2 ^ 31 := Nat.mod_lt _ (by decide)
  generalize b % 2 ^ 31 = x at *
  by_cases h : x < 255 * 2 ^ 23
  · rw [if_neg (by omega), if_pos h]
    have hv : (if x / 2 ^ 23 = 0 then ((x % 2 ^ 23 : Nat) : Rat) * pow2 (-149)
        else ((8388608 + x % 2 ^ 23 : Nat) : Rat) * pow2 (((x / 2 ^ 23 : Nat) : Int) - 150)) = magValue 23 (-126) x := by
      unfold magValue fltMag
      split
      · norm_num
      · next hx =>
        rw [show (((x / 2 ^ 23 : Nat) : Int) - 150) = ((x / 2 ^ 23 - 1 : Nat) : Int) + (-126 - 23) by omega, pow2_add, pow2_nat]
        push_cast
        norm_num
        ring
    rw [hv]
  · rw [if_pos (by omega), if_neg h]

theorem f64Value_mag (b : Nat) : f64Value b = if b % 2 ^ 63 < 2047 * 2 ^ 52 then
    some (if b / 2 ^ 63 % 2 = 1 then -magValue 52 (-1022) (b % 2 ^ 63) else magValue 52 (-1022) (b % 2 ^ 63)) else none := by
  have he : b / 2 ^ 52 % 2048 = b % 2 ^ 63 / 2 ^ 52 := by omega
  have hm : b % 2 ^ 52 = b % 2 ^ 63 % 2 ^ 52 := by omega
  unfold f64Value
  simp only
  rw [he, hm]
  have hlt : b % 2 ^ 63 < 2 ^ 63 := Nat.mod_lt _ (by decide)
  generalize b % 2 ^ 63 = x at *
  by_cases h : x < 2047 * 2 ^ 52
  · rw [if_neg (by omega), if_pos h]
    have hv : (if x / 2 ^ 52 = 0 then ((x % 2 ^ 52 : Nat) : Rat) * pow2 (-1074)
        else ((2 ^ 52 + x % 2 ^ 52 : Nat) : Rat) * pow2 (((x / 2 ^ 52 : Nat) : Int) - 1075)) = magValue 52 (-1022) x := by
      unfold magValue fltMag
      split
      · norm_num
      · next hx =>
        rw [show (((x / 2 ^ 52 : Nat) : Int) - 1075) = ((x / 2 ^ 52 - 1 : Nat) : Int) + (-1022 - 52) by omega, pow2_add, pow2_nat]
        push_cast
        norm_num
        ring
    rw [hv]
  · rw [if_pos (by omega), if_neg h]

theorem f32Bits_mag {q : Rat} (hq : q ≠ 0) : f32Bits q =
    if 255 * 2 ^ 23 ≤ roundMag 23 (-126) |q| then none
    else some (if q < 0 then 2 ^ 31 + roundMag 23 (-126) |q| else roundMag 23 (-126) |q|) := by
  unfold f32Bits
  rw [if_neg hq]
  simp only [rabs_eq]
  rfl

theorem ilog2_nat {n : Nat} (h : n ≠ 0) : ilog2 (n : Rat) = Nat.log2 n := by
  have hpos : (0 : Rat) < n := by exact_mod_cast Nat.pos_of_ne_zero h
  apply le_antisymm
  · have h2 := @Nat.lt_log2_self n
    have : ilog2 (n : Rat) < (Nat.log2 n : Int) + 1 := by
      apply ilog2_lt hpos
      rw [show ((Nat.log2 n : Int) + 1) = ((Nat.log2 n + 1 : Nat) : Int) by push_cast; rfl, pow2_nat]
      exact_mod_cast h2
    omega
  · apply le_ilog2 hpos
    rw [pow2_nat]
    exact_mod_cast Nat.log2_self_le h

theorem f64Bits_mag {i : Int} (hi : i ≠ 0) : f64Bits i =
    if 2047 * 2 ^ 52 ≤ roundMag 52 (-1022) |(i : Rat)| then none
    else some (if i < 0 then 2 ^ 63 + roundMag 52 (-1022) |(i : Rat)| else roundMag 52 (-1022) |(i : Rat)|) := by
  have ha : |(i : Rat)| = ((i.natAbs : Nat) : Rat) := by
    rw [Nat.cast_natAbs, Int.cast_abs]
  have hn : i.natAbs ≠ 0 := by omega
  unfold f64Bits
  rw [if_neg hi, ha]
  simp only
  have e : roundMag 52 (-1022) ((i.natAbs : Nat) : Rat) =
      (Nat.log2 i.natAbs + 1022) * 2 ^ 52 + (roundHE ((i.natAbs : Rat) / pow2 ((Nat.log2 i.natAbs : Int) - 52))).toNat := by
    unfold roundMag
    rw [ilog2_nat hn, max_eq_left (by omega)]
    congr 1
  rw [e]

end PyFLP
