import Verif.Numbers
import Verif.SavedAs
import Verif.Props.Files
import Verif.Props.Settles
import Verif.Props.ItemsSaved
import Verif.Props.Savable
/-!
# Numbers of another type (C130)

A field takes any number of Python: `item.offsets = (1, 2.5)`, `arp.gate = 48`, `keyframe.position = True`.  What is stored is
the nearest number of the field's own type.
-/

namespace PyFLP

namespace Spec

/-- The number a value stands for; `none` for infinities, NaN and values that are no numbers. -/
def ratOf : LV → Option Rat
  | .int i => some i
  | .bool b => some (if b then 1 else 0)
  | .f32 n => f32Value n
  | .f64 n => f64Value n
  | _ => none

/-- The bit pattern `n`, with `w` bits below the sign, is the number nearest to `q`.  Of two equally near ones it is the one
with an even bit pattern, and it has the sign of `q`. -/
def Nearest (value : Nat → Option Rat) (w : Nat) (q : Rat) (n : Nat) : Prop :=
  (∃ p, value n = some p ∧
    ∀ m y, value m = some y → |p - q| ≤ |y - q| ∧ (|y - q| = |p - q| → y = p ∨ n % 2 = 0)) ∧
  n < 2 ^ (w + 1) ∧ (0 < q → n < 2 ^ w) ∧ (q < 0 → 2 ^ w ≤ n)

/-- The Python `float` of `x`, which stands for `q`, has the bit pattern `d`: it is the number itself, but for integers
beyond `2 ^ 53` the nearest. -/
def FloatOf (x : LV) (q : Rat) (d : Nat) : Prop :=
  Nearest f64Value 63 q d ∧ ((∀ i, x ≠ .int i) ∨ |q| ≤ 2 ^ 53 → f64Value d = some q)

/-- A number of another type than the field's which the field can store. -/
def Takes : Leaf → LV → Prop
  | .int w _, .bool _ => 0 < w
  | .f32, x => (∃ q, ratOf x = some q ∧ |q| ≤ 2 ^ 128 - 2 ^ 104) ∧ ∀ n, x ≠ .f32 n ∧ (x = .f64 n → n < 2 ^ 64)
  | .f64, x => (∃ q, ratOf x = some q ∧ |q| < 2 ^ 1024 - 2 ^ 970) ∧ ∀ n, x ≠ .f64 n
  | _, _ => False

/-- What the field holds after saving and opening. -/
def Converts : Leaf → LV → LV → Prop
  | .int _ _, .bool b, y => y = .int (if b then 1 else 0)
  | .f32, .f32 n, y => y = .f32 n
  | .f32, x, y => ∃ q d r n, ratOf x = some q ∧ FloatOf x q d ∧ f64Value d = some r ∧ y = .f32 n ∧ Nearest f32Value 31 r n
  | .f64, .f64 n, y => y = .f64 n
  | .f64, x, y => ∃ q d, ratOf x = some q ∧ y = .f64 d ∧ FloatOf x q d
  | _, x, y => y = x

/-- Records with the same names and with values that `R` relates. -/
def recRel (R : Leaf → LV → LV → Prop) : Fields → Rec → Rec → Prop
  | (_, f) :: fs, (a, some x) :: r, (b, some y) :: r' => a = b ∧ R f.leaf x y ∧ recRel R fs r r'
  | _ :: fs, (a, none) :: r, (b, none) :: r' => a = b ∧ recRel R fs r r'
  | _, r, r' => r = r'

/-- The same for the values of events. -/
def valueRel (R : Leaf → LV → LV → Prop) : Kind → Value → Value → Prop
  | .struct s, .fields r, .fields r' => recRel R s.fields r r'
  | .list l, .items rs, .items rs' => Pointwise (recRel R l.fields) rs rs'
  | .automation, .auto h p t, .auto h' p' t' => recRel R autoHead h h' ∧ Pointwise (recRel R autoPoint) p p' ∧ t = t'
  | .bool, .lv x, .lv y => R .flag x y
  | .i8, .lv x, .lv y => R (.int 1 true) x y
  | .u8, .lv x, .lv y => R (.int 1 false) x y
  | .i16, .lv x, .lv y => R (.int 2 true) x y
  | .u16, .lv x, .lv y => R (.int 2 false) x y
  | .i32, .lv x, .lv y => R (.int 4 true) x y
  | .u32, .lv x, .lv y => R (.int 4 false) x y
  | .f32, .lv x, .lv y => R .f32 x y
  | _, v, v' => v = v'

/-- An event that can be stored, but for numbers of another type: with suitable numbers in their place it could be stored
exactly. -/
def FitsButNumbers [FloatEnv] (e : Event) : Prop :=
  ∃ v, valueRel (fun l x y => y = x ∨ Takes l x) e.kind e.value v ∧ validValue e.kind e.len v

/-- An event and what is read after saving. -/
def ReadConverted (e e' : Event) : Prop := e'.id = e.id ∧ e'.kind = e.kind ∧ valueRel Converts e.kind e.value e'.value

end Spec

open Spec

/-! ## Rounding -/

theorem near_of_round {value : Nat → Option Rat} {P E w : Nat} {lo : Int} (hP : 0 < P) (hw : E * 2 ^ P ≤ 2 ^ w) (hw0 : 0 < w)
    (hE : 0 < E)
    (hval : ∀ b, value b = if b % 2 ^ w < E * 2 ^ P then
      some (if b / 2 ^ w % 2 = 1 then -magValue P lo (b % 2 ^ w) else magValue P lo (b % 2 ^ w)) else none)
    {q : Rat} (hq : q ≠ 0) (hr : roundMag P lo |q| < E * 2 ^ P) :
    Nearest value w q (if q < 0 then 2 ^ w + roundMag P lo |q| else roundMag P lo |q|) := by
  have ha : 0 < |q| := abs_pos.2 hq
  have hn : q < 0 → |q| = -q := abs_of_neg
  have hps : 0 < q → |q| = q := abs_of_pos
  generalize |q| = a at *
  have hlt : roundMag P lo a < 2 ^ w := by omega
  have hw2 : 2 ^ (w + 1) = 2 ^ w * 2 := Nat.pow_succ ..
  have hp : 0 < 2 ^ w := Nat.pow_pos (by decide)
  -- compared with positive and negative numbers
  have key : ∀ x : Nat, ∀ y : Rat, (y = magValue P lo x ∨ y = -magValue P lo x) →
      |magValue P lo (roundMag P lo a) - a| ≤ |y - a| ∧ (|y - a| = |magValue P lo (roundMag P lo a) - a| →
        y = magValue P lo (roundMag P lo a) ∨ roundMag P lo a % 2 = 0) := by
    intro x y hy
    rcases hy with rfl | rfl
    · exact roundMag_nearest hP ha x
    · obtain ⟨z1, z2⟩ := roundMag_nearest (lo := lo) hP ha 0
      rw [magValue_zero] at z1 z2
      have hx := magValue_nonneg (P := P) (lo := lo) (x := x)
      have e0 : |0 - a| = a := by rw [zero_sub, abs_neg, abs_of_pos ha]
      have e1 : |-magValue P lo x - a| = magValue P lo x + a := by rw [abs_of_nonpos (by linarith)]; ring
      rw [e0] at z1 z2
      rw [e1]
      refine ⟨by linarith, fun h => ?_⟩
      have hx0 : magValue P lo x = 0 := by linarith
      rw [hx0, neg_zero]
      exact z2 (by linarith)
  have cases_val : ∀ m y, value m = some y → y = magValue P lo (m % 2 ^ w) ∨ y = -magValue P lo (m % 2 ^ w) := by
    intro m y h
    rw [hval] at h
    split at h
    · cases h
      split
      · exact .inr rfl
      · exact .inl rfl
    · cases h
  have heven : (2 ^ w) % 2 = 0 := by
    obtain ⟨w', rfl⟩ : ∃ w', w = w' + 1 := ⟨w - 1, by omega⟩
    rw [Nat.pow_succ]
    omega
  rcases lt_or_gt_of_ne hq with hneg | hpos
  · rw [if_pos hneg]
    have hmod : (2 ^ w + roundMag P lo a) % 2 ^ w = roundMag P lo a := by
      rw [Nat.add_mod_left, Nat.mod_eq_of_lt hlt]
    have hdiv : (2 ^ w + roundMag P lo a) / 2 ^ w = 1 := by
      rw [Nat.add_div_left _ hp, Nat.div_eq_of_lt hlt]
    have habs : a = -q := hn hneg
    refine ⟨⟨-magValue P lo (roundMag P lo a), ?_, ?_⟩, by omega, fun h => absurd h (by linarith), fun _ => by omega⟩
    · rw [hval, hmod, hdiv, if_pos hr, if_pos rfl]
    · intro m y hy
      have e : ∀ z : Rat, |z - q| = |(-z) - a| := by
        intro z
        rw [habs, ← abs_neg]
        congr 1
        ring
      obtain ⟨k1, k2⟩ := key (m % 2 ^ w) (-y) (by
        rcases cases_val m y hy with h | h
        · exact .inr (by rw [h])
        · exact .inl (by rw [h, neg_neg]))
      rw [e, e y, neg_neg]
      refine ⟨k1, fun h => ?_⟩
      rcases k2 h with h | h
      · exact .inl (by rw [← h, neg_neg])
      · exact .inr (by omega)
  · rw [if_neg (by linarith)]
    have habs : a = q := hps hpos
    refine ⟨⟨magValue P lo (roundMag P lo a), ?_, ?_⟩, by omega, fun _ => hlt, fun h => absurd h (by linarith)⟩
    · rw [hval, Nat.mod_eq_of_lt hlt, Nat.div_eq_of_lt hlt, if_pos hr, if_neg (by decide)]
    · intro m y hy
      have := key (m % 2 ^ w) y (cases_val m y hy)
      rw [habs] at this
      rw [habs]
      exact this

theorem near_zero {value : Nat → Option Rat} {w n : Nat} (h : value n = some 0) (hn : n < 2 ^ (w + 1)) : Nearest value w 0 n := by
  refine ⟨⟨0, h, fun m y _ => ⟨?_, fun hy => ?_⟩⟩, hn, fun h => absurd h (lt_irrefl _), fun h => absurd h (lt_irrefl _)⟩
  · rw [sub_self, abs_zero]
    exact abs_nonneg _
  · rw [sub_self, abs_zero, sub_zero] at hy
    exact .inl (abs_eq_zero.1 hy)

theorem pow2_const (n : Nat) : pow2 (n : Int) = 2 ^ n := by rw [pow2_nat]; push_cast; rfl

theorem f32Bits_none {q : Rat} : f32Bits q = none ↔ 2 ^ 128 - 2 ^ 103 ≤ |q| := by
  by_cases hq : q = 0
  · subst hq
    constructor
    · intro h
      cases h
    · intro h
      norm_num at h
  · have hb := roundMag_big (P := 23) (E := 255) (lo := -126) (by decide) (by decide) (abs_pos.2 hq)
    have e1 : pow2 (-126 + ((255 : Nat) : Int) - 1) = 2 ^ 128 := pow2_const 128
    have e2 : pow2 (-126 + ((255 : Nat) : Int) - 3 - ((23 : Nat) : Int)) = 2 ^ 103 := pow2_const 103
    rw [e1, e2] at hb
    rw [f32Bits_mag hq, ← hb]
    constructor
    · intro h
      split at h
      · assumption
      · cases h
    · intro h
      rw [if_pos h]

theorem f32Bits_nearest {q : Rat} {n : Nat} (hq : q ≠ 0) (h : f32Bits q = some n) : Nearest f32Value 31 q n := by
  rw [f32Bits_mag hq] at h
  split at h
  · cases h
  · next hr =>
    cases h
    exact near_of_round (by decide) (by decide) (by decide) (by decide) f32Value_mag hq (by omega)

theorem f64Bits_none {i : Int} : f64Bits i = none ↔ 2 ^ 1024 - 2 ^ 970 ≤ |i| := by
  by_cases hi : i = 0
  · subst hi
    constructor
    · intro h
      cases h
    · intro h
      rw [abs_zero] at h
      exact absurd h (by decide +kernel)
  · have hq : (i : Rat) ≠ 0 := by exact_mod_cast hi
    have hb := roundMag_big (P := 52) (E := 2047) (lo := -1022) (by decide) (by decide) (abs_pos.2 hq)
    have e1 : pow2 (-1022 + ((2047 : Nat) : Int) - 1) = 2 ^ 1024 := pow2_const 1024
    have e2 : pow2 (-1022 + ((2047 : Nat) : Int) - 3 - ((52 : Nat) : Int)) = 2 ^ 970 := pow2_const 970
    rw [e1, e2] at hb
    have hc : ((2 : Rat) ^ 1024 - 2 ^ 970 ≤ |(i : Rat)|) ↔ 2 ^ 1024 - 2 ^ 970 ≤ |i| := by
      rw [← Int.cast_abs]
      exact_mod_cast Iff.rfl
    rw [f64Bits_mag hi, ← hc, ← hb]
    constructor
    · intro h
      split at h
      · assumption
      · cases h
    · intro h
      rw [if_pos h]

theorem f64Bits_nearest {i : Int} {n : Nat} (h : f64Bits i = some n) : Nearest f64Value 63 i n := by
  by_cases hi : i = 0
  · subst hi
    cases h
    push_cast
    exact near_zero (by decide +kernel) (by decide)
  · have hq : (i : Rat) ≠ 0 := by exact_mod_cast hi
    rw [f64Bits_mag hi] at h
    split at h
    · cases h
    · next hr =>
      cases h
      have := near_of_round (value := f64Value) (P := 52) (E := 2047) (w := 63) (lo := -1022) (by decide) (by decide)
        (by decide) (by decide) f64Value_mag hq (by omega)
      have hs : ((i : Rat) < 0) ↔ i < 0 := by exact_mod_cast Iff.rfl
      simpa only [hs] using this

/-- The nearest number is the number itself, where the type has it. -/
theorem nearest_exact {value : Nat → Option Rat} {w n m : Nat} {q : Rat} (h : Nearest value w q n) (hm : value m = some q) :
    value n = some q := by
  obtain ⟨⟨p, hp, hall⟩, -⟩ := h
  have := (hall m q hm).1
  rw [sub_self, abs_zero] at this
  have : p - q = 0 := abs_eq_zero.1 (le_antisymm this (abs_nonneg _))
  rw [hp, sub_eq_zero.1 this]

/-- Making a binary64 number of a binary32 number keeps the value and the sign. -/
theorem f64OfF32_mag (n : Nat) (hn : n % 2 ^ 31 < 255 * 2 ^ 23) : ∃ x, f64OfF32 n = n / 2 ^ 31 % 2 * 2 ^ 63 + x ∧
    x < 2047 * 2 ^ 52 ∧ magValue 52 (-1022) x = magValue 23 (-126) (n % 2 ^ 31) := by
  have he : n / 2 ^ 23 % 256 = n % 2 ^ 31 / 2 ^ 23 := by omega
  have hm : n % 2 ^ 23 = n % 2 ^ 31 % 2 ^ 23 := by omega
  unfold f64OfF32
  simp only
  rw [he, hm]
  generalize n / 2 ^ 31 % 2 = s
  generalize n % 2 ^ 31 = y at *
  have hy := Nat.div_add_mod y (2 ^ 23)
  have hmlt : y % 2 ^ 23 < 2 ^ 23 := Nat.mod_lt _ (by decide)
  have hE : y / 2 ^ 23 < 255 := by omega
  generalize y / 2 ^ 23 = E at *
  generalize y % 2 ^ 23 = m at *
  subst hy
  rw [if_neg (by omega)]
  by_cases hE0 : E = 0
  · subst hE0
    rw [if_pos rfl]
    by_cases hm0 : m = 0
    · subst hm0
      rw [if_pos rfl]
      refine ⟨0, (Nat.add_zero _).symm, by decide, ?_⟩
      rw [magValue_zero, Nat.mul_zero, Nat.add_zero, magValue_zero]
    · rw [if_neg hm0]
      have l1 := Nat.log2_self_le hm0
      have l2 := @Nat.lt_log2_self m
      have hl : Nat.log2 m < 23 := (Nat.log2_lt hm0).2 hmlt
      generalize Nat.log2 m = l at *
      have h1 : 2 ^ 52 ≤ m * 2 ^ (52 - l) := by
        calc 2 ^ 52 = 2 ^ l * 2 ^ (52 - l) := by rw [← Nat.pow_add]; congr 1; omega
          _ ≤ _ := Nat.mul_le_mul_right _ l1
      have h2 : m * 2 ^ (52 - l) ≤ 2 ^ 53 := by
        calc m * 2 ^ (52 - l) ≤ 2 ^ (l + 1) * 2 ^ (52 - l) := Nat.mul_le_mul_right _ l2.le
          _ = 2 ^ 53 := by rw [← Nat.pow_add]; congr 1; omega
      refine ⟨(l + 873) * 2 ^ 52 + m * 2 ^ (52 - l), ?_, ?_, ?_⟩
      · generalize m * 2 ^ (52 - l) = z at *
        omega
      · generalize m * 2 ^ (52 - l) = z at *
        omega
      · rw [magValue_add (.inr h1) h2]
        have e : magValue 23 (-126) (2 ^ 23 * 0 + m) = (m : Rat) * pow2 (-126 + ((0 : Nat) : Int) - ((23 : Nat) : Int)) := by
          rw [show 2 ^ 23 * 0 + m = 0 * 2 ^ 23 + m by omega]
          exact magValue_add (.inl rfl) (by omega)
        rw [e]
        rw [Nat.cast_mul, ← pow2_nat, mul_assoc, ← pow2_add]
        exact congrArg (fun z => (m : Rat) * pow2 z) (by omega)
  · rw [if_neg hE0]
    refine ⟨(E + 895) * 2 ^ 52 + (2 ^ 23 + m) * 2 ^ 29, by omega, by omega, ?_⟩
    rw [magValue_add (.inr (by omega)) (by omega), show 2 ^ 23 * E + m = (E - 1) * 2 ^ 23 + (2 ^ 23 + m) by omega,
      magValue_add (.inr (by omega)) (by omega)]
    rw [Nat.cast_mul, ← pow2_nat, mul_assoc, ← pow2_add]
    exact congrArg (fun z => ((2 ^ 23 + m : Nat) : Rat) * pow2 z) (by omega)

theorem f64OfF32_value (n : Nat) : f64Value (f64OfF32 n) = f32Value n := by
  rw [f32Value_mag]
  by_cases hn : n % 2 ^ 31 < 255 * 2 ^ 23
  · obtain ⟨x, h1, h2, h3⟩ := f64OfF32_mag n hn
    rw [h1, f64Value_mag, if_pos hn]
    have hs : n / 2 ^ 31 % 2 < 2 := Nat.mod_lt _ (by decide)
    generalize n / 2 ^ 31 % 2 = s at *
    rw [show (s * 2 ^ 63 + x) % 2 ^ 63 = x by omega, show (s * 2 ^ 63 + x) / 2 ^ 63 % 2 = s by omega, if_pos h2, h3]
  · rw [if_neg hn]
    unfold f64OfF32
    simp only
    rw [if_pos (by omega), f64Value_mag, if_neg]
    split <;> omega

theorem f64OfF32_lt (n : Nat) : f64OfF32 n < 2 ^ 64 := by
  by_cases hn : n % 2 ^ 31 < 255 * 2 ^ 23
  · obtain ⟨x, h1, h2, h3⟩ := f64OfF32_mag n hn
    rw [h1]
    have hs : n / 2 ^ 31 % 2 < 2 := Nat.mod_lt _ (by decide)
    omega
  · unfold f64OfF32
    simp only
    have hs : n / 2 ^ 31 % 2 < 2 := Nat.mod_lt _ (by decide)
    rw [if_pos (by omega)]
    split <;> omega

theorem f64OfF32_sign (n : Nat) : f64OfF32 n / 2 ^ 63 = n / 2 ^ 31 % 2 := by
  by_cases hn : n % 2 ^ 31 < 255 * 2 ^ 23
  · obtain ⟨x, h1, h2, h3⟩ := f64OfF32_mag n hn
    rw [h1]
    omega
  · unfold f64OfF32
    simp only
    have hs : n / 2 ^ 31 % 2 < 2 := Nat.mod_lt _ (by decide)
    rw [if_pos (by omega)]
    split <;> omega

theorem f32OfF64_nearest {x : Nat} {q : Rat} (hx : f64Value x = some q) {n : Nat} (h : f32OfF64 x = some n) :
    Nearest f32Value 31 q n := by
  unfold f32OfF64 at h
  simp only [hx] at h
  have hs : x / 2 ^ 63 % 2 < 2 := Nat.mod_lt _ (by decide)
  split at h
  · next hq =>
    subst hq
    cases h
    refine near_zero ?_ (by omega)
    rw [f32Value_mag, show x / 2 ^ 63 % 2 * 2 ^ 31 % 2 ^ 31 = 0 by omega, if_pos (by decide), magValue_zero]
    split <;> simp
  · next hq => exact f32Bits_nearest hq h

theorem f32OfF64_none {x : Nat} {q : Rat} (hx : f64Value x = some q) : f32OfF64 x = none ↔ 2 ^ 128 - 2 ^ 103 ≤ |q| := by
  unfold f32OfF64
  simp only [hx]
  split
  · next hq =>
    subst hq
    constructor
    · intro h; cases h
    · intro h; norm_num at h
  · exact f32Bits_none

/-- The sign is kept, of zeros, infinities and NaN too. -/
theorem f32OfF64_sign {x n : Nat} (hx : x < 2 ^ 64) (h : f32OfF64 x = some n) : n / 2 ^ 31 = x / 2 ^ 63 ∧ n < 2 ^ 32 := by
  have hs : x / 2 ^ 63 % 2 < 2 := Nat.mod_lt _ (by decide)
  cases hv : f64Value x with
  | some q =>
    have hn := f32OfF64_nearest hv h
    obtain ⟨-, n1, n2, n3⟩ := hn
    refine ⟨?_, n1⟩
    rw [f64Value_mag] at hv
    split at hv
    · cases hv
      by_cases hz : x % 2 ^ 63 = 0
      · unfold f32OfF64 at h
        have hv0 : f64Value x = some 0 := by
          rw [f64Value_mag, hz, if_pos (by decide), magValue_zero]
          split <;> simp
        simp only [hv0, if_true] at h
        cases h
        omega
      · have hm : 0 < magValue 52 (-1022) (x % 2 ^ 63) := by
          rw [← magValue_zero (P := 52) (lo := -1022)]
          exact magValue_lt (by omega)
        split at n2
        · next hsg =>
          rw [if_pos hsg] at n3
          have := n3 (by linarith)
          omega
        · next hsg =>
          have := n2 hm
          omega
    · cases hv
  | none =>
    unfold f32OfF64 at h
    simp only [hv] at h
    split at h <;> cases h <;> omega

/-- A number of the type itself. -/
theorem near_self {value : Nat → Option Rat} {P E w : Nat} {lo : Int}
    (hval : ∀ b, value b = if b % 2 ^ w < E * 2 ^ P then
      some (if b / 2 ^ w % 2 = 1 then -magValue P lo (b % 2 ^ w) else magValue P lo (b % 2 ^ w)) else none)
    {n : Nat} {q : Rat} (hn : n < 2 ^ (w + 1)) (h : value n = some q) : Nearest value w q n := by
  have hp : 0 < 2 ^ w := Nat.pow_pos (by decide)
  have hw2 : 2 ^ (w + 1) = 2 ^ w * 2 := Nat.pow_succ ..
  refine ⟨⟨q, h, fun m y _ => ⟨?_, fun hy => ?_⟩⟩, hn, fun h0 => ?_, fun h0 => ?_⟩
  · rw [sub_self, abs_zero]
    exact abs_nonneg _
  · rw [sub_self, abs_zero] at hy
    exact .inl (sub_eq_zero.1 (abs_eq_zero.1 hy))
  · rw [hval] at h
    split at h
    · cases h
      have := magValue_nonneg (P := P) (lo := lo) (x := n % 2 ^ w)
      by_contra hc
      have hd : n / 2 ^ w = 1 := Nat.div_eq_of_lt_le (by omega) (by omega)
      rw [hd, if_pos (by decide)] at h0
      linarith
    · cases h
  · rw [hval] at h
    split at h
    · cases h
      have := magValue_nonneg (P := P) (lo := lo) (x := n % 2 ^ w)
      by_contra hc
      have hd : n / 2 ^ w = 0 := Nat.div_eq_of_lt (by omega)
      rw [hd, if_neg (by decide)] at h0
      linarith
    · cases h

/-- Integers up to `2 ^ 53` are binary64 numbers. -/
theorem small_exact {i : Int} (h : |(i : Rat)| ≤ 2 ^ 53) : ∃ m, f64Value m = some (i : Rat) := by
  have h' : |i| ≤ 2 ^ 53 := by
    rw [← Int.cast_abs] at h
    exact_mod_cast h
  have ha : i.natAbs ≤ 2 ^ 53 := by
    rw [Int.abs_eq_natAbs] at h'
    exact_mod_cast h'
  have key : ∃ x, x < 2047 * 2 ^ 52 ∧ magValue 52 (-1022) x = (i.natAbs : Rat) := by
    by_cases h0 : i.natAbs = 0
    · exact ⟨0, by decide, by rw [magValue_zero, h0]; rfl⟩
    · have l1 := Nat.log2_self_le h0
      have l2 := @Nat.lt_log2_self i.natAbs
      have hl : Nat.log2 i.natAbs < 54 := (Nat.log2_lt h0).2 (by omega)
      generalize i.natAbs = a at *
      generalize Nat.log2 a = l at *
      rcases Nat.lt_or_ge l 53 with hl' | hl'
      · have h1 : 2 ^ 52 ≤ a * 2 ^ (52 - l) := by
          calc 2 ^ 52 = 2 ^ l * 2 ^ (52 - l) := by rw [← Nat.pow_add]; congr 1; omega
            _ ≤ _ := Nat.mul_le_mul_right _ l1
        have h2 : a * 2 ^ (52 - l) ≤ 2 ^ 53 := by
          calc a * 2 ^ (52 - l) ≤ 2 ^ (l + 1) * 2 ^ (52 - l) := Nat.mul_le_mul_right _ l2.le
            _ = 2 ^ 53 := by rw [← Nat.pow_add]; congr 1; omega
        refine ⟨(l + 1022) * 2 ^ 52 + a * 2 ^ (52 - l), ?_, ?_⟩
        · generalize a * 2 ^ (52 - l) = z at *
          omega
        · rw [magValue_add (.inr h1) h2, Nat.cast_mul, ← pow2_nat, mul_assoc, ← pow2_add,
            show ((52 - l : Nat) : Int) + (-1022 + ((l + 1022 : Nat) : Int) - ((52 : Nat) : Int)) = 0 by omega]
          simp [pow2]
      · have hl3 : l = 53 := by omega
        subst hl3
        have ha3 : a = 2 ^ 53 := by omega
        subst ha3
        refine ⟨1075 * 2 ^ 52 + 2 ^ 52 + 0, by decide, ?_⟩
        rw [show 1075 * 2 ^ 52 + 2 ^ 52 + 0 = 1075 * 2 ^ 52 + 2 ^ 52 by rfl, magValue_add (.inr (by decide)) (by decide),
          ← pow2_nat, ← pow2_add, ← pow2_nat]
        rfl
  obtain ⟨x, hx, hv⟩ := key
  rcases lt_or_ge i 0 with hi | hi
  · refine ⟨2 ^ 63 + x, ?_⟩
    rw [f64Value_mag, show (2 ^ 63 + x) % 2 ^ 63 = x by omega, show (2 ^ 63 + x) / 2 ^ 63 % 2 = 1 by omega, if_pos hx,
      if_pos rfl, hv, Nat.cast_natAbs, abs_of_neg hi]
    push_cast
    rw [neg_neg]
  · refine ⟨x, ?_⟩
    rw [f64Value_mag, show x % 2 ^ 63 = x by omega, show x / 2 ^ 63 % 2 = 0 by omega, if_pos hx, if_neg (by decide), hv,
      Nat.cast_natAbs, abs_of_nonneg hi]

/-- `float(x)`. -/
theorem toFloat_spec {x : LV} {q : Rat} (hx : ratOf x = some q) (hw : ∀ n, x = .f64 n → n < 2 ^ 64)
    (hb : |q| < 2 ^ 1024 - 2 ^ 970) : ∃ d, x.toFloat = .ok d ∧ FloatOf x q d := by
  cases x <;> simp only [ratOf, reduceCtorEq] at hx
  case int i =>
    cases hx
    cases h : f64Bits i with
    | none =>
      rw [f64Bits_none] at h
      have : ((2 : Rat) ^ 1024 - 2 ^ 970 ≤ |(i : Rat)|) := by
        rw [← Int.cast_abs]
        exact_mod_cast h
      exact absurd hb (not_lt.2 this)
    | some d =>
      refine ⟨d, by simp only [LV.toFloat, h], f64Bits_nearest h, fun hc => ?_⟩
      rcases hc with hc | hc
      · exact absurd rfl (hc i)
      · obtain ⟨m, hm⟩ := small_exact hc
        exact nearest_exact (f64Bits_nearest h) hm
  case bool b =>
    have hv : ∀ q, some (if b then (1 : Rat) else 0) = some q → f64Value (if b then 0x3FF0000000000000 else 0) = some q := by
      intro q hq
      rw [← hq]
      cases b <;> decide +kernel
    have := hv q hx
    exact ⟨_, rfl, near_self f64Value_mag (by cases b <;> decide) this, fun _ => this⟩
  case f32 n =>
    have hv : f64Value (f64OfF32 n) = some q := by rw [f64OfF32_value, hx]
    exact ⟨_, rfl, near_self f64Value_mag (f64OfF32_lt n) hv, fun _ => hv⟩
  case f64 n => exact ⟨_, rfl, near_self f64Value_mag (hw n rfl) hx, fun _ => hx⟩

theorem floatOf_le {x : LV} {q : Rat} {d : Nat} (h : FloatOf x q d) {B : Rat} {m : Nat} (hm : f64Value m = some B)
    {m' : Nat} (hm' : f64Value m' = some (-B)) (hq : |q| ≤ B) : ∃ r, f64Value d = some r ∧ |r| ≤ B := by
  obtain ⟨⟨p, hp, hall⟩, -⟩ := h.1
  refine ⟨p, hp, ?_⟩
  rw [abs_le] at hq ⊢
  constructor
  · by_contra hc
    have := (hall m' _ hm').1
    rw [abs_of_nonpos (by linarith), abs_of_nonpos (by linarith)] at this
    linarith
  · by_contra hc
    have := (hall m _ hm).1
    rw [abs_of_pos (by linarith), abs_of_nonneg (by linarith)] at this
    linarith

/-! ## Fields -/

section
variable [FloatEnv]

theorem build_parse_nat {w n : Nat} {s : Bool} (h : intFits w s n = true) : ∃ bs, intBuild w s n = .ok bs ∧
    ∀ rest, intParse w s (bs ++ rest) = .ok ((n : Int), rest) := by
  obtain ⟨bs, hbs⟩ := intBuild_ok_iff.2 h
  exact ⟨bs, hbs, intParse_intBuild hbs⟩

omit [FloatEnv] in
theorem fits32 {n : Nat} (h : n < 2 ^ 32) : intFits 4 false n = true := by
  simp only [intFits, Bool.false_eq_true, if_false, decide_eq_true_eq]
  omega

omit [FloatEnv] in
theorem fits64 {n : Nat} (h : n < 2 ^ 64) : intFits 8 false n = true := by
  simp only [intFits, Bool.false_eq_true, if_false, decide_eq_true_eq]
  omega

/-- **C130.** A truth value in an integer field is stored as 0 or 1. -/
theorem C130_truth {w : Nat} {s : Bool} (hw : 0 < w) (b : Bool) :
    ∃ bs, leafBuild (.int w s) (some (.bool b)) = .ok bs ∧
      ∀ rest, leafParse (.int w s) (bs ++ rest) = .ok (.int (if b then 1 else 0), rest) := by
  have hf : intFits w s (if b then 1 else 0) = true := by
    have h1 : 256 ^ 1 ≤ 256 ^ w := Nat.pow_le_pow_right (by decide) hw
    have h2 : (256 : Int) ≤ 256 ^ w := by exact_mod_cast h1
    cases b <;> cases s <;> simp [intFits] <;> omega
  obtain ⟨bs, hbs⟩ := intBuild_ok_iff.2 hf
  refine ⟨bs, hbs, fun rest => ?_⟩
  simp only [leafParse]
  rw [intParse_intBuild hbs]
  rfl

/-- **C130.** A number in a field of binary64 numbers is stored as the nearest of them: as itself, unless it is an integer
beyond `2 ^ 53`. -/
theorem C130_double {x : LV} {q : Rat} (hx : ratOf x = some q) (hw : ∀ n, x = .f64 n → n < 2 ^ 64)
    (hb : |q| < 2 ^ 1024 - 2 ^ 970) :
    ∃ bs d, leafBuild .f64 (some x) = .ok bs ∧ (∀ rest, leafParse .f64 (bs ++ rest) = .ok (.f64 d, rest)) ∧
      Nearest f64Value 63 q d ∧ ((∀ i, x ≠ .int i) ∨ |q| ≤ 2 ^ 53 → f64Value d = some q) := by
  obtain ⟨d, h1, h2⟩ := toFloat_spec hx hw hb
  obtain ⟨bs, b1, b2⟩ := build_parse_nat (fits64 h2.1.2.1)
  refine ⟨bs, d, ?_, fun rest => ?_, h2⟩
  · simp only [leafBuild, h1]
    exact b1
  · simp only [leafParse]
    rw [b2]
    rfl

/-- **C130.** Integers beyond that are refused. -/
theorem C130_double_refused {i : Int} (h : 2 ^ 1024 - 2 ^ 970 ≤ |i|) :
    leafBuild .f64 (some (.int i)) = .error .overflowError := by
  simp only [leafBuild, LV.toFloat, f64Bits_none.2 h]

omit [FloatEnv] in
theorem top32 : f64Value 0x47EFFFFFE0000000 = some (2 ^ 128 - 2 ^ 104) ∧
    f64Value 0xC7EFFFFFE0000000 = some (-(2 ^ 128 - 2 ^ 104)) ∧ f64Value 0x47EFFFFFF0000000 = some (2 ^ 128 - 2 ^ 103) ∧
    f64Value 0xC7EFFFFFF0000000 = some (-(2 ^ 128 - 2 ^ 103)) := by
  decide +kernel

theorem single_build {x : LV} {q : Rat} (hx : ratOf x = some q) (hs : ∀ n, x ≠ .f32 n) (hw : ∀ n, x = .f64 n → n < 2 ^ 64)
    (hb : |q| ≤ 2 ^ 128 - 2 ^ 104) :
    ∃ n d r, leafBuild .f32 (some x) = leafBuild .f32 (some (.f32 n)) ∧ FloatOf x q d ∧ f64Value d = some r ∧
      Nearest f32Value 31 r n := by
  obtain ⟨d, h1, h2⟩ := toFloat_spec hx hw (hb.trans_lt (by decide +kernel))
  obtain ⟨r, hr, hrb⟩ := floatOf_le h2 top32.1 top32.2.1 hb
  obtain ⟨n, hn⟩ : ∃ n, f32OfF64 d = some n := by
    cases h : f32OfF64 d with
    | some n => exact ⟨n, rfl⟩
    | none =>
      rw [f32OfF64_none hr] at h
      have : (2 : Rat) ^ 128 - 2 ^ 104 < 2 ^ 128 - 2 ^ 103 := by norm_num
      linarith
  refine ⟨n, d, r, ?_, h2, hr, f32OfF64_nearest hr hn⟩
  cases x
  case f32 m => exact absurd rfl (hs m)
  all_goals simp only [leafBuild, h1, hn]

/-- **C130.** A number in a field of binary32 numbers is stored as the binary32 number nearest to its `float`. -/
theorem C130_single {x : LV} {q : Rat} (hx : ratOf x = some q) (hs : ∀ n, x ≠ .f32 n) (hw : ∀ n, x = .f64 n → n < 2 ^ 64)
    (hb : |q| ≤ 2 ^ 128 - 2 ^ 104) :
    ∃ bs n d r, leafBuild .f32 (some x) = .ok bs ∧ (∀ rest, leafParse .f32 (bs ++ rest) = .ok (.f32 n, rest)) ∧
      Nearest f64Value 63 q d ∧ f64Value d = some r ∧ ((∀ i, x ≠ .int i) ∨ |q| ≤ 2 ^ 53 → r = q) ∧
      Nearest f32Value 31 r n := by
  obtain ⟨n, d, r, h1, h2, hr, hne⟩ := single_build hx hs hw hb
  obtain ⟨bs, b1, b2⟩ := build_parse_nat (fits32 hne.2.1)
  refine ⟨bs, n, d, r, ?_, fun rest => ?_, h2.1, hr, fun h => ?_, hne⟩
  · rw [h1]
    exact b1
  · simp only [leafParse]
    rw [b2]
    rfl
  · have := h2.2 h
    rw [hr] at this
    exact Option.some.inj this

/-- **C130.** A `float` whose nearest binary32 number would be infinite is refused, and no other finite one. -/
theorem C130_single_refused {d : Nat} {q : Rat} (hd : f64Value d = some q) :
    leafBuild .f32 (some (.f64 d)) = .error .overflowError ↔ 2 ^ 128 - 2 ^ 103 ≤ |q| := by
  rw [← f32OfF64_none hd]
  simp only [leafBuild, LV.toFloat]
  cases h : f32OfF64 d with
  | none => simp
  | some n =>
    simp only [reduceCtorEq, iff_false]
    intro hc
    have hn := f32OfF64_nearest hd h
    obtain ⟨bs, b1, -⟩ := build_parse_nat (fits32 hn.2.1)
    rw [b1] at hc
    cases hc

/-- **C130.** Integers from there on are refused as well. -/
theorem C130_single_refused_int {i : Int} (h : 2 ^ 128 - 2 ^ 103 ≤ |i|) :
    leafBuild .f32 (some (.int i)) = .error .overflowError := by
  simp only [leafBuild, LV.toFloat]
  cases hd : f64Bits i with
  | none => rfl
  | some d =>
    obtain ⟨⟨p, hp, hall⟩, -⟩ := f64Bits_nearest hd
    have hq : (2 : Rat) ^ 128 - 2 ^ 103 ≤ |(i : Rat)| := by
      rw [← Int.cast_abs]
      exact_mod_cast h
    have hpb : (2 : Rat) ^ 128 - 2 ^ 103 ≤ |p| := by
      rw [le_abs] at hq ⊢
      rcases hq with hq | hq
      · left
        by_contra hc
        have := (hall _ _ top32.2.2.1).1
        rw [abs_of_nonpos (by linarith), abs_of_nonpos (by linarith)] at this
        linarith
      · right
        by_contra hc
        have := (hall _ _ top32.2.2.2).1
        rw [abs_of_nonneg (by linarith), abs_of_nonneg (by linarith)] at this
        linarith
    simp only [(f32OfF64_none hp).2 hpb]

/-- **C130.** Infinities stay infinite and NaN stays NaN, with the same sign. -/
theorem C130_special {d : Nat} (hd : d < 2 ^ 64) (hv : f64Value d = none) :
    ∃ bs n, leafBuild .f32 (some (.f64 d)) = .ok bs ∧ (∀ rest, leafParse .f32 (bs ++ rest) = .ok (.f32 n, rest)) ∧
      f32Value n = none ∧ n / 2 ^ 31 = d / 2 ^ 63 ∧ (n % 2 ^ 23 = 0 ↔ d % 2 ^ 52 = 0) := by
  obtain ⟨n, hn, hz⟩ : ∃ n, f32OfF64 d = some n ∧ f32Value n = none ∧ (n % 2 ^ 23 = 0 ↔ d % 2 ^ 52 = 0) := by
    unfold f32OfF64
    simp only [hv]
    have hs : d / 2 ^ 63 % 2 < 2 := Nat.mod_lt _ (by decide)
    split
    · next h =>
      refine ⟨_, rfl, ?_, by omega⟩
      rw [f32Value_mag, if_neg (by omega)]
    · next h =>
      refine ⟨_, rfl, ?_, by omega⟩
      rw [f32Value_mag, if_neg (by omega)]
  obtain ⟨s1, s2⟩ := f32OfF64_sign hd hn
  obtain ⟨bs, b1, b2⟩ := build_parse_nat (fits32 s2)
  refine ⟨bs, n, ?_, fun rest => ?_, hz.1, s1, hz.2⟩
  · simp only [leafBuild, LV.toFloat, hn]
    exact b1
  · simp only [leafParse]
    rw [b2]
    rfl

/-- **C130.** A number read from a binary32 field is a Python `float` of the same value; written to a binary32 field it is
stored without loss. -/
theorem C130_again {n : Nat} (hn : n < 2 ^ 32) (hf : f32Value n ≠ none) :
    f64Value (f64OfF32 n) = f32Value n ∧
      leafBuild .f32 (some (.f64 (f64OfF32 n))) = leafBuild .f32 (some (.f32 n)) := by
  refine ⟨f64OfF32_value n, ?_⟩
  obtain ⟨q, hq⟩ : ∃ q, f32Value n = some q := Option.ne_none_iff_exists'.1 hf
  have hv := f64OfF32_value n
  rw [hq] at hv
  have hmag := hq
  rw [f32Value_mag] at hmag
  split at hmag
  · next hlt =>
    have hmv : magValue 23 (-126) (n % 2 ^ 31) ≤ 2 ^ 128 - 2 ^ 104 := by
      have h1 : magValue 23 (-126) (254 * 2 ^ 23 + (2 ^ 23 - 1)) = 2 ^ 128 - 2 ^ 104 := by decide +kernel
      rcases Nat.lt_or_ge (n % 2 ^ 31) (254 * 2 ^ 23 + (2 ^ 23 - 1)) with h | h
      · exact h1 ▸ (magValue_lt h).le
      · rw [show n % 2 ^ 31 = 254 * 2 ^ 23 + (2 ^ 23 - 1) by omega, h1]
    have hnn := magValue_nonneg (P := 23) (lo := -126) (x := n % 2 ^ 31)
    have hqb : |q| ≤ 2 ^ 128 - 2 ^ 104 := by
      cases hmag
      rw [abs_le]
      split <;> constructor <;> linarith
    cases hx : f32OfF64 (f64OfF32 n) with
    | none =>
      rw [f32OfF64_none hv] at hx
      have : (2 : Rat) ^ 128 - 2 ^ 104 < 2 ^ 128 - 2 ^ 103 := by norm_num
      linarith
    | some m =>
      have h1 := nearest_exact (f32OfF64_nearest hv hx) hq
      obtain ⟨s1, s2⟩ := f32OfF64_sign (f64OfF32_lt n) hx
      rw [f64OfF32_sign] at s1
      have hnm : m = n := by
        rw [← hq, f32Value_mag, f32Value_mag, if_pos hlt] at h1
        split at h1
        · have e : m / 2 ^ 31 % 2 = n / 2 ^ 31 % 2 := by omega
          rw [e] at h1
          have : magValue 23 (-126) (m % 2 ^ 31) = magValue 23 (-126) (n % 2 ^ 31) := by
            have := Option.some.inj h1
            split at this
            · exact neg_injective this
            · exact this
          have := magValue_inj this
          omega
        · cases h1
      subst hnm
      simp only [leafBuild, LV.toFloat, hx]
  · cases hmag

/-- **C130.** A whole number in a field that is stored as a logarithm is stored as the `float` of the same value would be. -/
theorem C130_logs {l : Leaf} (hl : l = .log2 ∨ l = .logNormal) {i : Int} (hi : |(i : Rat)| ≤ 2 ^ 53) :
    ∃ d, f64Value d = some (i : Rat) ∧ leafBuild l (some (.int i)) = leafBuild l (some (.f64 d)) := by
  obtain ⟨d, h1, h2⟩ := toFloat_spec (x := .int i) rfl (fun n h => by cases h) (hi.trans_lt (by decide +kernel))
  refine ⟨d, h2.2 (.inr hi), ?_⟩
  rcases hl with rfl | rfl
  · simp only [leafBuild, h1]
    rfl
  · simp only [leafBuild, h1]
    rfl

/-! ## Projects -/

theorem leaf_converts {l : Leaf} {x y : LV} (hr : y = x ∨ Takes l x) (hv : leafValid l y) :
    ∃ z, Converts l x z ∧ leafValid l z ∧ leafBuild l (some x) = leafBuild l (some z) := by
  rcases hr with rfl | hr
  · refine ⟨y, ?_, hv, rfl⟩
    cases l <;> cases y <;> simp only [leafValid] at hv <;> first | exact hv.elim | rfl
  · cases l
    case int w s =>
      cases x <;> simp only [Takes] at hr
      case bool b =>
        refine ⟨_, rfl, ?_, rfl⟩
        have h1 : 256 ^ 1 ≤ 256 ^ w := Nat.pow_le_pow_right (by decide) hr
        have h2 : (256 : Int) ≤ 256 ^ w := by exact_mod_cast h1
        cases b <;> cases s <;> simp [leafValid, intFits] <;> omega
    case f32 =>
      obtain ⟨⟨q, hx, hb⟩, hs⟩ := hr
      obtain ⟨n, d, r, h1, h2, h3, h4⟩ := single_build hx (fun n => (hs n).1) (fun n => (hs n).2) hb
      refine ⟨.f32 n, ?_, h4.2.1, h1⟩
      cases x
      case f32 m => exact absurd rfl (hs m).1
      all_goals exact ⟨q, d, r, n, hx, h2, h3, rfl, h4⟩
    case f64 =>
      obtain ⟨⟨q, hx, hb⟩, hs⟩ := hr
      obtain ⟨d, h1, h2⟩ := toFloat_spec hx (fun n h => absurd h (hs n)) hb
      refine ⟨.f64 d, ?_, h2.1.2.1, ?_⟩
      · cases x
        case f64 m => exact absurd rfl (hs m)
        all_goals exact ⟨q, d, hx, rfl, h2⟩
      · simp only [leafBuild, h1]
        rfl
    all_goals exact hr.elim

theorem struct_congr {cx : Ctx} {n a : String} {f : Fld} {fs : Fields} {x z : LV} {r r'' : Rec}
    (h1 : leafBuild f.leaf (some x) = leafBuild f.leaf (some z)) (h2 : structBuild cx fs r = structBuild cx fs r'') :
    structBuild cx ((n, f) :: fs) ((a, some x) :: r) = structBuild cx ((n, f) :: fs) ((a, some z) :: r'') := by
  have : fldBuild cx f (some x) = fldBuild cx f (some z) := by
    cases f <;> simp only [Fld.leaf] at h1 <;> simp only [fldBuild, h1]
  simp only [structBuild, this, h2]

theorem absent_rel {fs : Fields} : ∀ {r r' : Rec}, recRel (fun l x y => y = x ∨ Takes l x) fs r r' → absentFields fs r' →
    r = r' ∧ recRel Converts fs r r := by
  induction fs with
  | nil =>
    intro r r' h ha
    cases r <;> cases r' <;> first | exact ⟨rfl, rfl⟩ | exact ha.elim | cases h
  | cons nf fs ih =>
    intro r r' h ha
    obtain ⟨n, f⟩ := nf
    cases r' with
    | nil => simp [absentFields] at ha
    | cons bv r' =>
      obtain ⟨b, v⟩ := bv
      cases r with
      | nil => cases v <;> cases h
      | cons au r =>
        obtain ⟨a, u⟩ := au
        cases v with
        | none =>
          cases u with
          | some x => cases h
          | none =>
            obtain ⟨rfl, h⟩ := h
            have ha' : absentFields fs r' := by
              cases f with
              | opt l => exact ha.2.2
              | _ => simp [absentFields] at ha
            obtain ⟨rfl, h2⟩ := ih h ha'
            exact ⟨rfl, rfl, h2⟩
        | some y =>
          cases u with
          | none => cases h
          | some x =>
            obtain ⟨rfl, hR, h⟩ := h
            have key : f.leaf = .greedy ∧ fs = [] ∧ r' = [] := by
              unfold absentFields at ha
              split at ha <;> simp_all [Fld.leaf]
            obtain ⟨hl, rfl, rfl⟩ := key
            rw [hl] at hR
            rcases hR with rfl | hR
            · cases r with
              | nil =>
                refine ⟨rfl, rfl, ?_, rfl⟩
                rw [hl]
                rfl
              | cons _ _ => cases h
            · exact hR.elim

theorem fields_converts {cx : Ctx} {fs : Fields} : ∀ {r r' : Rec}, recRel (fun l x y => y = x ∨ Takes l x) fs r r' →
    validFields cx fs r' → ∃ r'', recRel Converts fs r r'' ∧ validFields cx fs r'' ∧ structBuild cx fs r = structBuild cx fs r'' := by
  induction fs with
  | nil =>
    intro r r' h hv
    cases r' with
    | nil =>
      cases r with
      | nil => exact ⟨[], rfl, trivial, rfl⟩
      | cons _ _ => cases h
    | cons _ _ => exact hv.elim
  | cons nf fs ih =>
    intro r r' h hv
    obtain ⟨n, f⟩ := nf
    cases r' with
    | nil => exact hv.elim
    | cons bv r' =>
      obtain ⟨b, v⟩ := bv
      obtain ⟨rfl, hv⟩ := hv
      cases r with
      | nil => cases v <;> cases h
      | cons au r =>
        obtain ⟨a, u⟩ := au
        cases v with
        | none =>
          cases u with
          | some x => cases h
          | none =>
            obtain ⟨rfl, h⟩ := h
            cases f with
            | req l => exact hv.elim
            | opt l =>
              obtain ⟨rfl, h2⟩ := absent_rel h hv.2
              exact ⟨(a, none) :: r, ⟨rfl, h2⟩, ⟨rfl, hv⟩, rfl⟩
            | ifLen k l =>
              obtain ⟨r'', c1, c2, c3⟩ := ih h hv.2
              exact ⟨(a, none) :: r'', ⟨rfl, c1⟩, ⟨rfl, hv.1, c2⟩, by simp only [structBuild, c3]⟩
            | ifNew l =>
              obtain ⟨r'', c1, c2, c3⟩ := ih h hv.2
              exact ⟨(a, none) :: r'', ⟨rfl, c1⟩, ⟨rfl, hv.1, c2⟩, by simp only [structBuild, c3]⟩
        | some y =>
          cases u with
          | none => cases h
          | some x =>
            obtain ⟨rfl, hR, h⟩ := h
            cases f with
            | req l =>
              obtain ⟨z, z1, z2, z3⟩ := leaf_converts hR hv.1
              obtain ⟨r'', c1, c2, c3⟩ := ih h hv.2.2
              exact ⟨(a, some z) :: r'', ⟨rfl, z1, c1⟩, ⟨rfl, z2, hv.2.1, c2⟩, struct_congr z3 c3⟩
            | opt l =>
              obtain ⟨z, z1, z2, z3⟩ := leaf_converts hR hv.1
              obtain ⟨r'', c1, c2, c3⟩ := ih h hv.2.2
              exact ⟨(a, some z) :: r'', ⟨rfl, z1, c1⟩, ⟨rfl, z2, hv.2.1, c2⟩, struct_congr z3 c3⟩
            | ifLen k l =>
              obtain ⟨z, z1, z2, z3⟩ := leaf_converts hR hv.2.1
              obtain ⟨r'', c1, c2, c3⟩ := ih h hv.2.2.2
              exact ⟨(a, some z) :: r'', ⟨rfl, z1, c1⟩, ⟨rfl, hv.1, z2, hv.2.2.1, c2⟩,
                struct_congr z3 c3⟩
            | ifNew l =>
              obtain ⟨z, z1, z2, z3⟩ := leaf_converts hR hv.2.1
              obtain ⟨r'', c1, c2, c3⟩ := ih h hv.2.2.2
              exact ⟨(a, some z) :: r'', ⟨rfl, z1, c1⟩, ⟨rfl, hv.1, z2, hv.2.2.1, c2⟩,
                struct_congr z3 c3⟩

theorem item_converts {cx : Ctx} {fs : Fields} : ∀ {r r' : Rec}, recRel (fun l x y => y = x ∨ Takes l x) fs r r' →
    validItem cx fs r' → ∃ r'', recRel Converts fs r r'' ∧ validItem cx fs r'' ∧ structBuild cx fs r = structBuild cx fs r'' := by
  induction fs with
  | nil =>
    intro r r' h hv
    cases r' with
    | nil =>
      cases r with
      | nil => exact ⟨[], rfl, trivial, rfl⟩
      | cons _ _ => cases h
    | cons _ _ => exact hv.elim
  | cons nf fs ih =>
    intro r r' h hv
    obtain ⟨n, f⟩ := nf
    cases r' with
    | nil => cases f <;> exact hv.elim
    | cons bv r' =>
      obtain ⟨b, v⟩ := bv
      cases r with
      | nil => cases v <;> cases h
      | cons au r =>
        obtain ⟨a, u⟩ := au
        cases v with
        | none =>
          cases u with
          | some x => cases h
          | none =>
            obtain ⟨rfl, h⟩ := h
            cases f with
            | ifNew l =>
              obtain ⟨rfl, hv⟩ := hv
              obtain ⟨r'', c1, c2, c3⟩ := ih h hv.2
              exact ⟨(n, none) :: r'', ⟨rfl, c1⟩, ⟨rfl, hv.1, c2⟩, by simp only [structBuild, c3]⟩
            | _ => exact hv.elim
        | some y =>
          cases u with
          | none => cases h
          | some x =>
            obtain ⟨rfl, hR, h⟩ := h
            cases f with
            | req l =>
              obtain ⟨rfl, hv⟩ := hv
              obtain ⟨z, z1, z2, z3⟩ := leaf_converts hR hv.1
              obtain ⟨r'', c1, c2, c3⟩ := ih h hv.2
              exact ⟨(n, some z) :: r'', ⟨rfl, z1, c1⟩, ⟨rfl, z2, c2⟩, struct_congr z3 c3⟩
            | ifNew l =>
              obtain ⟨rfl, hv⟩ := hv
              obtain ⟨z, z1, z2, z3⟩ := leaf_converts hR hv.2.1
              obtain ⟨r'', c1, c2, c3⟩ := ih h hv.2.2
              exact ⟨(n, some z) :: r'', ⟨rfl, z1, c1⟩, ⟨rfl, hv.1, z2, c2⟩, struct_congr z3 c3⟩
            | _ => exact hv.elim

theorem items_converts {cx : Ctx} {fs : Fields} {rs rs' : List Rec}
    (h : Pointwise (recRel (fun l x y => y = x ∨ Takes l x) fs) rs rs') (hv : ∀ r ∈ rs', validItem cx fs r) :
    ∃ rs'', Pointwise (recRel Converts fs) rs rs'' ∧ (∀ r ∈ rs'', validItem cx fs r) ∧ rs''.length = rs'.length ∧
      rs.length = rs'.length ∧ greedyBuild cx fs rs = greedyBuild cx fs rs'' := by
  induction h with
  | nil => exact ⟨[], .nil, fun r hr => absurd hr (by simp), rfl, rfl, rfl⟩
  | cons a t ih =>
    obtain ⟨r'', c1, c2, c3⟩ := item_converts a (hv _ (by simp))
    obtain ⟨rs'', d1, d2, d3, d4, d5⟩ := ih fun r hr => hv r (by simp [hr])
    refine ⟨r'' :: rs'', .cons c1 d1, ?_, by simp [d3], by simp [d4], by simp only [greedyBuild, c3, d5]⟩
    intro r hr
    rcases List.mem_cons.1 hr with rfl | hr
    · exact c2
    · exact d2 r hr

/-- Events with numbers of other types are written like events with the converted numbers. -/
theorem value_converts {k : Kind} {len : Nat} {v v' : Value} (h : valueRel (fun l x y => y = x ∨ Takes l x) k v v')
    (hv : validValue k len v') : ∃ v'', valueRel Converts k v v'' ∧ validValue k len v'' ∧ k.build len v = k.build len v'' := by
  have leafCase : ∀ l x y, k.leaf = some l → (y = x ∨ Takes l x) → validValue k len (.lv y) →
      (∀ z, k.build len (.lv z) = leafBuild l (some z) ∧ (validValue k len (.lv z) ↔ leafValid l z)) →
      ∃ z, Converts l x z ∧ validValue k len (.lv z) ∧ k.build len (.lv x) = k.build len (.lv z) := by
    intro l x y hl hR hv hall
    obtain ⟨z, z1, z2, z3⟩ := leaf_converts hR ((hall y).2.1 hv)
    exact ⟨z, z1, (hall z).2.2 z2, by rw [(hall x).1, (hall z).1, z3]⟩
  unfold valueRel at h
  split at h
  · obtain ⟨r'', c1, c2, c3⟩ := fields_converts h hv
    exact ⟨.fields r'', c1, c2, c3⟩
  · obtain ⟨rs'', c1, c2, c3, c4, c5⟩ := items_converts h hv.1
    exact ⟨.items rs'', c1, ⟨c2, by rw [c3]; exact hv.2⟩, c5⟩
  · obtain ⟨h1, h2, rfl⟩ := h
    obtain ⟨v1, v2, v3⟩ := hv
    obtain ⟨r'', c1, c2, c3⟩ := item_converts h1 v1
    obtain ⟨rs'', d1, d2, d3, d4, d5⟩ := items_converts h2 v2
    refine ⟨.auto r'' rs'' _, ⟨c1, d1, rfl⟩, ⟨c2, d2, by rw [d3]; exact v3⟩, ?_⟩
    simp only [Kind.build, autoBuild, c3, d5, d4, d3]
  all_goals first
    | (obtain ⟨z, z1, z2, z3⟩ := leafCase _ _ _ rfl h hv (fun z => ⟨by cases z <;> rfl, by
        constructor
        · rintro ⟨l, hl, hz⟩
          cases hl
          exact hz
        · exact fun hz => ⟨_, rfl, hz⟩⟩)
       exact ⟨.lv z, z1, z2, z3⟩)
    | skip
  subst h
  refine ⟨v, ?_, hv, rfl⟩
  unfold valueRel
  split <;> first | rfl | (exfalso; solve_by_elim) | (simp_all; done)

omit [FloatEnv] in
theorem number_text_kind {before : List Event} {id : Nat} {k : Kind} (hid : id = 199 ∨ id = 201) (h : kindOf before id = some k) :
    k = .ascii ∨ k = .unicode := by
  have ht : ∀ {k}, textKind before = some k → k = .ascii ∨ k = .unicode := by
    intro k h
    unfold textKind at h
    split at h
    · cases h
    · split at h
      · cases h
      · cases h
        split
        · exact .inr rfl
        · exact .inl rfl
  have h1 : enumType enums 199 = none ∨ enumType enums 199 = some .ascii := by decide +kernel
  have h2 : enumType enums 201 = none ∨ enumType enums 201 = some .ascii := by decide +kernel
  unfold kindOf at h
  rcases hid with rfl | rfl
  · rcases h1 with e | e <;> rw [e] at h
    · exact ht h
    · exact .inl (Option.some.inj h).symm
  · rcases h2 with e | e <;> rw [e] at h
    · exact ht h
    · exact .inl (Option.some.inj h).symm

/-- **C130.** Saving a project and opening the file gives back every number of another type as the nearest number of the
field's own type, and everything else as it was. -/
theorem C130_saved {p : Project} {file : Bytes} (hf : p.format ∈ formats) (hq : p.ppq ∈ ppqs) (hwt : WellTyped p.events)
    (hfit : ∀ e ∈ p.events, FitsButNumbers e) (h : saveBytes p = .ok file) :
    ∃ q, parseFile file = .ok q ∧ q.format = p.format ∧ q.ppq = p.ppq ∧ Pointwise ReadConverted p.events q.events := by
  have hev : ∀ e ∈ p.events, ∃ e', WrittenAs e e' ∧ ReadConverted e e' := by
    intro e he
    obtain ⟨v, h1, h2⟩ := hfit e he
    obtain ⟨v', c1, c2, c3⟩ := value_converts h1 h2
    obtain ⟨b, hb⟩ := kind_roundtrip c2
    have hpay : e.pay = b := pay_eq (by
      unfold Event.payload
      rw [c3]
      exact hb.1)
    refine ⟨⟨e.id, e.kind, v', b.length⟩, ⟨⟨rfl, rfl, by rw [hpay], by rw [hpay]; exact hb.2.1⟩, fun hid => ?_⟩, rfl, rfl, c1⟩
    obtain ⟨pre, post, hpp⟩ := List.append_of_mem he
    obtain ⟨-, w2, -⟩ := hwt pre e post hpp
    rcases number_text_kind hid w2 with hk | hk <;> rw [hk] at c1 <;> exact (show e.value = v' from c1).symm
  have hex : ∀ evs : List Event, (∀ e ∈ evs, ∃ e', WrittenAs e e' ∧ ReadConverted e e') →
      ∃ evs', Pointwise WrittenAs evs evs' ∧ Pointwise ReadConverted evs evs' := by
    intro evs
    induction evs with
    | nil => exact fun _ => ⟨[], .nil, .nil⟩
    | cons e evs ih =>
      intro hall
      obtain ⟨e', a, b⟩ := hall e (by simp)
      obtain ⟨evs', c, d⟩ := ih fun x hx => hall x (by simp [hx])
      exact ⟨e' :: evs', .cons a c, .cons b d⟩
  obtain ⟨evs', w, n⟩ := hex p.events hev
  exact ⟨_, parse_saved_as hf hq hwt w h, rfl, rfl, n⟩

/-- C130: these are the fields of numbers that need not be whole. -/
theorem C130_names :
    (∀ s : SName, ∀ nf ∈ s.fields, (nf.2.leaf = .f32 → nf.1 ∈ ["arp.time", "arp.gate"]) ∧
      (nf.2.leaf = .f64 → nf.1 ∈ ["created_on", "time_spent"])) ∧
    (∀ l : LName, ∀ nf ∈ l.fields, (nf.2.leaf = .f32 → nf.1 ∈ ["value", "start_offset", "end_offset"]) ∧ nf.2.leaf ≠ .f64) ∧
    (∀ nf ∈ autoHead ++ autoPoint, (nf.2.leaf = .f32 → nf.1 = "tension") ∧ (nf.2.leaf = .f64 → nf.1 ∈ ["_offset", "value"])) := by
  refine ⟨?_, ?_, by decide +kernel⟩
  · intro s
    cases s <;> decide +kernel
  · intro l
    cases l <;> decide +kernel

end

/-! ## The hypotheses can be met -/

namespace Demo

/-- 0.1 is no binary32 number; 16777217 = 2^24 + 1 is halfway between two of them, and the even one is taken. -/
example : ratOf (.f64 0x3FB999999999999A) = f64Value 0x3FB999999999999A ∧ f32OfF64 0x3FB999999999999A = some 0x3DCCCCCD ∧
    ratOf (.int 16777217) = some 16777217 ∧ f64Bits 16777217 = some 0x4170000010000000 ∧
    f32OfF64 0x4170000010000000 = some 0x4B800000 ∧ f64Bits (2 ^ 53 + 1) = some 0x4340000000000000 := by
  decide +kernel

/-- `C130_single`, `C130_double`: 0.1 and an integer. -/
example : (∃ q, ratOf (.f64 0x3FB999999999999A) = some q ∧ |q| ≤ 2 ^ 128 - 2 ^ 104) ∧
    (∃ q, ratOf (.int 3) = some q ∧ |q| < 2 ^ 1024 - 2 ^ 970) := by
  refine ⟨⟨3602879701896397 / 36028797018963968, by decide +kernel, by rw [abs_of_pos (by norm_num)]; norm_num⟩,
    3, by decide +kernel, ?_⟩
  rw [abs_of_pos (by norm_num)]
  decide +kernel

/-- `C130_single_refused`, `C130_special`: 1e300 and infinity. -/
example : (∃ q, f64Value 0x7E37E43C8800759C = some q ∧ (2 : Rat) ^ 128 - 2 ^ 103 ≤ |q|) ∧ f64Value 0x7FF0000000000000 = none := by
  refine ⟨?_, by decide +kernel⟩
  obtain ⟨q, hq⟩ : ∃ q, f64Value 0x7E37E43C8800759C = some q := Option.isSome_iff_exists.1 (by decide +kernel)
  refine ⟨q, hq, ?_⟩
  rw [← f32OfF64_none hq]
  decide +kernel

/-- A project with one controller event: the values are the number 1, `True` and 0.1. -/
def controlled : Project := ⟨0, 1, 96, [⟨199, .ascii, .str (PStr.lit "20.8.3"), 7⟩, ⟨64, .u16, .lv (.bool true), 2⟩,
  ⟨140, .f32, .lv (.f64 0x3FB999999999999A), 4⟩]⟩

/-- The hypotheses of `C130_saved` can be met. -/
example [FloatEnv] : controlled.format ∈ formats ∧ controlled.ppq ∈ ppqs ∧ WellTyped controlled.events ∧
    (∀ e ∈ controlled.events, FitsButNumbers e) ∧ ∃ file, saveBytes controlled = .ok file := by
  refine ⟨by decide, by decide, wellTyped_of (by decide +kernel), ?_, ?_⟩
  · intro e he
    simp only [controlled, List.mem_cons, List.not_mem_nil, or_false] at he
    rcases he with rfl | rfl | rfl
    · exact ⟨_, rfl, by decide, by decide⟩
    · exact ⟨.lv (.int 1), .inr (show 0 < 2 by decide), _, rfl, rfl⟩
    · refine ⟨.lv (.f32 0), .inr ⟨⟨3602879701896397 / 36028797018963968, by decide +kernel,
        by rw [abs_of_pos (by norm_num)]; norm_num⟩, fun n => ⟨by simp, fun h => ?_⟩⟩, _, rfl, show 0 < 2 ^ 32 by decide⟩
      cases h
      decide
  · rw [C03_save_succeeds]
    refine ⟨[frame (199, [50, 48, 46, 56, 46, 51, 0]), frame (64, [1, 0]), frame (140, [0xCD, 0xCC, 0xCC, 0x3D])],
      ?_, by decide, by decide, by decide, ?_⟩
    · simp only [controlled, List.map_cons, List.map_nil]
      rw [toBytes_frame (b := [50, 48, 46, 56, 46, 51, 0]) (by decide) rfl, toBytes_frame (b := [1, 0]) (by decide) rfl,
        toBytes_frame (e := ⟨140, .f32, .lv (.f64 0x3FB999999999999A), 4⟩) (b := [0xCD, 0xCC, 0xCC, 0x3D]) (by decide) ?_]
      show (match f32OfF64 0x3FB999999999999A with
        | some n => intBuild 4 false n
        | none => .error .overflowError) = _
      decide +kernel
    · have hv' := varBuild_length (n := 7) (k := 1) (by omega) (by omega)
      simp only [frame, List.flatten_cons, List.flatten_nil, List.length_append, List.length_cons, List.length_nil]
      norm_num
      omega

end Demo

/-! ## Comparing numbers (C127) -/

theorem number_value {x : LV} {p : Rat} (h : ratOf x = some p) :
    ∃ u : Int, x.number = some (.fin u) ∧ p = (u : Rat) * pow2 (-1074) := by
  have hi : ∀ i : Int, (i : Rat) = ((i * 2 ^ 1074 : Int) : Rat) * pow2 (-1074) := by
    intro i
    have e : ((i * 2 ^ 1074 : Int) : Rat) = (i : Rat) * pow2 (1074 : Nat) := by
      rw [pow2_nat]
      push_cast
      rfl
    rw [e, mul_assoc, ← pow2_add, show ((1074 : Nat) : Int) + -1074 = 0 by decide]
    simp [pow2]
  have h925 : ∀ a : Nat, (a : Rat) * pow2 (-126 - ((23 : Nat) : Int)) = ((a * 2 ^ 925 : Nat) : Rat) * pow2 (-1074) := by
    intro a
    rw [Nat.cast_mul, ← pow2_nat, mul_assoc, ← pow2_add]
    rfl
  cases x <;> simp only [ratOf, reduceCtorEq] at h
  case int i =>
    cases h
    exact ⟨_, rfl, hi i⟩
  case bool b =>
    cases b
    · cases h
      exact ⟨_, rfl, by simp⟩
    · cases h
      refine ⟨_, rfl, ?_⟩
      simpa using hi 1
  case f32 n =>
    rw [f32Value_mag] at h
    split at h
    · next hlt =>
      cases h
      refine ⟨if n / 2 ^ 31 % 2 = 1 then -((fltMag 23 (n % 2 ^ 31) * 2 ^ 925 : Nat) : Int)
        else ((fltMag 23 (n % 2 ^ 31) * 2 ^ 925 : Nat) : Int), ?_, ?_⟩
      · show fltNumber 23 31 (2 ^ 925) n = _
        unfold fltNumber
        simp only
        rw [if_neg (by omega)]
      · unfold magValue
        rw [h925]
        by_cases hs : n / 2 ^ 31 % 2 = 1
        · rw [if_pos hs, if_pos hs, Int.cast_neg, Int.cast_natCast]
          ring
        · rw [if_neg hs, if_neg hs, Int.cast_natCast]
    · cases h
  case f64 n =>
    rw [f64Value_mag] at h
    split at h
    · next hlt =>
      cases h
      refine ⟨if n / 2 ^ 63 % 2 = 1 then -((fltMag 52 (n % 2 ^ 63) * 1 : Nat) : Int)
        else ((fltMag 52 (n % 2 ^ 63) * 1 : Nat) : Int), ?_, ?_⟩
      · show fltNumber 52 63 1 n = _
        unfold fltNumber
        simp only
        rw [if_neg (by omega)]
      · unfold magValue
        rw [show (-1022 - ((52 : Nat) : Int)) = -1074 by decide, Nat.mul_one]
        by_cases hs : n / 2 ^ 63 % 2 = 1
        · rw [if_pos hs, if_pos hs, Int.cast_neg, Int.cast_natCast]
          ring
        · rw [if_neg hs, if_neg hs, Int.cast_natCast]
    · cases h

/-- **C127** Numbers are equal iff they have the same value: 1, `True` and 1.0 are equal, 0.0 and -0.0 too. -/
theorem C127_numbers {x y : LV} {p q : Rat} (hx : ratOf x = some p) (hy : ratOf y = some q) : Alike x y ↔ p = q := by
  obtain ⟨u, u1, u2⟩ := number_value hx
  obtain ⟨w, w1, w2⟩ := number_value hy
  have hp := pow2_pos (-1074)
  constructor
  · intro h
    cases h with
    | number a b =>
      rw [u1] at a
      rw [w1] at b
      cases a
      cases b
      rw [u2, w2]
    | _ => cases hx
  · rintro rfl
    rw [u2] at w2
    have : (u : Rat) = w := mul_right_cancel₀ hp.ne' w2
    have : u = w := by exact_mod_cast this
    subst this
    exact .number u1 w1

/-- What a binary32 or binary64 number is that is no number: the sign and whether it is NaN. -/
def Spec.special : LV → Option (Bool × Bool)
  | .f32 n => if f32Value n = none then some (decide (n / 2 ^ 31 % 2 = 1), decide (n % 2 ^ 23 ≠ 0)) else none
  | .f64 n => if f64Value n = none then some (decide (n / 2 ^ 63 % 2 = 1), decide (n % 2 ^ 52 ≠ 0)) else none
  | _ => none

theorem special_number {x : LV} {s nan : Bool} (h : special x = some (s, nan)) :
    x.number = if nan then none else some (.inf s) := by
  cases x <;> simp only [special, reduceCtorEq] at h
  case f32 n =>
    split at h
    · next hv =>
      cases h
      rw [f32Value_mag] at hv
      split at hv
      · cases hv
      · show fltNumber 23 31 (2 ^ 925) n = _
        unfold fltNumber
        simp only
        rw [if_pos (by omega), show n % 2 ^ 31 % 2 ^ 23 = n % 2 ^ 23 by omega]
        split <;> simp_all
    · cases h
  case f64 n =>
    split at h
    · next hv =>
      cases h
      rw [f64Value_mag] at hv
      split at hv
      · cases hv
      · show fltNumber 52 63 1 n = _
        unfold fltNumber
        simp only
        rw [if_pos (by omega), show n % 2 ^ 63 % 2 ^ 52 = n % 2 ^ 52 by omega]
        split <;> simp_all
    · cases h

theorem inf_special {y : LV} {s : Bool} (h : y.number = some (.inf s)) : special y = some (s, false) := by
  cases hn : ratOf y with
  | some p =>
    obtain ⟨u, u1, -⟩ := number_value hn
    rw [h] at u1
    cases u1
  | none =>
    have key : ∀ {t nan}, special y = some (t, nan) → special y = some (s, false) := by
      intro t nan ht
      have := special_number ht
      rw [h] at this
      cases nan
      · cases this
        exact ht
      · cases this
    cases y <;> simp only [ratOf, reduceCtorEq] at hn
    case f32 n => exact key (by simp only [special, hn, if_true]; rfl)
    case f64 n => exact key (by simp only [special, hn, if_true]; rfl)
    all_goals cases h

/-- **C127** Infinities are equal to the infinities of the same sign and to nothing else; NaN is equal to nothing. -/
theorem C127_specials {x y : LV} {s nan : Bool} (hx : special x = some (s, nan)) :
    Alike x y ↔ nan = false ∧ special y = some (s, false) := by
  have hxn := special_number hx
  constructor
  · intro h
    cases h with
    | number a b =>
      rw [hxn] at a
      cases nan with
      | true => cases a
      | false =>
        cases a
        exact ⟨rfl, inf_special b⟩
    | _ => cases hx
  · rintro ⟨rfl, hy⟩
    exact .number hxn (special_number hy)

/-- Equal numbers of different types, and unequal ones. -/
example : ratOf (.bool true) = some 1 ∧ ratOf (.f64 0x3FF0000000000000) = some 1 ∧ ratOf (.f32 0x3F800000) = some 1 ∧
    ratOf (.int 1) = some 1 ∧ special (.f32 0xFF800000) = some (true, false) ∧
    special (.f64 0xFFF0000000000000) = some (true, false) ∧ special (.f64 0x7FF8000000000000) = some (false, true) := by
  decide +kernel

end PyFLP
