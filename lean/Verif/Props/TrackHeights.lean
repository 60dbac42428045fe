import Verif.Heights
import Verif.Props.Numbers
import Verif.Props.Logs
import Verif.Props.Layout
/-!
# C132: heights of tracks

`track.height` is a text like `"100%"`, stored as a binary32 number.  Reading cuts the percentage off towards zero; writing drops
the last character, whatever it is, and divides the number before it by 100.
-/

namespace PyFLP

namespace Spec

/-- `n` is `q` without its fraction. -/
def CutOff (q : Rat) (n : Int) : Prop := (0 ≤ q → n ≤ q ∧ q < n + 1) ∧ (q ≤ 0 → q ≤ n ∧ n - 1 < q)

/-- The text of a percentage. -/
def percent (n : Int) : PStr := intRepr n ++ PStr.lit "%"

/-- One less in magnitude. -/
def smaller (n : Int) : Int := if 0 < n then n - 1 else n + 1

/-- A height that can be written: a number, whatever follows it.  Every other value can be written if it is one of the type of
the field. -/
def heightOK [FloatEnv] : Leaf → LV → Prop
  | .height, .str s => ∃ t c n, s = t ++ [c] ∧ pyInt t = some n ∧ |n| ≤ 2 ^ 23
  | l, v => leafValid l v

/-- What is read after a height was written: the same percentage, or the one below. -/
def heightBack : Leaf → LV → LV → Prop
  | .height, .str s, v => ∃ t c n, s = t ++ [c] ∧ pyInt t = some n ∧ (v = .str (percent n) ∨ n ≠ 0 ∧ v = .str (percent (smaller n)))
  | _, x, v => v = x

/-- The same for the record of a track, field by field up to the last one that is present. -/
def trackOK [FloatEnv] (cx : Ctx) : Fields → Rec → Prop
  | (n, .opt l) :: fs, (n', some x) :: rec => n = n' ∧ heightOK l x ∧ (l = .greedy → fs = []) ∧ trackOK cx fs rec
  | fs, rec => validFields cx fs rec

@[inherit_doc heightBack]
def trackBack : Fields → Rec → Rec → Prop
  | (n, .opt l) :: fs, (a, some x) :: rec, (b, some y) :: rec' => a = n ∧ b = n ∧ heightBack l x y ∧ trackBack fs rec rec'
  | _, rec, rec' => rec' = rec

/-- An event that can be stored exactly, or the settings of a track. -/
def FitsOrHeight [FloatEnv] (e : Event) : Prop :=
  validValue e.kind e.len e.value ∨
    (e.id = 238 ∧ e.kind = .struct .track ∧ ∃ rec, e.value = .fields rec ∧ trackOK ⟨e.len⟩ (SName.fields .track) rec)

/-- An event and what is read when it was stored. -/
def ReadHeight (e e' : Event) : Prop :=
  e'.id = e.id ∧ e'.kind = e.kind ∧
    (e'.value = e.value ∨
      ∃ rec rec', e.id = 238 ∧ e.value = .fields rec ∧ e'.value = .fields rec' ∧ trackBack (SName.fields .track) rec rec')

end Spec

open Spec

theorem cutOff_trunc (q : Rat) : CutOff q (trunc q) := by
  unfold trunc CutOff
  split
  · next h =>
    obtain ⟨h1, h2⟩ := floor_bounds (-q)
    refine ⟨fun h0 => absurd h (not_lt.2 h0), fun _ => ?_⟩
    push_cast
    constructor <;> linarith
  · next h =>
    obtain ⟨h1, h2⟩ := floor_bounds q
    refine ⟨fun _ => ⟨h1, h2⟩, fun h0 => ?_⟩
    have : q = 0 := le_antisymm h0 (not_lt.1 h)
    subst this
    have e : ((0 : Rat)).floor = 0 := floor_int 0
    rw [e]
    norm_num

theorem cutOff_unique {q : Rat} {n m : Int} (h1 : CutOff q n) (h2 : CutOff q m) : n = m := by
  rcases le_total 0 q with h | h
  · obtain ⟨a, b⟩ := h1.1 h
    obtain ⟨c, d⟩ := h2.1 h
    have e1 : (n : Rat) < m + 1 := by linarith
    have e2 : (m : Rat) < n + 1 := by linarith
    have e1' : n < m + 1 := by exact_mod_cast e1
    have e2' : m < n + 1 := by exact_mod_cast e2
    omega
  · obtain ⟨a, b⟩ := h1.2 h
    obtain ⟨c, d⟩ := h2.2 h
    have e1 : (n : Rat) - 1 < m := by linarith
    have e2 : (m : Rat) - 1 < n := by linarith
    have e1' : n - 1 < m := by exact_mod_cast e1
    have e2' : m - 1 < n := by exact_mod_cast e2
    omega

/-- A binary32 number times 100 has no rounding error. -/
theorem fl_hundred {bits : Nat} {q : Rat} (h : f32Value bits = some q) : fl (q * 100) = q * 100 := by
  have key : ∃ (j k : Int), q = (j : Rat) * pow2 k ∧ |(j : Rat)| < 2 ^ 24 := by
    unfold f32Value at h
    simp only at h
    split at h
    · cases h
    · have hm : bits % 2 ^ 23 < 2 ^ 23 := Nat.mod_lt _ (by decide)
      generalize bits % 2 ^ 23 = m at *
      have h := Option.some.inj h
      have hm1 : (m : Rat) < 2 ^ 23 := by exact_mod_cast hm
      have hm0 : (0 : Rat) ≤ m := by exact_mod_cast Nat.zero_le m
      rw [← h]
      split <;> split
      · exact ⟨-(m : Int), -149, by push_cast; ring, by push_cast; rw [abs_neg, abs_of_nonneg hm0]; linarith⟩
      · exact ⟨-((8388608 + m : Nat) : Int), bits / 2 ^ 23 % 256 - 150, by push_cast; ring,
          by push_cast; rw [abs_neg, abs_of_nonneg (by linarith)]; linarith⟩
      · exact ⟨(m : Int), -149, by push_cast; ring, by push_cast; rw [abs_of_nonneg hm0]; linarith⟩
      · exact ⟨((8388608 + m : Nat) : Int), bits / 2 ^ 23 % 256 - 150, by push_cast; ring,
          by push_cast; rw [abs_of_nonneg (by linarith)]; linarith⟩
  obtain ⟨j, k, rfl, hj⟩ := key
  have : fl (((j * 100 : Int) : Rat) * pow2 k) = ((j * 100 : Int) : Rat) * pow2 k := fl_exact (by
    push_cast
    rw [abs_mul, abs_of_pos (show (0 : Rat) < 100 by norm_num)]
    linarith)
  rw [show (j : Rat) * pow2 k * 100 = ((j * 100 : Int) : Rat) * pow2 k by push_cast; ring, this]

theorem heightDecode_some {bits : Nat} {q : Rat} (h : f32Value bits = some q) :
    ∃ n, heightDecode bits = some (percent n) ∧ CutOff (100 * q) n := by
  refine ⟨trunc (q * 100), ?_, by rw [mul_comm]; exact cutOff_trunc _⟩
  unfold heightDecode
  rw [h, Option.map_some, fl_hundred h]
  rfl

/-- Rounding to binary32 changes a number that is not tiny by a factor of `2 ^ -24` at most, and keeps its sign. -/
theorem f32Bits_err {r : Rat} (h0 : pow2 (-126) ≤ |r|) (h1 : |r| < 2 ^ 100) :
    ∃ n q, f32Bits r = some n ∧ f32Value n = some q ∧ |q - r| ≤ |r| / 2 ^ 24 ∧ n < 2 ^ 32 ∧
      ∃ j, pow2 (j + 23) ≤ |r| ∧ ((∃ i : Int, |r| = (i : Rat) * pow2 j) → q = r) := by
  have hpos : 0 < |r| := (pow2_pos _).trans_le h0
  have hne : r ≠ 0 := abs_pos.1 hpos
  cases hb : f32Bits r with
  | none =>
    have := f32Bits_none.1 hb
    norm_num at this h1
    linarith
  | some n =>
    obtain ⟨k, m, p1, p2, p3, p4, p5, p6⟩ := roundMag_parts (P := 23) (lo := -126) hpos
    rw [show (-126 + (k : Int) - ((23 : Nat) : Int)) = -126 + k - 23 from rfl] at p3
    have hk : pow2 (-126 + k) ≤ |r| := by
      rcases p4 with h | h
      · subst h; simpa using h0
      · exact h.2
    have hmag : magValue 23 (-126) (roundMag 23 (-126) |r|) = (roundHE (|r| / pow2 (-126 + k - 23)) : Rat) * pow2 (-126 + k - 23) := by
      rw [p1, magValue_add (by rcases p4 with h | h; exact .inl h; exact .inr h.1) p5, ← p3]
      rfl
    have herr : abs (magValue 23 (-126) (roundMag 23 (-126) |r|) - |r|) ≤ |r| / 2 ^ 24 := by
      have hu := pow2_pos (-126 + k - 23)
      have e := roundHE_err (|r| / pow2 (-126 + k - 23))
      have e2 : pow2 (-126 + k) = pow2 (-126 + k - 23) * 2 ^ 23 := by
        rw [show (-126 + (k : Int)) = (-126 + k - 23) + ((23 : Nat) : Int) by push_cast; ring, pow2_add, pow2_nat]
        push_cast
        ring_nf
      rw [hmag]
      generalize pow2 (-126 + k - 23) = u at *
      have e3 : (roundHE (|r| / u) : Rat) * u - |r| = ((roundHE (|r| / u) : Rat) - |r| / u) * u := by
        field_simp
      rw [e3, abs_mul, abs_of_pos hu]
      rw [e2] at hk
      calc _ ≤ 1 / 2 * u := mul_le_mul_of_nonneg_right e hu.le
        _ ≤ _ := by rw [le_div_iff₀ (by positivity)]; linarith
    have hex : (∃ i : Int, |r| = (i : Rat) * pow2 (-126 + k - 23)) → magValue 23 (-126) (roundMag 23 (-126) |r|) = |r| := by
      rintro ⟨i, hi⟩
      rw [hmag]
      have : |r| / pow2 (-126 + k - 23) = (i : Rat) := by
        rw [hi]
        exact mul_div_cancel_right₀ _ (pow2_pos _).ne'
      rw [this, roundHE_int, hi]
    have hn := f32Bits_nearest hne hb
    rw [f32Bits_mag hne] at hb
    split at hb
    · cases hb
    · next hlt =>
      have hb := Option.some.inj hb
      generalize roundMag 23 (-126) |r| = M at *
      refine ⟨n, if r < 0 then -magValue 23 (-126) M else magValue 23 (-126) M, rfl, ?_, ?_, hn.2.1,
        -126 + k - 23, by rw [sub_add_cancel]; exact hk, fun hi => ?_⟩
      · rw [f32Value_mag]
        by_cases hr : r < 0
        · rw [if_pos hr] at hb
          rw [if_pos (by omega), if_pos (by omega), if_pos hr]
          rw [show n % 2 ^ 31 = M by omega]
        · rw [if_neg hr] at hb
          rw [if_pos (by omega), if_neg (by omega), if_neg hr]
          rw [show n % 2 ^ 31 = M by omega]
      · by_cases hr : r < 0
        · rw [if_pos hr]
          rw [abs_of_neg hr] at herr ⊢
          rw [show -magValue 23 (-126) M - r = -(magValue 23 (-126) M - -r) by ring, abs_neg]
          exact herr
        · rw [if_neg hr]
          rw [abs_of_nonneg (not_lt.1 hr)] at herr ⊢
          exact herr
      · rw [hex hi]
        by_cases hr : r < 0
        · rw [if_pos hr, abs_of_neg hr, neg_neg]
        · rw [if_neg hr, abs_of_nonneg (not_lt.1 hr)]

/-- A percentage is stored less than one percent away. -/
theorem percent_stored {n : Int} (hn : |n| ≤ 2 ^ 23) :
    ∃ bits q, f32Bits (fl ((n : Rat) / 100)) = some bits ∧ bits < 2 ^ 32 ∧ f32Value bits = some q ∧ |100 * q - n| < 1 ∧
      (n = 0 → q = 0) ∧ (25 ∣ n → 100 * q = n) := by
  by_cases h0 : n = 0
  · subst h0
    refine ⟨0, 0, ?_, by decide, by decide +kernel, by norm_num, fun _ => rfl, fun _ => by norm_num⟩
    simp [fl_at_zero, f32Bits]
  · have hn1 : (1 : Rat) ≤ |(n : Rat)| := by
      have : 1 ≤ |n| := Int.one_le_abs h0
      exact_mod_cast this
    have hn2 : |(n : Rat)| ≤ 2 ^ 23 := by exact_mod_cast hn
    have e1 := fl_err ((n : Rat) / 100)
    have hquarter : 25 ∣ n → fl ((n : Rat) / 100) = n / 100 := by
      rintro ⟨j, rfl⟩
      have : fl ((j : Rat) * pow2 (-2)) = (j : Rat) * pow2 (-2) := fl_exact (by
        push_cast at hn2
        rw [abs_mul, abs_of_pos (show (0 : Rat) < 25 by norm_num)] at hn2
        norm_num at hn2 ⊢
        linarith)
      rw [show (((25 * j : Int) : Rat)) / 100 = (j : Rat) * pow2 (-2) by
        rw [show pow2 (-2) = 1 / 4 by decide +kernel]; push_cast; ring]
      exact this
    generalize fl ((n : Rat) / 100) = r at *
    have habs : |(n : Rat) / 100| = |(n : Rat)| / 100 := by rw [abs_div, abs_of_pos (show (0 : Rat) < 100 by norm_num)]
    rw [habs] at e1
    have t1 : |r| ≤ |(n : Rat)| / 100 + |(n : Rat)| / 100 / 2 ^ 53 := by
      have := abs_sub_abs_le_abs_sub r ((n : Rat) / 100)
      rw [habs] at this
      linarith
    have t2 : |(n : Rat)| / 100 - |(n : Rat)| / 100 / 2 ^ 53 ≤ |r| := by
      have := abs_sub_abs_le_abs_sub ((n : Rat) / 100) r
      rw [habs, abs_sub_comm] at this
      linarith
    have hlow : pow2 (-126) ≤ |r| := by
      have : pow2 (-126) ≤ pow2 (-10) := pow2_mono (by decide)
      have h10 : pow2 (-10) = 1 / 1024 := by decide +kernel
      rw [h10] at this
      have : |(n : Rat)| / 100 / 2 ^ 53 ≤ |(n : Rat)| / 200 := by
        rw [div_div]
        apply div_le_div_of_nonneg_left (by linarith) (by norm_num) (by norm_num)
      linarith
    obtain ⟨bits, q, b1, b2, b3, b4, j, b5, b6⟩ := f32Bits_err hlow (by
      have : |(n : Rat)| / 100 / 2 ^ 53 ≤ |(n : Rat)| / 200 := by
        rw [div_div]
        apply div_le_div_of_nonneg_left (by linarith) (by norm_num) (by norm_num)
      have : (2 : Rat) ^ 24 ≤ 2 ^ 100 := by norm_num
      linarith)
    refine ⟨bits, q, b1, b4, b2, ?_, fun h => absurd h h0, fun hd => ?_⟩
    swap
    · have hr := hquarter hd
      obtain ⟨i, rfl⟩ := hd
      have hj : j + 23 < 21 := by
        apply pow2_lt_iff.1
        refine b5.trans_lt ?_
        rw [hr, habs, show pow2 21 = 2 ^ 21 by decide +kernel]
        rw [div_lt_iff₀ (by norm_num)]
        exact hn2.trans_lt (by norm_num)
      obtain ⟨k, hk⟩ := Int.eq_ofNat_of_zero_le (show 0 ≤ -2 - j by omega)
      have := b6 ⟨|i| * 2 ^ k, by
        rw [hr, habs]
        push_cast
        rw [abs_mul, abs_of_pos (show (0 : Rat) < 25 by norm_num)]
        have e : pow2 (-2) = (2 ^ k : Rat) * pow2 j := by
          have : pow2 (-2) = pow2 ((k : Int) + j) := by congr 1; omega
          rw [this, pow2_add, pow2_nat]
          push_cast
          rfl
        rw [mul_assoc, ← e, show pow2 (-2) = 1 / 4 by decide +kernel]
        ring⟩
      rw [this, hr]
      ring
    have s1 : 100 * q - n = 100 * (q - r) + 100 * (r - n / 100) := by ring
    rw [s1]
    have s2 := abs_add_le (100 * (q - r)) (100 * (r - n / 100))
    rw [abs_mul, abs_mul, abs_of_pos (show (0 : Rat) < 100 by norm_num)] at s2
    generalize |(n : Rat)| = a at *
    have c1 : a / 100 / 2 ^ 53 ≤ a / 100 / 2 ^ 26 := by
      apply div_le_div_of_nonneg_left (by positivity) (by norm_num) (by norm_num)
    have c2 : |r| / 2 ^ 24 ≤ (a / 100 + a / 100 / 2 ^ 26) / 2 ^ 24 := by
      apply div_le_div_of_nonneg_right (by linarith) (by norm_num)
    have c3 : 100 * |q - r| ≤ (a + a / 2 ^ 26) / 2 ^ 24 := by
      have := b3.trans c2
      have e : (a + a / 2 ^ 26) / 2 ^ 24 = 100 * ((a / 100 + a / 100 / 2 ^ 26) / 2 ^ 24) := by ring
      rw [e]
      linarith
    have c4 : 100 * |r - n / 100| ≤ a / 2 ^ 26 := by
      have e : a / 2 ^ 26 = 100 * (a / 100 / 2 ^ 26) := by ring
      rw [e]
      linarith
    have c5 : (a + a / 2 ^ 26) / 2 ^ 24 + a / 2 ^ 26 < 1 := by
      have : a ≤ 2 ^ 23 := hn2
      norm_num at this ⊢
      linarith
    linarith

/-- What is read of a stored percentage. -/
theorem percent_read {n : Int} {q : Rat} (h : |100 * q - n| < 1) (h0 : n = 0 → q = 0) (m : Int) :
    CutOff (100 * q) m ↔ (|(n : Rat)| ≤ |100 * q| ∧ m = n) ∨ (|100 * q| < |(n : Rat)| ∧ m = smaller n) := by
  rw [abs_lt] at h
  have key : ∃ m', CutOff (100 * q) m' ∧ ((|(n : Rat)| ≤ |100 * q| ∧ m' = n) ∨ (|100 * q| < |(n : Rat)| ∧ m' = smaller n)) := by
    unfold smaller
    rcases lt_trichotomy n 0 with hn | hn | hn
    · have hn1 : (n : Rat) ≤ -1 := by exact_mod_cast (show n ≤ -1 by omega)
      have hq : 100 * q < 0 := by linarith
      rw [abs_of_neg hq, abs_of_neg (by linarith : (n : Rat) < 0), if_neg (by omega)]
      rcases le_or_gt (-(n : Rat)) (-(100 * q)) with hc | hc
      · exact ⟨n, ⟨fun h => by linarith, fun _ => ⟨by linarith, by linarith⟩⟩, .inl ⟨hc, rfl⟩⟩
      · refine ⟨n + 1, ⟨fun h => by linarith, fun _ => ?_⟩, .inr ⟨hc, rfl⟩⟩
        push_cast
        constructor <;> linarith
    · have := h0 hn
      subst this hn
      exact ⟨0, by unfold CutOff; norm_num, .inl (by norm_num)⟩
    · have hn1 : (1 : Rat) ≤ n := by exact_mod_cast (show 1 ≤ n by omega)
      have hq : 0 < 100 * q := by linarith
      rw [abs_of_pos hq, abs_of_pos (by linarith : (0 : Rat) < n), if_pos hn]
      rcases le_or_gt (n : Rat) (100 * q) with hc | hc
      · exact ⟨n, ⟨fun _ => ⟨by linarith, by linarith⟩, fun h => by linarith⟩, .inl ⟨hc, rfl⟩⟩
      · refine ⟨n - 1, ⟨fun _ => ?_, fun h => by linarith⟩, .inr ⟨hc, rfl⟩⟩
        push_cast
        constructor <;> linarith
  obtain ⟨m', k1, k2⟩ := key
  constructor
  · intro hm
    rw [cutOff_unique hm k1]
    exact k2
  · intro hm
    rcases k2 with ⟨a, b⟩ | ⟨a, b⟩ <;> rcases hm with ⟨c, d⟩ | ⟨c, d⟩
    · rw [d, ← b]; exact k1
    · exact absurd c (not_lt.2 a)
    · exact absurd a (not_lt.2 c)
    · rw [d, ← b]; exact k1

section
variable [FloatEnv]

/-- **C132.** Reading: the text of the stored number times 100, without its fraction.  Infinities and NaN have no text. -/
theorem C132_read {bs : Bytes} (h : bs.length = 4) (rest : Bytes) :
    (∀ q, f32Value (littleEndian bs) = some q →
      ∃ n, leafParse .height (bs ++ rest) = .ok (.str (percent n), rest) ∧ CutOff (100 * q) n) ∧
    (f32Value (littleEndian bs) = none → ∃ e, leafParse .height (bs ++ rest) = .error e) := by
  constructor
  · intro q hq
    obtain ⟨n, h1, h2⟩ := heightDecode_some hq
    exact ⟨n, leafParse_means.2 ⟨bs, rfl, h, _, rfl, h1⟩, h2⟩
  · intro hq
    cases hp : leafParse .height (bs ++ rest) with
    | error e => exact ⟨e, rfl⟩
    | ok v =>
      obtain ⟨x, r⟩ := v
      obtain ⟨chunk, c1, c2, s, -, c3⟩ := leafParse_means.1 hp
      have : bs = chunk := (List.append_inj c1 (by rw [h, c2])).1
      subst this
      unfold heightDecode at c3
      rw [hq] at c3
      cases c3

theorem height_build {t : PStr} {c : Nat} {n : Int} (ht : pyInt t = some n) {bits : Nat}
    (hb : f32Bits (fl ((n : Rat) / 100)) = some bits) (hlt : bits < 2 ^ 32) :
    ∃ bs, leafBuild .height (some (.str (t ++ [c]))) = .ok bs ∧ bs.length = 4 ∧ littleEndian bs = bits := by
  have he : heightEncode (t ++ [c]) = some bits := by
    unfold heightEncode
    rw [List.dropLast_concat, ht]
    exact hb
  obtain ⟨bs, h⟩ := intBuild_ok_iff.2 (show intFits 4 false (bits : Int) = true by
    simp only [intFits, Bool.false_eq_true, if_false, decide_eq_true_eq]
    omega)
  refine ⟨bs, ?_, intBuild_length h, ?_⟩
  · simp only [leafBuild, he]
    exact h
  · have := intParse_intBuild h []
    obtain ⟨chunk, h1, h2, h3, h4⟩ := intParse_means.1 this
    simp only [List.append_nil] at h1
    subst h1
    rcases h4 with h4 | ⟨h4, -⟩
    · exact_mod_cast h4.symm
    · cases h4

/-- **C132.** Writing drops the last character, whatever it is, and stores the binary32 number nearest to a hundredth of the
number before it (as a Python `float`): less than one percent away. -/
theorem C132_write {t : PStr} {n : Int} (ht : pyInt t = some n) (hn : |n| ≤ 2 ^ 23) (c : Nat) :
    ∃ bs q, leafBuild .height (some (.str (t ++ [c]))) = .ok bs ∧ bs.length = 4 ∧ f32Value (littleEndian bs) = some q ∧
      |100 * q - n| < 1 ∧ (n ≠ 0 → Nearest f32Value 31 (fl ((n : Rat) / 100)) (littleEndian bs)) := by
  obtain ⟨bits, q, h1, h2, h3, h4, h5, -⟩ := percent_stored hn
  obtain ⟨bs, b1, b2, b3⟩ := height_build (c := c) ht h1 h2
  refine ⟨bs, q, b1, b2, by rw [b3]; exact h3, h4, fun hn0 => ?_⟩
  rw [b3]
  refine f32Bits_nearest ?_ h1
  intro h0
  rw [h0] at h1
  have : bits = 0 := by
    unfold f32Bits at h1
    rw [if_pos rfl] at h1
    exact (Option.some.inj h1).symm
  subst this
  have hq : q = 0 := by
    have : f32Value 0 = some 0 := by decide +kernel
    rw [this] at h3
    exact (Option.some.inj h3).symm
  subst hq
  have : |(n : Rat)| < 1 := by
    rw [mul_zero, zero_sub, abs_neg] at h4
    exact h4
  have : |n| < 1 := by exact_mod_cast this
  exact hn0 (Int.abs_lt_one_iff.1 this)

/-- **C132.** A percentage is read as it was written if the stored number is not below it in magnitude; otherwise as the
percentage one below.  Multiples of 25 are always read as they were written. -/
theorem C132_exact {t : PStr} {n : Int} (ht : pyInt t = some n) (hn : |n| ≤ 2 ^ 23) (c : Nat) :
    ∃ bs q, leafBuild .height (some (.str (t ++ [c]))) = .ok bs ∧ bs.length = 4 ∧ f32Value (littleEndian bs) = some q ∧
      (∀ rest, leafParse .height (bs ++ rest) =
        .ok (.str (percent (if |(n : Rat)| ≤ |100 * q| then n else smaller n)), rest)) ∧
      (25 ∣ n → 100 * q = n) := by
  obtain ⟨bits, q, h1, h2, h3, h4, h5, h6⟩ := percent_stored hn
  obtain ⟨bs, b1, b2, b3⟩ := height_build (c := c) ht h1 h2
  refine ⟨bs, q, b1, b2, by rw [b3]; exact h3, fun rest => ?_, h6⟩
  obtain ⟨m, m1, m2⟩ := (C132_read b2 rest).1 q (by rw [b3]; exact h3)
  rw [m1]
  rcases (percent_read h4 h5 m).1 m2 with ⟨a, rfl⟩ | ⟨a, rfl⟩
  · rw [if_pos a]
  · rw [if_neg (not_le.2 a)]

/-- **C132.** So not every height comes back: 29% becomes 28%. -/
theorem C132_refuted : ¬ ∀ (n : Int) (bs rest : Bytes), leafBuild .height (some (.str (percent n))) = .ok bs →
    leafParse .height (bs ++ rest) = .ok (.str (percent n), rest) := by
  intro h
  obtain ⟨bs, b1, b2, b3⟩ := height_build (c := 37) (pyInt_intRepr 29) (bits := 0x3E947AE1) (by decide +kernel) (by decide)
  have := h 29 bs [] b1
  obtain ⟨n, n1, n2⟩ := (C132_read b2 []).1 (9730785 / 33554432) (by rw [b3]; decide +kernel)
  rw [n1] at this
  have := (List.append_inj' (LV.str.inj (Prod.mk.inj (Except.ok.inj this)).1) rfl).1
  have := intRepr_inj this
  subst this
  have := (n2.1 (by norm_num)).1
  norm_num at this

namespace Spec

/-- The percentages up to 200 that come back one smaller. -/
def lostPercents : List Nat :=
  [1, 2, 3, 4, 6, 8, 11, 12, 13, 16, 19, 21, 22, 24, 26, 29, 32, 35, 38, 39, 41, 42, 44, 45, 47, 48, 51, 52, 53,
   57, 58, 59, 63, 64, 65, 69, 70, 71, 76, 77, 78, 82, 83, 84, 88, 89, 90, 94, 95, 96, 101, 102, 103, 104, 105,
   106, 113, 114, 115, 116, 117, 118, 126, 127, 128, 129, 130, 131, 138, 139, 140, 141, 142, 143, 151, 152, 153,
   154, 155, 156, 163, 164, 165, 166, 167, 168, 176, 177, 178, 179, 180, 181, 188, 189, 190, 191, 192, 193]

end Spec

/-- **C132.** From 0% to 200% these percentages come back one smaller, all others as they are. -/
theorem C132_usual (n : Nat) (hn : n ≤ 200) : ∃ bs, leafBuild .height (some (.str (percent n))) = .ok bs ∧
    ∀ rest, leafParse .height (bs ++ rest) = .ok (.str (percent (if n ∈ lostPercents then smaller n else n)), rest) := by
  have key : ∀ n : Fin 201, (f32Bits (fl (((n.val : Int) : Rat) / 100))).bind f32Value ≠ none ∧
      ∀ q ∈ (f32Bits (fl (((n.val : Int) : Rat) / 100))).bind f32Value, (((n.val : Int) : Rat) ≤ 100 * q ↔ n.val ∉ lostPercents) ∧ 0 ≤ q := by
    decide +kernel
  obtain ⟨bits, q, h1, h2, h3, h4, h5, -⟩ := percent_stored (n := n) (by
    rw [abs_of_nonneg (by omega)]
    omega)
  obtain ⟨bs, b1, b2, b3⟩ := height_build (c := 37) (pyInt_intRepr n) h1 h2
  refine ⟨bs, b1, fun rest => ?_⟩
  obtain ⟨m, m1, m2⟩ := (C132_read b2 rest).1 q (by rw [b3]; exact h3)
  obtain ⟨k1, k2⟩ := (key ⟨n, by omega⟩).2 q (by rw [h1]; exact h3)
  rw [m1]
  have e1 : |100 * q| = 100 * q := abs_of_nonneg (by linarith)
  have e2 : |((n : Int) : Rat)| = ((n : Int) : Rat) := abs_of_nonneg (by push_cast; positivity)
  rcases (percent_read h4 h5 m).1 m2 with ⟨a, rfl⟩ | ⟨a, rfl⟩
  · rw [if_neg (k1.1 (by rw [← e1, ← e2]; exact a))]
  · rw [if_pos]
    by_contra hc
    have := k1.2 hc
    rw [e1, e2] at a
    exact absurd this (not_le.2 a)

/-- **C132.** A text that is no number but for its last character cannot be written. -/
theorem C132_not_written {s : PStr} (h : pyInt s.dropLast = none) : leafBuild .height (some (.str s)) = .error .valueError := by
  have : heightEncode s = none := by
    unfold heightEncode
    rw [h]
  simp only [leafBuild, this]

theorem leaf_height {l : Leaf} {x : LV} (hx : heightOK l x) :
    ∃ c v, leafBuild l (some x) = .ok c ∧ (∀ rest, (l = .greedy → rest = []) → leafParse l (c ++ rest) = .ok (v, rest)) ∧
      heightBack l x v := by
  by_cases h1 : ∃ s, l = .height ∧ x = .str s
  · obtain ⟨s, rfl, rfl⟩ := h1
    obtain ⟨t, c, n, rfl, ht, hn⟩ := hx
    obtain ⟨bs, q, b1, -, -, b4, -⟩ := C132_exact ht hn c
    refine ⟨bs, _, b1, fun rest _ => b4 rest, t, c, n, rfl, ht, ?_⟩
    by_cases h : |(n : Rat)| ≤ |100 * q|
    · rw [if_pos h]; exact .inl rfl
    · rw [if_neg h]
      refine .inr ⟨?_, rfl⟩
      rintro rfl
      apply h
      simp
  have hv : leafValid l x := by
    unfold heightOK at hx
    split at hx
    · exact absurd ⟨_, rfl, rfl⟩ h1
    · exact hx
  obtain ⟨c, q1, q2⟩ := leafRT_of_valid hv
  refine ⟨c, x, q1, q2, ?_⟩
  unfold heightBack
  split
  · exact absurd ⟨_, rfl, rfl⟩ h1
  · rfl

theorem track_back {cx : Ctx} : ∀ {fs : Fields} {rec : Rec}, trackOK cx fs rec →
    ∃ bs rec', structBuild cx fs rec = .ok bs ∧ structParse cx fs bs = .ok (rec', []) ∧ trackBack fs rec rec' := by
  intro fs
  induction fs with
  | nil =>
    intro rec h
    obtain ⟨bs, b1, b2⟩ := struct_roundtrip cx (show validFields cx [] rec by cases rec <;> exact h)
    exact ⟨bs, rec, b1, b2, by cases rec <;> rfl⟩
  | cons nf fs ih =>
    intro rec h
    by_cases hc : ∃ n l n' x rec', nf = (n, .opt l) ∧ rec = (n', some x) :: rec'
    · obtain ⟨n, l, n', x, rec, rfl, rfl⟩ := hc
      obtain ⟨rfl, hl, hg, hr⟩ := h
      obtain ⟨c, v, c1, c2, c3⟩ := leaf_height hl
      obtain ⟨bs, rec', b1, b2, b3⟩ := ih hr
      have hlast : l = .greedy → bs = [] := by
        intro h
        have := hg h
        subst this
        cases rec with
        | nil => exact (Except.ok.inj b1).symm
        | cons r rec => exact hr.elim
      exact ⟨c ++ bs, (n, some v) :: rec', by simp [structBuild, fldBuild, c1, b1],
        by simp [structParse, fldParse, c2 bs hlast, b2],
        rfl, rfl, c3, b3⟩
    · have hv : validFields cx (nf :: fs) rec := by
        unfold trackOK at h
        split at h
        · next heq =>
          obtain ⟨rfl, rfl⟩ := List.cons.inj heq
          exact absurd ⟨_, _, _, _, _, rfl, rfl⟩ hc
        · exact h
      obtain ⟨bs, b1, b2⟩ := struct_roundtrip cx hv
      refine ⟨bs, rec, b1, b2, ?_⟩
      unfold trackBack
      split
      · next heq _ =>
        obtain ⟨rfl, rfl⟩ := List.cons.inj heq
        exact absurd ⟨_, _, _, _, _, rfl, rfl⟩ hc
      · rfl

theorem track_ctx (a b : Nat) (bs : Bytes) :
    structParse ⟨a⟩ (SName.fields .track) bs = structParse ⟨b⟩ (SName.fields .track) bs :=
  structParse_ctx (by
    have hall : ∀ nf ∈ SName.fields .track, (match nf.2 with | .ifLen _ _ | .ifNew _ => false | _ => true) = true := by
      decide +kernel
    intro nf hnf
    have := hall nf hnf
    cases hf : nf.2 <;> rw [hf] at this <;> trivial) bs

theorem event_height {e : Event} (he : FitsOrHeight e) : ∃ e', WrittenAs e e' ∧ ReadHeight e e' := by
  rcases he with hv | ⟨hid, hk, rec, hrec, hok⟩
  · exact ⟨e.reread, writtenAs_stored (stored_of (kind_roundtrip hv)), rfl, rfl, .inl rfl⟩
  · obtain ⟨bs, rec', b1, b2, b3⟩ := track_back hok
    have hpay : e.payload = .ok bs := by
      unfold Event.payload
      rw [hk, hrec]
      exact b1
    refine ⟨⟨e.id, e.kind, .fields rec', bs.length⟩,
      ⟨⟨rfl, rfl, by rw [pay_eq hpay], ?_⟩, fun h => absurd h (by omega)⟩, rfl, rfl, .inr ⟨rec, rec', hid, hrec, rfl, b3⟩⟩
    rw [pay_eq hpay, hk]
    show (structParse ⟨bs.length⟩ (SName.fields .track) bs).map _ = _
    rw [track_ctx bs.length e.len, b2]
    rfl

/-- **C132.** Saving a project and opening the file gives back every event as it was, except that heights of tracks come back
as written or one percent smaller. -/
theorem C132_saved {p : Project} {file : Bytes} (hf : p.format ∈ formats) (hq : p.ppq ∈ ppqs) (hwt : WellTyped p.events)
    (hfit : ∀ e ∈ p.events, FitsOrHeight e) (h : saveBytes p = .ok file) :
    ∃ q, parseFile file = .ok q ∧ q.format = p.format ∧ q.ppq = p.ppq ∧ Pointwise ReadHeight p.events q.events := by
  have hex : ∀ evs : List Event, (∀ e ∈ evs, FitsOrHeight e) → ∃ evs', Pointwise WrittenAs evs evs' ∧ Pointwise ReadHeight evs evs' := by
    intro evs
    induction evs with
    | nil => exact fun _ => ⟨[], .nil, .nil⟩
    | cons e evs ih =>
      intro hfit
      obtain ⟨e', a, b⟩ := event_height (hfit e (by simp))
      obtain ⟨evs', c, d⟩ := ih fun x hx => hfit x (by simp [hx])
      exact ⟨e' :: evs', .cons a c, .cons b d⟩
  obtain ⟨evs', w, n⟩ := hex p.events hfit
  exact ⟨_, parse_saved_as hf hq hwt w h, rfl, rfl, n⟩

/-- A track of 59% in a project that can be saved. -/
example : let e : Event := ⟨238, .struct .track, .fields [("iid", some (.int 1)), ("color", some (.int 0)), ("icon", some (.int 0)),
      ("enabled", some (.bool true)), ("height", some (.str (PStr.lit "59%"))), ("locked_height", some (.int (-1))),
      ("content_locked", some (.bool false)), ("motion", some (.int 0)), ("press", some (.int 0)), ("trigger_sync", some (.int 0)),
      ("queued", some (.bool false)), ("tolerant", some (.bool true)), ("position_sync", some (.int 0)),
      ("grouped", some (.bool false)), ("locked", some (.bool false)), ("_u1", some (.bytes [1, 2]))], 50⟩
    FitsOrHeight e ∧ (pyInt (PStr.lit "59") = some 59) ∧ 59 ∈ lostPercents ∧ pyInt (PStr.lit "a lot").dropLast = none := by
  refine ⟨.inr ⟨rfl, rfl, _, rfl, ?_⟩, by decide +kernel, by decide, by decide +kernel⟩
  have hg : ∀ {l : Leaf} {fs : Fields}, l ≠ .greedy → l = .greedy → fs = [] := fun h h' => absurd h' h
  refine ⟨rfl, rfl, hg (by decide), rfl, rfl, hg (by decide), rfl, rfl, hg (by decide), rfl, trivial, hg (by decide), rfl,
    ⟨PStr.lit "59", 37, 59, rfl, by decide +kernel, by decide⟩, hg (by decide), rfl, rfl, hg (by decide), rfl, trivial, hg (by
    decide), rfl, rfl, hg (by decide), rfl, rfl, hg (by decide), rfl, rfl, hg (by decide), rfl, trivial, hg (by decide), rfl,
    trivial, hg (by decide), rfl, rfl, hg (by decide), rfl, trivial, hg (by decide), rfl, trivial, hg (by decide), rfl, trivial,
    fun _ => rfl, trivial⟩

end

end PyFLP
