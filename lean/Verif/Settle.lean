import Verif.Heights
import Verif.KindCanon
/-!
# Re-saving settles: payloads

Opening what was saved and saving it again, over and over, makes a sequence of payloads for every event.  This file
shows that the sequence stops changing, for every primitive, every struct and every kind of event.
-/

namespace PyFLP

/-! ### Sequences that stop changing -/

/-- Every sequence made of `R`-steps is constant from some point on. -/
def Settles {α : Type} (R : α → α → Prop) : Prop :=
  ∀ s : Nat → α, (∀ i, R (s i) (s (i + 1))) → ∃ N, ∀ n, N ≤ n → s n = s N

/-- A sequence of numbers that never grows stops changing. -/
theorem antitone_settles {f : Nat → Nat} (h : ∀ i, f (i + 1) ≤ f i) : ∃ N, ∀ n, N ≤ n → f n = f N := by
  have key : ∀ k (f : Nat → Nat), f 0 = k → (∀ i, f (i + 1) ≤ f i) → ∃ N, ∀ n, N ≤ n → f n = f N := by
    intro k
    induction k using Nat.strongRecOn with
    | ind k ih =>
      intro f hk h
      have mono : ∀ n, f n ≤ f 0 := by
        intro n
        induction n with
        | zero => exact Nat.le_refl _
        | succ n ihn => exact Nat.le_trans (h n) ihn
      by_cases hc : ∃ i, f i < f 0
      · obtain ⟨i, hi⟩ := hc
        obtain ⟨N, hN⟩ := ih (f i) (by omega) (fun n => f (i + n)) rfl (fun n => h (i + n))
        refine ⟨i + N, fun n hn => ?_⟩
        have := hN (n - i) (by omega)
        rwa [show i + (n - i) = n by omega] at this
      · refine ⟨0, fun n _ => ?_⟩
        have := mono n
        have : ¬ f n < f 0 := fun h => hc ⟨n, h⟩
        omega
  exact key _ f rfl h

/-- It is enough that the sequence stops changing after some point. -/
theorem settles_shift {α : Type} {s : Nat → α} (i : Nat) (h : ∃ N, ∀ n, N ≤ n → s (i + n) = s (i + N)) :
    ∃ N, ∀ n, N ≤ n → s n = s N := by
  obtain ⟨N, hN⟩ := h
  refine ⟨i + N, fun n hn => ?_⟩
  have := hN (n - i) (by omega)
  rwa [show i + (n - i) = n by omega] at this

/-- A sequence that repeats its last element from step `k` on. -/
theorem settles_const {α : Type} {s : Nat → α} (k : Nat) (h : ∀ i, k ≤ i → s (i + 1) = s i) :
    ∃ N, ∀ n, N ≤ n → s n = s N := by
  refine ⟨k, fun n hn => ?_⟩
  induction n, hn using Nat.le_induction with
  | base => rfl
  | succ n hn ih => rw [h n hn, ih]

/-- Two sequences stop changing together. -/
theorem settles_both {α β : Type} {s : Nat → α} {t : Nat → β} (h1 : ∃ N, ∀ n, N ≤ n → s n = s N)
    (h2 : ∃ N, ∀ n, N ≤ n → t n = t N) : ∃ N, ∀ n, N ≤ n → s n = s N ∧ t n = t N := by
  obtain ⟨N, hN⟩ := h1
  obtain ⟨M, hM⟩ := h2
  refine ⟨max N M, fun n hn => ⟨?_, ?_⟩⟩
  · rw [hN n (by omega), hN (max N M) (by omega)]
  · rw [hM n (by omega), hM (max N M) (by omega)]

/-! ### The length up to the last byte that is not zero -/

/-- The number of bytes up to the last one that is not zero. -/
def live : Bytes → Nat
  | [] => 0
  | a :: as => if 0 < live as then live as + 1 else if a = 0 then 0 else 1

theorem live_le (bs : Bytes) : live bs ≤ bs.length := by
  induction bs with
  | nil => exact Nat.le_refl _
  | cons a as ih =>
    unfold live
    split
    · simp; omega
    · split <;> simp

theorem live_append (a b : Bytes) : live (a ++ b) = if 0 < live b then a.length + live b else live a := by
  induction a with
  | nil =>
    simp only [List.nil_append, List.length_nil, live]
    split <;> omega
  | cons x xs ih =>
    rw [List.cons_append, live, ih]
    by_cases hb : 0 < live b
    · rw [if_pos hb, if_pos hb, if_pos (by omega)]
      simp; omega
    · rw [if_neg hb, if_neg hb, live]

theorem live_append_le {a a' b b' : Bytes} (hl : a.length = a'.length) (ha : live a ≤ live a') (hb : live b ≤ live b') :
    live (a ++ b) ≤ live (a' ++ b') := by
  rw [live_append, live_append]
  have := live_le a
  split
  · rw [if_pos (by omega)]; omega
  · split <;> omega

theorem live_zero {w n : Nat} (hn : n < 256 ^ w) (h : live (leBytes w n) = 0) : n = 0 := by
  induction w generalizing n with
  | zero => simpa using hn
  | succ w ih =>
    unfold leBytes live at h
    rw [Nat.pow_succ] at hn
    split at h
    · omega
    · next h0 =>
      have := ih (n := n / 256) (by omega) (by omega)
      split at h
      · next hb =>
        have hc := congrArg UInt8.toNat hb
        rw [u8_ofNat_toNat (by omega)] at hc
        simp at hc
        omega
      · omega

theorem live_mono {w n m : Nat} (hm : m < 256 ^ w) (h : n ≤ m) : live (leBytes w n) ≤ live (leBytes w m) := by
  induction w generalizing n m with
  | zero => exact Nat.le_refl _
  | succ w ih =>
    rw [Nat.pow_succ] at hm
    have hi := ih (n := n / 256) (m := m / 256) (by omega) (by omega)
    unfold leBytes live
    by_cases h0 : 0 < live (leBytes w (n / 256))
    · rw [if_pos h0, if_pos (by omega)]; omega
    rw [if_neg h0]
    have hn0 : n / 256 = 0 := live_zero (w := w) (by omega) (by omega)
    by_cases h1 : 0 < live (leBytes w (m / 256))
    · rw [if_pos h1]; split <;> omega
    rw [if_neg h1]
    have hm0 : m / 256 = 0 := live_zero (w := w) (by omega) (by omega)
    by_cases h2 : UInt8.ofNat (n % 256) = 0
    · rw [if_pos h2]; omega
    · rw [if_neg h2, if_neg]
      intro h3
      apply h2
      have hc := congrArg UInt8.toNat h3
      rw [u8_ofNat_toNat (by omega)] at hc
      simp at hc
      apply u8_eq_of_toNat
      rw [u8_ofNat_toNat (by omega)]
      simp
      omega

/-- The last byte of a number with the highest bit set. -/
theorem live_top {w n : Nat} (hn : n < 256 ^ w) (h : 256 ^ w ≤ 2 * n) (hw : 0 < w) : live (leBytes w n) = w := by
  induction w generalizing n with
  | zero => omega
  | succ w ih =>
    rw [Nat.pow_succ] at hn h
    unfold leBytes live
    by_cases h0 : w = 0
    · subst h0
      simp only [Nat.pow_zero, Nat.one_mul] at hn h
      rw [show leBytes 0 (n / 256) = [] from rfl, show live [] = 0 from rfl, if_neg (by omega), if_neg]
      intro h3
      have hc := congrArg UInt8.toNat h3
      rw [u8_ofNat_toNat (by omega)] at hc
      simp at hc
      omega
    · have : 256 ∣ 256 ^ w := ⟨256 ^ (w - 1), by rw [Nat.mul_comm, ← Nat.pow_succ]; congr 1; omega⟩
      have hi := ih (n := n / 256) (by omega) (by omega) (by omega)
      rw [hi, if_pos (by omega)]

/-! ### Primitives -/

variable [FloatEnv]

/-- `pre` reads as `v`, whatever follows. -/
def Reads (l : Leaf) (pre : Bytes) (v : LV) : Prop := ∀ r, leafParse l (pre ++ r) = .ok (v, r)

/-- What a primitive must do for the struct around it to settle. -/
structure LeafFine (l : Leaf) : Prop where
  read : ∀ {bs v r}, leafParse l bs = .ok (v, r) → ∃ pre, bs = pre ++ r ∧ Reads l pre v ∧
    (((∃ e, leafBuild l (some v) = .error e) ∧ 0 < live pre) ∨
      ∃ b v', leafBuild l (some v) = .ok b ∧ b.length = pre.length ∧ live b ≤ live pre ∧ Reads l b v')
  settle : Settles fun a b => ∃ v, Reads l a v ∧ leafBuild l (some v) = .ok b

theorem leaf_reads {l : Leaf} (hg : l ≠ .greedy) (hc : ∀ n, l ≠ .rawC n) {bs v r} (h : leafParse l bs = .ok (v, r)) :
    ∃ pre, bs = pre ++ r ∧ Reads l pre v := by
  cases l <;> simp only [leafParse] at h
  case greedy => exact absurd rfl hg
  case rawC n => exact absurd rfl (hc n)
  case int | flagsS | f32 | f64 | fourBool | musical =>
    obtain ⟨⟨x, m⟩, h1, h2⟩ := map_ok h
    cases h2
    obtain ⟨pre, e, hb⟩ := intBuild_intParse h1
    exact ⟨pre, e, fun r => by simp only [leafParse, intParse_intBuild hb, Except.map]⟩
  case flag =>
    cases bs with
    | nil => cases h
    | cons b m => cases h; exact ⟨[b], rfl, fun r => rfl⟩
  case raw n =>
    split at h
    · cases h
    · next hl =>
      cases h
      refine ⟨bs.take n, (List.take_append_drop _ _).symm, fun r => ?_⟩
      have : (bs.take n).length = n := by simp; omega
      simp only [leafParse]
      rw [if_neg (by rw [List.length_append, this]; omega), List.take_left' this, List.drop_left' this]
  case height =>
    split at h
    · cases h
    · next x m h1 =>
      split at h
      · next s h2 =>
        cases h
        obtain ⟨pre, e, hb⟩ := intBuild_intParse h1
        exact ⟨pre, e, fun r => by simp only [leafParse, intParse_intBuild hb, h2]⟩
      · cases h
  case log2 =>
    split at h
    · cases h
    · next x m h1 =>
      split at h
      · next s h2 =>
        cases h
        obtain ⟨pre, e, hb⟩ := intBuild_intParse h1
        exact ⟨pre, e, fun r => by simp only [leafParse, intParse_intBuild hb, h2]⟩
      · cases h
  case pair32 =>
    obtain ⟨⟨x, y, m⟩, h1, h2⟩ := map_ok h
    cases h2
    obtain ⟨pre, e, hb⟩ := int2Build_int2Parse h1
    exact ⟨pre, e, fun r => by simp only [leafParse, int2Parse_int2Build hb, Except.map]⟩
  case logNormal =>
    split at h
    · cases h
    · next x y m h1 =>
      split at h
      · next s h2 =>
        cases h
        obtain ⟨pre, e, hb⟩ := int2Build_int2Parse h1
        exact ⟨pre, e, fun r => by simp only [leafParse, int2Parse_int2Build hb, h2]⟩
      · cases h

theorem reads_nil {l : Leaf} {a : Bytes} {v : LV} (h : Reads l a v) : leafParse l a = .ok (v, []) := by
  have := h []
  rwa [List.append_nil] at this

/-- Primitives that are written back as they were read. -/
theorem fine_canon {l : Leaf} (hg : l ≠ .greedy) (hr : ∀ n, l ≠ .rawC n) (hc : ∀ bs, leafCanon l bs) : LeafFine l where
  read := by
    intro bs v r h
    obtain ⟨pre, e, hp⟩ := leaf_reads hg hr h
    obtain ⟨pre', e', hb⟩ := leaf_canon h (hc bs)
    have : pre' = pre := List.append_cancel_right (e'.symm.trans e)
    subst this
    exact ⟨pre', e, hp, .inr ⟨pre', v, hb, rfl, Nat.le_refl _, hp⟩⟩
  settle := by
    intro s hs
    refine settles_const 0 fun i _ => ?_
    obtain ⟨v, h1, h2⟩ := hs i
    obtain ⟨pre, e, hb⟩ := leaf_canon (reads_nil h1) (hc _)
    rw [List.append_nil] at e
    rw [hb] at h2
    rw [e, Except.ok.inj h2]

theorem fine_flag : LeafFine .flag where
  read := by
    intro bs v r h
    obtain ⟨pre, e, hp⟩ := leaf_reads (by simp) (by simp) h
    have h0 := reads_nil hp
    cases pre with
    | nil => cases h0
    | cons b m =>
      have hm : m = [] := by
        cases h0; rfl
      subst hm
      cases h0
      refine ⟨[b], e, hp, .inr ⟨_, _, rfl, rfl, ?_, fun r => rfl⟩⟩
      by_cases hb : b = 0
      · subst hb; exact Nat.le_refl _
      · simp [live, hb, LV.truthy]
  settle := by
    intro s hs
    refine settles_const 1 fun i hi => ?_
    obtain ⟨v, h1, h2⟩ := hs (i - 1)
    rw [show i - 1 + 1 = i by omega] at h2
    obtain ⟨v', h3, h4⟩ := hs i
    have h2 := Except.ok.inj h2
    have h4 := Except.ok.inj h4
    have h5 := reads_nil h3
    rw [← h2] at h5 ⊢
    rw [← h4]
    simp only [leafParse] at h5
    injection h5 with h5
    injection h5 with h5 h6
    subst h5
    simp [LV.truthy]

/-- A primitive over one number, by what happens to the number. -/
theorem fine_int {l : Leaf} {w : Nat} {sg : Bool} (hg : l ≠ .greedy) (hr : ∀ n, l ≠ .rawC n) (R : Int → Int → Prop)
    (hR : Settles R)
    (h1 : ∀ {bs v r}, leafParse l bs = .ok (v, r) → ∃ n, intParse w sg bs = .ok (n, r) ∧
      (((∃ e, leafBuild l (some v) = .error e) ∧ n ≠ 0) ∨
        ∃ m, leafBuild l (some v) = intBuild w sg m ∧ intFits w sg m = true ∧ R n m ∧
          (∃ v', ∀ bs r, intParse w sg bs = .ok (m, r) → leafParse l bs = .ok (v', r)) ∧
          (∀ a b, intBuild w sg n = .ok a → intBuild w sg m = .ok b → live b ≤ live a))) : LeafFine l where
  read := by
    intro bs v r h
    obtain ⟨pre, e, hp⟩ := leaf_reads hg hr h
    obtain ⟨n, h2, h3⟩ := h1 h
    obtain ⟨pre', e', hb⟩ := intBuild_intParse h2
    have : pre' = pre := List.append_cancel_right (e'.symm.trans e)
    subst this
    refine ⟨pre', e, hp, ?_⟩
    rcases h3 with ⟨h3, h4⟩ | ⟨m, h3, h4, h5, ⟨v', h6⟩, h7⟩
    · refine .inl ⟨h3, ?_⟩
      rcases Nat.eq_zero_or_pos (live pre') with h0 | h0
      · exfalso
        apply h4
        unfold intBuild at hb
        split at hb
        · next hf =>
          have hb := Except.ok.inj hb
          rw [← hb] at h0
          have hpow := pow256_pos w
          have hnn := Int.emod_nonneg n (b := ((256 ^ w : Nat) : Int)) (by omega)
          have hlt := Int.emod_lt_of_pos n (b := ((256 ^ w : Nat) : Int)) (by omega)
          have hz := live_zero (by omega) h0
          have hz : n % ((256 ^ w : Nat) : Int) = 0 := by omega
          obtain ⟨q, hq⟩ := Int.dvd_of_emod_eq_zero hz
          have hb : -((256 ^ w : Nat) : Int) < n ∧ n < ((256 ^ w : Nat) : Int) := by
            cases sg <;> simp only [intFits, Bool.false_eq_true, if_false, if_true, decide_eq_true_eq] at hf <;> omega
          generalize ((256 ^ w : Nat) : Int) = P at *
          have hq0 : q = 0 := by
            rcases Int.lt_trichotomy q 0 with h | h | h
            · exfalso
              have : P * q ≤ P * (-1) := Int.mul_le_mul_of_nonneg_left (by omega) (by omega)
              omega
            · exact h
            · exfalso
              have : P * 1 ≤ P * q := Int.mul_le_mul_of_nonneg_left (by omega) (by omega)
              omega
          rw [hq, hq0, Int.mul_zero]
        · cases hb
      · exact h0
    · obtain ⟨b, hb'⟩ := intBuild_ok_iff.2 h4
      refine .inr ⟨b, v', by rw [h3, hb'], ?_, h7 _ _ hb hb', fun r => h6 _ _ (intParse_intBuild hb' r)⟩
      rw [intBuild_length hb', intBuild_length hb]
  settle := by
    intro s hs
    have key : ∀ i, ∃ n, intBuild w sg n = .ok (s i) := by
      intro i
      obtain ⟨v, r1, -⟩ := hs i
      obtain ⟨n, h2, -⟩ := h1 (reads_nil r1)
      obtain ⟨pre, e, hb⟩ := intBuild_intParse h2
      rw [List.append_nil] at e
      exact ⟨n, e ▸ hb⟩
    have hex : ∃ t : Nat → Int, ∀ i, intBuild w sg (t i) = .ok (s i) := ⟨fun i => (key i).choose, fun i => (key i).choose_spec⟩
    obtain ⟨t, ht⟩ := hex
    have hstep : ∀ i, R (t i) (t (i + 1)) := by
      intro i
      obtain ⟨v, r1, r2⟩ := hs i
      obtain ⟨n, h2, h3⟩ := h1 (reads_nil r1)
      have hn := intParse_intBuild (ht i) []
      rw [List.append_nil, h2] at hn
      have hn : n = t i := by injection hn with hn; injection hn
      subst hn
      rcases h3 with ⟨⟨e, he⟩, -⟩ | ⟨m, h3, h4, h5, -, -⟩
      · rw [he] at r2; cases r2
      · rw [h3] at r2
        have a := intParse_intBuild r2 []
        have b := intParse_intBuild (ht (i + 1)) []
        rw [a] at b
        have : m = t (i + 1) := by injection b with b; injection b
        rwa [← this]
    obtain ⟨N, hN⟩ := hR t hstep
    refine ⟨N, fun n hn => ?_⟩
    have := ht n
    rw [hN n hn, ht N] at this
    exact (Except.ok.inj this).symm

omit [FloatEnv] in
theorem live_build_mono {w : Nat} {n m : Int} {a b : Bytes} (h : m ≤ n) (ha : intBuild w false n = .ok a)
    (hb : intBuild w false m = .ok b) : live b ≤ live a := by
  have f1 := intBuild_ok_iff.1 ⟨_, ha⟩
  have f2 := intBuild_ok_iff.1 ⟨_, hb⟩
  unfold intBuild at ha hb
  rw [if_pos f1] at ha
  rw [if_pos f2] at hb
  rw [← Except.ok.inj ha, ← Except.ok.inj hb]
  have hpow := pow256_pos w
  simp only [intFits, Bool.false_eq_true, if_false, decide_eq_true_eq] at f1 f2
  rw [Int.emod_eq_of_lt f1.1 f1.2, Int.emod_eq_of_lt f2.1 f2.2]
  exact live_mono (by omega) (by omega)

omit [FloatEnv] in
theorem live_build_signed {w : Nat} (hw : 0 < w) {n m : Int} {a b : Bytes} (h : n < 0 ∨ (0 ≤ m ∧ m ≤ n)) (ha : intBuild w true n = .ok a)
    (hb : intBuild w true m = .ok b) : live b ≤ live a := by
  have hbl := intBuild_length hb
  have f1 := intBuild_ok_iff.1 ⟨_, ha⟩
  have f2 := intBuild_ok_iff.1 ⟨_, hb⟩
  unfold intBuild at ha hb
  rw [if_pos f1] at ha
  rw [if_pos f2] at hb
  rw [← Except.ok.inj ha]
  have hpow := pow256_pos w
  simp only [intFits, if_true, decide_eq_true_eq] at f1 f2
  rcases h with h | ⟨h1, h2⟩
  · have e : n % ((256 ^ w : Nat) : Int) = n + (256 ^ w : Nat) := by
      rw [← Int.add_emod_right, Int.emod_eq_of_lt (by omega) (by omega)]
    rw [e, live_top (by omega) (by omega) hw]
    have := live_le b
    omega
  · rw [← Except.ok.inj hb, Int.emod_eq_of_lt (by omega) (by omega), Int.emod_eq_of_lt (by omega) (by omega)]
    exact live_mono (by omega) (by omega)

omit [FloatEnv] in
theorem settles_once {R : Int → Int → Prop} (h : ∀ a b c, R a b → R b c → c = b) : Settles R := by
  intro s hs
  refine settles_const 1 fun i hi => ?_
  have h1 := hs (i - 1)
  rw [show i - 1 + 1 = i by omega] at h1
  exact h _ _ _ h1 (hs i)

theorem fine_fourBool : LeafFine .fourBool := by
  refine fine_int (w := 4) (sg := false) (by simp) (by simp) (fun n m => m = if n ≠ 0 then 1 else 0) ?_ ?_
  · apply settles_once
    intro a b c h1 h2
    subst h1 h2
    by_cases h : a = 0 <;> simp [h]
  · intro bs v r h
    simp only [leafParse] at h
    obtain ⟨⟨x, m⟩, h1, h2⟩ := map_ok h
    cases h2
    refine ⟨x, h1, .inr ⟨if x ≠ 0 then 1 else 0, ?_, ?_, rfl, ⟨.bool (x ≠ 0), ?_⟩, ?_⟩⟩
    · simp [leafBuild]
    · split <;> decide
    · intro bs r h
      simp only [leafParse, h, Except.map]
      by_cases hx : x = 0 <;> simp [hx]
    · intro a b ha hb
      have hx := intBuild_ok_iff.1 ⟨_, ha⟩
      simp only [intFits, Bool.false_eq_true, if_false, decide_eq_true_eq] at hx
      refine live_build_mono ?_ ha hb
      split <;> omega

omit [FloatEnv] in
theorem intFlagValue_ge0 (mask : Nat) (v : Int) : 0 ≤ intFlagValue mask v := by
  unfold intFlagValue
  split
  · assumption
  · next hv =>
    have hb : v.natAbs < 2 ^ (Nat.log2 v.natAbs + 1) := Nat.lt_log2_self
    simp only
    split
    · have : (2 ^ (Nat.log2 v.natAbs + 1) : Nat) ≤ max ((allBits mask : Int) + 1) ((2 ^ (Nat.log2 v.natAbs + 1) : Nat) : Int) := by
        omega
      omega
    · omega

omit [FloatEnv] in
theorem intFlagValue_of_nonneg (mask : Nat) {v : Int} (h : 0 ≤ v) : intFlagValue mask v = v := by
  unfold intFlagValue
  rw [if_pos h]

theorem fine_flagsS (mask : Nat) : LeafFine (.flagsS mask) := by
  refine fine_int (w := 4) (sg := true) (by simp) (by simp) (fun n m => m = intFlagValue mask n) ?_ ?_
  · apply settles_once
    intro a b c h1 h2
    subst h1 h2
    exact intFlagValue_of_nonneg mask (intFlagValue_ge0 mask a)
  · intro bs v r h
    simp only [leafParse] at h
    obtain ⟨⟨x, m⟩, h1, h2⟩ := map_ok h
    cases h2
    refine ⟨x, h1, ?_⟩
    have hnn := intFlagValue_ge0 mask x
    have hid : 0 ≤ x → intFlagValue mask x = x := intFlagValue_of_nonneg mask
    by_cases hf : intFits 4 true (intFlagValue mask x) = true
    · refine .inr ⟨intFlagValue mask x, rfl, hf, rfl, ⟨.int (intFlagValue mask x), ?_⟩, ?_⟩
      · intro bs r h
        simp only [leafParse, h, Except.map, intFlagValue_of_nonneg mask hnn]
      · intro a b ha hb
        refine live_build_signed (by omega) ?_ ha hb
        by_cases hx : 0 ≤ x
        · right; rw [hid hx]; omega
        · left; omega
    · refine .inl ⟨?_, ?_⟩
      · refine ⟨.formatFieldError, ?_⟩
        simp only [leafBuild, intBuild]
        rw [if_neg hf]
      · rintro rfl
        rw [hid (by omega)] at hf
        exact hf (by decide)

theorem fine_height : LeafFine .height := by
  refine fine_int (w := 4) (sg := false) (by simp) (by simp) (fun n m => 0 ≤ n ∧ 0 ≤ m ∧ m ≤ n) ?_ ?_
  · intro s hs
    obtain ⟨N, hN⟩ := antitone_settles (f := fun i => (s i).toNat) (fun i => by have := hs i; omega)
    refine ⟨N, fun n hn => ?_⟩
    have h1 := hN n hn
    have h2 := hs n
    have h3 := hs N
    omega
  · intro bs v r h
    simp only [leafParse] at h
    split at h
    · cases h
    · next x m h1 =>
      split at h
      · next s h2 =>
        cases h
        obtain ⟨pre, -, hb⟩ := intBuild_intParse h1
        have hx := intBuild_ok_iff.1 ⟨_, hb⟩
        simp only [intFits, Bool.false_eq_true, if_false, decide_eq_true_eq] at hx
        obtain ⟨n, e1, e2, e3⟩ := height_shrinks (bits := x.toNat) (by omega) h2
        obtain ⟨s', hs'⟩ := Option.isSome_iff_exists.1 e3
        refine ⟨x, h1, .inr ⟨n, ?_, ?_, by omega, ⟨.str s', ?_⟩, ?_⟩⟩
        · simp only [leafBuild, e1]
        · simp only [intFits, Bool.false_eq_true, if_false, decide_eq_true_eq]; omega
        · intro bs r h
          simp only [leafParse, h, Int.toNat_natCast, hs']
        · intro a b ha hb
          exact live_build_mono (by omega) ha hb
      · cases h

/-- What reading a stored logarithm and writing it again does, on the platform.  A stored logarithm is a signed 32 bit
number (or an unsigned 16 bit number, last line).

* One that is not negative does not grow and does not become negative; one that is not positive does not become positive
  (and still fits).  What was written can be read.
* A negative one stops changing in the end.  (It may move away from zero: the powers it stands for may be too small to be
  told apart.)
* Zero can be written again. -/
def LogsSettle : Prop :=
  (∀ (k : Int) (x : Nat) (j : Int), -2147483648 ≤ k → k < 2147483648 → FloatEnv.exp2 k = some x → FloatEnv.log2 x = some j →
    (0 ≤ k → 0 ≤ j ∧ j ≤ k) ∧ (k ≤ 0 → j ≤ 0 ∧ -2147483648 ≤ j) ∧ (FloatEnv.exp2 j).isSome) ∧
  (∀ s : Nat → Int, (∀ i, -2147483648 ≤ s i ∧ s i < 0 ∧ ∃ x, FloatEnv.exp2 (s i) = some x ∧ FloatEnv.log2 x = some (s (i + 1))) →
    ∃ N, ∀ n, N ≤ n → s n = s N) ∧
  (∀ x, FloatEnv.exp2 0 = some x → (FloatEnv.log2 x).isSome) ∧
  (∀ a : Nat, 0 < a → a < 65536 → FloatEnv.lnLog (min f64One (FloatEnv.lnPow a)) ≤ a)

theorem fine_log2 (hl : LogsSettle) : LeafFine .log2 := by
  obtain ⟨l1, lS, l2, -⟩ := hl
  refine fine_int (w := 4) (sg := true) (by simp) (by simp)
    (fun n m => -2147483648 ≤ n ∧ (0 ≤ n → 0 ≤ m ∧ m ≤ n) ∧ ∃ x, FloatEnv.exp2 n = some x ∧ FloatEnv.log2 x = some m) ?_ ?_
  · intro s hs
    by_cases hc : ∃ i, 0 ≤ s i
    · obtain ⟨i, hi⟩ := hc
      have hnn : ∀ n, 0 ≤ s (i + n) := by
        intro n
        induction n with
        | zero => exact hi
        | succ n ih => exact ((hs (i + n)).2.1 ih).1
      refine settles_shift i ?_
      obtain ⟨N, hN⟩ := antitone_settles (f := fun n => (s (i + n)).toNat) (fun n => by
        have := (hs (i + n)).2.1 (hnn n)
        have e : i + (n + 1) = i + n + 1 := by omega
        show (s (i + (n + 1))).toNat ≤ _
        rw [e]
        omega)
      refine ⟨N, fun n hn => ?_⟩
      have h1 := hN n hn
      have h2 := hnn n
      have h3 := hnn N
      omega
    · exact lS s fun i => ⟨(hs i).1, by
        have : ¬ 0 ≤ s i := fun h => hc ⟨i, h⟩
        omega, (hs i).2.2⟩
  · intro bs v r h
    simp only [leafParse] at h
    split at h
    · cases h
    · next x m h1 =>
      split at h
      · next y h2 =>
        cases h
        obtain ⟨pre, -, hb⟩ := intBuild_intParse h1
        have hx := intBuild_ok_iff.1 ⟨_, hb⟩
        simp only [intFits, if_true, decide_eq_true_eq] at hx
        refine ⟨x, h1, ?_⟩
        cases hj : FloatEnv.log2 y with
        | none =>
          refine .inl ⟨⟨.valueError, by simp only [leafBuild, LV.toFloat, hj]⟩, ?_⟩
          rintro rfl
          have := l2 y h2
          rw [hj] at this
          cases this
        | some j =>
          obtain ⟨j1, j2, j4⟩ := l1 x y j (by omega) (by omega) h2 hj
          obtain ⟨y', hy'⟩ := Option.isSome_iff_exists.1 j4
          refine .inr ⟨j, by simp only [leafBuild, LV.toFloat, hj], ?_, ⟨by omega, j1, y, h2, hj⟩, ⟨.f64 y', ?_⟩, ?_⟩
          · simp only [intFits, if_true, decide_eq_true_eq]; omega
          · intro bs r h
            simp only [leafParse, h, hy']
          · intro a b ha hb
            exact live_build_signed (by omega) (by omega) ha hb
      · cases h

theorem lnDecode_some {a b : Int} {x : Nat} (h : lnDecode a b = some x) :
    (a = 0 ∧ x = 0) ∨ (a ≠ 0 ∧ b = 63 ∧ x = min f64One (FloatEnv.lnPow a.toNat)) := by
  unfold lnDecode at h
  split at h
  · next h0 => exact .inl ⟨h0, (Option.some.inj h).symm⟩
  · next h0 =>
    split at h
    · cases h
    · next h1 => exact .inr ⟨h0, Classical.not_not.1 h1, (Option.some.inj h).symm⟩

theorem lnEncode_min (y : Nat) : lnEncode (min f64One y) = some (0, 0) ∨
    lnEncode (min f64One y) = some (min (max 0 (FloatEnv.lnLog (min f64One y))) 61440, 63) := by
  unfold lnEncode
  split
  · exact .inl rfl
  · rw [if_pos (Nat.min_le_left _ _)]; exact .inr rfl

/-- What reading and writing a pair of 16 bit numbers does. -/
def LnStep (a b a' b' : Int) : Prop := ∃ x, lnDecode a b = some x ∧ lnEncode x = some (a', b')

theorem lnStep_facts (hl : LogsSettle) {a b : Int} (ha : 0 ≤ a) (ha' : a < 65536) {x : Nat} (h : lnDecode a b = some x) :
    ∃ a' b', lnEncode x = some (a', b') ∧ 0 ≤ a' ∧ a' ≤ a ∧ (b' = 0 ∨ (b' = 63 ∧ b = 63)) ∧ (a = 0 → b' = 0) ∧
      (a' ≠ 0 → b' = 63) ∧ (lnDecode a' b').isSome := by
  rcases lnDecode_some h with ⟨rfl, rfl⟩ | ⟨h1, rfl, rfl⟩
  · exact ⟨0, 0, by simp [lnEncode], by omega, by omega, .inl rfl, fun _ => rfl, fun h => absurd rfl h, by simp [lnDecode]⟩
  · rcases lnEncode_min (FloatEnv.lnPow a.toNat) with e | e
    · exact ⟨0, 0, e, by omega, ha, .inl rfl, fun _ => rfl, fun h => absurd rfl h, by simp [lnDecode]⟩
    · have := hl.2.2.2 a.toNat (by omega) (by omega)
      refine ⟨_, _, e, by omega, by omega, .inr ⟨rfl, rfl⟩, fun h => absurd h h1, fun _ => rfl, ?_⟩
      unfold lnDecode
      split
      · rfl
      · rw [if_neg (by simp)]; rfl

theorem fine_logNormal (hl : LogsSettle) : LeafFine .logNormal where
  read := by
    intro bs v r h
    obtain ⟨pre, e, hp⟩ := leaf_reads (by simp) (by simp) h
    refine ⟨pre, e, hp, .inr ?_⟩
    have h := reads_nil hp
    simp only [leafParse] at h
    split at h
    · cases h
    · next a b m h1 =>
      split at h
      · next x h2 =>
        cases h
        obtain ⟨m1, p1, p2⟩ := int2Parse_ok h1
        obtain ⟨pa, e1, b1⟩ := intBuild_intParse p1
        obtain ⟨pb, e2, b2⟩ := intBuild_intParse p2
        rw [List.append_nil] at e2
        subst e2 e1
        have f1 := intBuild_ok_iff.1 ⟨_, b1⟩
        have f2 := intBuild_ok_iff.1 ⟨_, b2⟩
        simp only [intFits, Bool.false_eq_true, if_false, decide_eq_true_eq] at f1 f2
        obtain ⟨a', b', q1, q2, q3, q4, q5, q6, q7⟩ := lnStep_facts hl f1.1 (by omega) h2
        obtain ⟨ca, hca⟩ := (intBuild_ok_iff (w := 2) (s := false) (v := a')).2 (by
          simp only [intFits, Bool.false_eq_true, if_false, decide_eq_true_eq]; omega)
        obtain ⟨cb, hcb⟩ := (intBuild_ok_iff (w := 2) (s := false) (v := b')).2 (by
          simp only [intFits, Bool.false_eq_true, if_false, decide_eq_true_eq]; omega)
        obtain ⟨y, hy⟩ := Option.isSome_iff_exists.1 q7
        have hbb : int2Build 2 a' b' = .ok (ca ++ cb) := by unfold int2Build; rw [hca]; dsimp only; rw [hcb]
        refine ⟨ca ++ cb, .f64 y, ?_, ?_, ?_, fun r => ?_⟩
        · simp only [leafBuild, LV.toFloat, q1, hbb]
        · simp only [List.length_append, intBuild_length b1, intBuild_length b2, intBuild_length hca, intBuild_length hcb]
        · exact live_append_le (by rw [intBuild_length b1, intBuild_length hca]) (live_build_mono q3 b1 hca)
            (live_build_mono (by omega) b2 hcb)
        · simp only [leafParse, int2Parse_int2Build hbb, hy]
      · cases h
  settle := by
    intro s hs
    have key : ∀ i, ∃ p : Int × Int, int2Build 2 p.1 p.2 = .ok (s i) ∧ 0 ≤ p.1 ∧ p.1 < 65536 ∧
        ∀ q : Int × Int, int2Build 2 q.1 q.2 = .ok (s (i + 1)) → ∃ x, lnDecode p.1 p.2 = some x ∧ lnEncode x = some q := by
      intro i
      obtain ⟨v, r1, r2⟩ := hs i
      have h := reads_nil r1
      simp only [leafParse] at h
      split at h
      · cases h
      · next a b m h1 =>
        split at h
        · next x h2 =>
          cases h
          obtain ⟨pre, e, hb⟩ := int2Build_int2Parse h1
          rw [List.append_nil] at e
          subst e
          obtain ⟨m1, p1, p2⟩ := int2Parse_ok h1
          obtain ⟨pa, e1, b1⟩ := intBuild_intParse p1
          have f1 := intBuild_ok_iff.1 ⟨_, b1⟩
          simp only [intFits, Bool.false_eq_true, if_false, decide_eq_true_eq] at f1
          refine ⟨(a, b), hb, f1.1, by simpa using f1.2, ?_⟩
          intro q hq
          refine ⟨x, h2, ?_⟩
          obtain ⟨a', b', q1, -⟩ := lnStep_facts hl f1.1 (by omega) h2
          simp only [leafBuild, LV.toFloat, q1] at r2
          have y1 := int2Parse_int2Build r2 []
          have y2 := int2Parse_int2Build hq []
          rw [y1] at y2
          injection y2 with y2
          rw [q1]
          cases q
          injection y2 with y2 y3
          injection y3 with y3
          rw [y2, y3]
        · cases h
    have hex : ∃ t : Nat → Int × Int, ∀ i, int2Build 2 (t i).1 (t i).2 = .ok (s i) ∧ 0 ≤ (t i).1 ∧ (t i).1 < 65536 ∧
        ∀ q : Int × Int, int2Build 2 q.1 q.2 = .ok (s (i + 1)) → ∃ x, lnDecode (t i).1 (t i).2 = some x ∧ lnEncode x = some q :=
      ⟨fun i => (key i).choose, fun i => (key i).choose_spec⟩
    obtain ⟨t, ht⟩ := hex
    have hstep : ∀ i, (t (i + 1)).1 ≤ (t i).1 ∧ ((t i).1 = 0 → (t (i + 1)).2 = 0) ∧
        ((t (i + 1)).1 ≠ 0 → (t (i + 1)).2 = 63) := by
      intro i
      obtain ⟨x, h1, h2⟩ := (ht i).2.2.2 (t (i + 1)) (ht (i + 1)).1
      obtain ⟨a', b', q1, q2, q3, q4, q5, q6, q7⟩ := lnStep_facts hl (ht i).2.1 (ht i).2.2.1 h1
      rw [h2] at q1
      have q1 := Option.some.inj q1
      rw [q1]
      exact ⟨q3, q5, q6⟩
    obtain ⟨N, hN⟩ := antitone_settles (f := fun i => (t i).1.toNat) (fun i => by
      have := (hstep i).1
      have := (ht i).2.1
      omega)
    refine settles_const (N + 1) fun i hi => ?_
    have e1 : (t i).1 = (t N).1 := by
      have h1 : (t i).1.toNat = (t N).1.toNat := hN i (by omega)
      have := (ht i).2.1
      have := (ht N).2.1
      omega
    have e2 : (t (i + 1)).1 = (t N).1 := by
      have h1 : (t (i + 1)).1.toNat = (t N).1.toNat := hN (i + 1) (by omega)
      have := (ht (i + 1)).2.1
      have := (ht N).2.1
      omega
    have e0 : (t (i - 1)).1 = (t N).1 := by
      have h1 : (t (i - 1)).1.toNat = (t N).1.toNat := hN (i - 1) (by omega)
      have := (ht (i - 1)).2.1
      have := (ht N).2.1
      omega
    have s0 := hstep (i - 1)
    rw [show i - 1 + 1 = i by omega] at s0
    have s1 := hstep i
    have e3 : (t (i + 1)).2 = (t i).2 := by
      by_cases hz : (t N).1 = 0
      · rw [s1.2.1 (by omega), s0.2.1 (by omega)]
      · rw [s1.2.2 (by omega), s0.2.2 (by omega)]
    have := (ht (i + 1)).1
    rw [e2, ← e1, e3, (ht i).1] at this
    exact (Except.ok.inj this).symm

/-! ### Structs -/

/-- Structs whose fields are optional, perhaps with the remaining bytes at the end. -/
inductive Opts : Fields → Prop
  | nil : Opts []
  | reqRest (n : String) : Opts [(n, .req .greedy)]
  | optRest (n : String) : Opts [(n, .opt .greedy)]
  | cons (n : String) {l : Leaf} {fs : Fields} : LeafFine l → Opts fs → Opts ((n, .opt l) :: fs)

/-- Reading a struct and writing it. -/
def StructStep (cx : Ctx) (fs : Fields) (a b : Bytes) : Prop :=
  ∃ rec r, structParse cx fs a = .ok (rec, r) ∧ structBuild cx fs rec = .ok b

/-- The three things that can happen to the first field. -/
theorem step_cons {cx : Ctx} {n : String} {l : Leaf} {fs : Fields} (hl : LeafFine l) {a b : Bytes}
    (h : StructStep cx ((n, .opt l) :: fs) a b) :
    (∃ v pre r c t v', a = pre ++ r ∧ Reads l pre v ∧ leafBuild l (some v) = .ok c ∧ c.length = pre.length ∧
      live c ≤ live pre ∧ Reads l c v' ∧ StructStep cx fs r t ∧ b = c ++ t) ∨
    (∃ pre r, a = pre ++ r ∧ 0 < live pre ∧ StructStep cx fs r b) ∨
    (∃ e t, leafParse l a = .error e ∧ StructStep cx fs a t ∧ ((l ≠ .flag ∧ b = t) ∨ (l = .flag ∧ b = 0 :: t))) := by
  obtain ⟨rec, r, h1, h2⟩ := h
  obtain ⟨v, m, rec', p1, p2, rfl⟩ := structParse_cons h1
  simp only [structBuild, if_true] at h2
  split at h2
  · cases h2
  · next c hc =>
    split at h2
    · cases h2
    · next t ht =>
      have h2 := Except.ok.inj h2
      subst h2
      have hst : StructStep cx fs m t := ⟨rec', r, p2, ht⟩
      simp only [fldParse] at p1
      split at p1
      · next x m' hx =>
        cases p1
        obtain ⟨pre, e, hr, hor⟩ := hl.read hx
        simp only [fldBuild] at hc
        rcases hor with ⟨⟨er, her⟩, hpos⟩ | ⟨c', v', q1, q2, q3, q4⟩
        · rw [her] at hc
          have hc := Except.ok.inj hc
          subst hc
          exact .inr (.inl ⟨pre, m, e, hpos, hst⟩)
        · rw [q1] at hc
          have hc := Except.ok.inj hc
          subst hc
          exact .inl ⟨x, pre, m, c', t, v', e, hr, q1, q2, q3, q4, hst, rfl⟩
      · next er her =>
        cases p1
        refine .inr (.inr ⟨er, t, her, hst, ?_⟩)
        by_cases hf : l = .flag
        · subst hf
          simp only [fldBuild, leafBuild] at hc
          have hc := Except.ok.inj hc
          subst hc
          exact .inr ⟨rfl, rfl⟩
        · simp only [fldBuild, leafBuild_none_error hf] at hc
          have hc := Except.ok.inj hc
          subst hc
          exact .inl ⟨hf, rfl⟩

/-- Saving never adds a byte that is not zero after the last one. -/
theorem live_step {cx : Ctx} {fs : Fields} (h : Opts fs) {a b : Bytes} (hs : StructStep cx fs a b) : live b ≤ live a := by
  induction h generalizing a b with
  | nil =>
    obtain ⟨rec, r, h1, h2⟩ := hs
    cases h1
    cases h2
    exact Nat.zero_le _
  | reqRest n =>
    obtain ⟨rec, r, h1, h2⟩ := hs
    cases h1
    simp [structBuild, fldBuild, leafBuild] at h2
    rw [h2]
  | optRest n =>
    obtain ⟨rec, r, h1, h2⟩ := hs
    cases h1
    simp [structBuild, fldBuild, leafBuild] at h2
    rw [h2]
  | @cons n l fs hl _ ih =>
    rcases step_cons hl hs with ⟨v, pre, r, c, t, v', rfl, -, -, h2, h3, -, h4, rfl⟩ | ⟨pre, r, rfl, h1, h2⟩ |
      ⟨e, t, h1, h2, ⟨-, rfl⟩ | ⟨rfl, rfl⟩⟩
    · exact live_append_le h2 h3 (ih h4)
    · have := ih h2
      rw [live_append]
      split <;> omega
    · exact ih h2
    · have hi := ih h2
      cases a with
      | nil =>
        simp only [live] at hi ⊢
        rw [if_neg (by omega)]
        simp
      | cons x xs => cases h1

/-- A dropped field shortens what is saved. -/
theorem live_drop {cx : Ctx} {fs : Fields} (h : Opts fs) {pre r b : Bytes} (hp : 0 < live pre) (hs : StructStep cx fs r b) :
    live b < live (pre ++ r) := by
  have := live_step h hs
  have := live_le pre
  rw [live_append]
  split <;> omega

/-- Structs of optional fields settle. -/
theorem opts_settle (cx : Ctx) {fs : Fields} (h : Opts fs) : Settles (StructStep cx fs) := by
  induction h with
  | nil =>
    intro s hs
    refine settles_const 1 fun i hi => ?_
    have key : ∀ i, s (i + 1) = [] := by
      intro i
      obtain ⟨rec, r, h1, h2⟩ := hs i
      cases h1
      exact (Except.ok.inj h2).symm
    rw [key i, show i = i - 1 + 1 by omega, key (i - 1)]
  | reqRest n =>
    intro s hs
    refine settles_const 0 fun i hi => ?_
    obtain ⟨rec, r, h1, h2⟩ := hs i
    cases h1
    simp [structBuild, fldBuild, leafBuild] at h2
    exact h2.symm
  | optRest n =>
    intro s hs
    refine settles_const 0 fun i hi => ?_
    obtain ⟨rec, r, h1, h2⟩ := hs i
    cases h1
    simp [structBuild, fldBuild, leafBuild] at h2
    exact h2.symm
  | @cons n l fs hl ho ih =>
    intro s hs
    obtain ⟨N0, hN0⟩ := antitone_settles (f := fun i => live (s i)) (fun i => live_step (.cons n hl ho) (hs i))
    have nodrop : ∀ i, N0 ≤ i → ∀ pre r, s i = pre ++ r → 0 < live pre → ¬ StructStep cx fs r (s (i + 1)) := by
      intro i hi pre r e hp hst
      have h1 := live_drop ho hp hst
      rw [← e] at h1
      have h2 : live (s i) = live (s N0) := hN0 i hi
      have h3 : live (s (i + 1)) = live (s N0) := hN0 (i + 1) (by omega)
      omega
    by_cases hex : ∃ i, N0 ≤ i ∧ ∃ v r, leafParse l (s i) = .ok (v, r)
    · obtain ⟨i, hi, v, r, hv⟩ := hex
      obtain ⟨pre, e, hr, -⟩ := hl.read hv
      have step : ∀ j, (∃ v, Reads l ((s (i + j)).take pre.length) v) → pre.length ≤ (s (i + j)).length →
          (∃ v, Reads l ((s (i + j)).take pre.length) v ∧ leafBuild l (some v) = .ok ((s (i + (j + 1))).take pre.length)) ∧
          StructStep cx fs ((s (i + j)).drop pre.length) ((s (i + (j + 1))).drop pre.length) ∧
          (∃ v, Reads l ((s (i + (j + 1))).take pre.length) v) ∧ pre.length ≤ (s (i + (j + 1))).length := by
        intro j ⟨v, hv⟩ hlen
        have hp := hv ((s (i + j)).drop pre.length)
        rw [List.take_append_drop] at hp
        rcases step_cons hl (hs (i + j)) with ⟨w, pre', r', c, t, v', e1, h2, h3, h4, -, h5, h6, h7⟩ | ⟨pre', r', e1, h2, h3⟩ |
          ⟨er, t, h1, -⟩
        · have hp' := h2 r'
          rw [← e1, hp] at hp'
          injection hp' with hp'
          injection hp' with q1 q2
          have hpl : pre'.length = pre.length := by
            have := congrArg List.length e1
            rw [List.length_append, ← q2, List.length_drop] at this
            omega
          have e2 : (s (i + j)).take pre.length = pre' := by rw [e1]; exact List.take_left' hpl
          have e3 : (s (i + j)).drop pre.length = r' := by rw [e1]; exact List.drop_left' hpl
          have e4 : (s (i + (j + 1))).take pre.length = c := by
            rw [← Nat.add_assoc, h7]; exact List.take_left' (by omega)
          have e5 : (s (i + (j + 1))).drop pre.length = t := by
            rw [← Nat.add_assoc, h7]; exact List.drop_left' (by omega)
          rw [e2, e3, e4, e5]
          refine ⟨⟨w, h2, h3⟩, h6, ⟨v', h5⟩, ?_⟩
          rw [← Nat.add_assoc, h7, List.length_append]; omega
        · exact absurd h3 (nodrop (i + j) (by omega) pre' r' e1 h2)
        · rw [hp] at h1; cases h1
      have inv : ∀ j, (∃ v, Reads l ((s (i + j)).take pre.length) v) ∧ pre.length ≤ (s (i + j)).length := by
        intro j
        induction j with
        | zero =>
          rw [Nat.add_zero]
          refine ⟨⟨v, ?_⟩, by rw [e, List.length_append]; omega⟩
          rw [e, List.take_left' rfl]; exact hr
        | succ j ihj => exact (step j ihj.1 ihj.2).2.2
      have a1 := hl.settle (fun j => (s (i + j)).take pre.length) (fun j => (step j (inv j).1 (inv j).2).1)
      have a2 := ih (fun j => (s (i + j)).drop pre.length) (fun j => (step j (inv j).1 (inv j).2).2.1)
      obtain ⟨N, hN⟩ := settles_both a1 a2
      refine settles_shift i ⟨N, fun n hn => ?_⟩
      obtain ⟨c1, c2⟩ := hN n hn
      rw [← List.take_append_drop pre.length (s (i + n)), c1, c2, List.take_append_drop]
    · have hstep : ∀ i, N0 ≤ i → ∃ t, StructStep cx fs (s i) t ∧ ((l ≠ .flag ∧ s (i + 1) = t) ∨ (l = .flag ∧ s (i + 1) = 0 :: t)) := by
        intro i hi
        rcases step_cons hl (hs i) with ⟨w, pre', r', c, t, v', e1, h2, -⟩ | ⟨pre', r', e1, h2, h3⟩ | ⟨er, t, h1, h2, h3⟩
        · exact absurd ⟨i, hi, w, r', by rw [e1]; exact h2 r'⟩ hex
        · exact absurd h3 (nodrop i hi pre' r' e1 h2)
        · exact ⟨t, h2, h3⟩
      have hnf : l ≠ .flag := by
        rintro rfl
        obtain ⟨t, h1, ⟨h2, -⟩ | ⟨-, h2⟩⟩ := hstep N0 (Nat.le_refl _)
        · exact h2 rfl
        · exact hex ⟨N0 + 1, by omega, _, _, by rw [h2]; rfl⟩
      refine settles_shift N0 (ih (fun j => s (N0 + j)) fun j => ?_)
      obtain ⟨t, h1, ⟨-, h2⟩ | ⟨h2, -⟩⟩ := hstep (N0 + j) (by omega)
      · show StructStep cx fs (s (N0 + j)) (s (N0 + (j + 1)))
        rw [← Nat.add_assoc, h2]
        exact h1
      · exact absurd h2 hnf

end PyFLP
