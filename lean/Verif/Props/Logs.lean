import Verif.Logs
import Verif.SavedAs
import Verif.Props.Files
import Verif.Props.Settles
import Verif.Props.ItemsSaved
import Verif.Props.Savable
/-!
# Positions, lengths and stretch factors (C126)

`Channel` stores the start and the length of a sample (`fx.start`, `fx.length`) and the factor of its time stretching
(`stretching.multiplier`) as logarithms: whole numbers of 1/4096 and 1/10000 octaves.  What follows says how precise that is,
if `math.log2` and `**` of the interpreter are right up to `ε` of such a step (`Accurate`, in `Logs.lean`).
-/

namespace PyFLP

namespace Spec

/-- How many 1/10000 octaves a factor is above 1. -/
noncomputable def steps (x : Nat) : ℝ := 10000 * Real.logb 2 (f64Val x)

/-- How many 1/4096 octaves a position is above 2^-15. -/
noncomputable def fineSteps (x : Nat) : ℝ := 4096 * (Real.logb 2 (f64Val x) + 15)

/-- What a field can store: factors that are neither astronomically large nor small, positions from 0 to 1; other fields store
what they can store exactly. -/
def logOK [FloatEnv] : Leaf → LV → Prop
  | .log2, .f64 x => Positive x ∧ |Real.logb 2 (f64Val x)| ≤ 999
  | .logNormal, .f64 x => x = 0 ∨ (Positive x ∧ x ≤ f64One)
  | l, v => leafValid l v

/-- The same for the record of a channel, field by field up to the last one that is present. -/
def recOK [FloatEnv] (cx : Ctx) : Fields → Rec → Prop
  | (n, .opt l) :: fs, (n', some x) :: rec => n = n' ∧ l ≠ .greedy ∧ logOK l x ∧ recOK cx fs rec
  | fs, rec => validFields cx fs rec

/-- What is read when `x` was stored.

* A factor comes back less than a step away; one above 1 does not grow, one below 1 does not shrink.
* A position comes back less than a step smaller, and does not grow.  The smallest ones, and 0, come back as 0.
* Everything else comes back as it was. -/
def near (ε : ℝ) : Leaf → LV → LV → Prop
  | .log2, .f64 x, v => ∃ y, v = .f64 y ∧ Positive y ∧ |steps y - steps x| < 1 + 2 * ε ∧
      (0 ≤ steps x → steps y ≤ steps x + 2 * ε) ∧ (steps x ≤ 0 → steps x - 2 * ε ≤ steps y)
  | .logNormal, .f64 x, v => ∃ y, v = .f64 y ∧ y ≤ f64One ∧ (x = 0 → y = 0) ∧
      (x ≠ 0 → (y = 0 ∧ fineSteps x < 1 + ε) ∨
        (Positive y ∧ fineSteps x - 1 - 2 * ε < fineSteps y ∧ fineSteps y ≤ fineSteps x + 2 * ε))
  | _, x, v => v = x

def recNear (ε : ℝ) : Fields → Rec → Rec → Prop
  | (n, .opt l) :: fs, (a, some x) :: rec, (b, some y) :: rec' => a = n ∧ b = n ∧ near ε l x y ∧ recNear ε fs rec rec'
  | _, rec, rec' => rec' = rec

/-- An event that can be stored exactly, or the parameters of a channel. -/
def FitsOrLog [FloatEnv] (e : Event) : Prop :=
  validValue e.kind e.len e.value ∨
    (e.id = 215 ∧ e.kind = .struct .parameters ∧ ∃ rec, e.value = .fields rec ∧ recOK ⟨e.len⟩ (SName.fields .parameters) rec)

/-- An event and what is read when it was stored. -/
def ReadNear (ε : ℝ) (e e' : Event) : Prop :=
  e'.id = e.id ∧ e'.kind = e.kind ∧
    (e'.value = e.value ∨
      ∃ rec rec', e.id = 215 ∧ e.value = .fields rec ∧ e'.value = .fields rec' ∧ recNear ε (SName.fields .parameters) rec rec')

end Spec

open Spec

/-! ## Numbers -/

theorem val_parts {b : Nat} (h : Positive b) : b / 2 ^ 63 = 0 ∧ b / 2 ^ 52 % 2048 = b / 2 ^ 52 ∧ b / 2 ^ 52 < 2047 := by
  obtain ⟨h1, h2⟩ := h
  omega

theorem val_pos {b : Nat} (h : Positive b) : 0 < f64Val b := by
  obtain ⟨a, e, l⟩ := val_parts h
  have h1 := h.1
  unfold f64Val
  rw [a, e, if_neg (by decide), one_mul]
  split
  · rename_i hz
    have : 0 < b % 2 ^ 52 := by omega
    have : (0 : ℝ) < ((b % 2 ^ 52 : Nat) : ℝ) := by exact_mod_cast this
    positivity
  · positivity

theorem val_one : f64Val f64One = 1 := by
  unfold f64Val f64One
  norm_num

theorem val_le_one {b : Nat} (h : Positive b) (hb : b ≤ f64One) : f64Val b ≤ 1 := by
  rcases Nat.lt_or_eq_of_le hb with hb | rfl
  · obtain ⟨a, e, l⟩ := val_parts h
    unfold f64One at hb
    have hE : b / 2 ^ 52 < 1023 := by omega
    have hM : b % 2 ^ 52 < 2 ^ 52 := Nat.mod_lt _ (by positivity)
    unfold f64Val
    rw [a, e, if_neg (by decide), one_mul]
    generalize b % 2 ^ 52 = M at *
    generalize b / 2 ^ 52 = E at *
    split
    · have : (M : ℝ) ≤ 2 ^ (52 : ℤ) := by exact_mod_cast hM.le
      calc (M : ℝ) * 2 ^ (-1074 : ℤ) ≤ 2 ^ (52 : ℤ) * 2 ^ (-1074 : ℤ) := mul_le_mul_of_nonneg_right this (by positivity)
        _ = 2 ^ (-1022 : ℤ) := by rw [← zpow_add₀ (by norm_num)]; norm_num
        _ ≤ 1 := zpow_le_one_of_nonpos₀ (by norm_num) (by norm_num)
    · have : (((2 ^ 52 + M : Nat)) : ℝ) ≤ 2 ^ (53 : ℤ) := by
        have : 2 ^ 52 + M ≤ 2 ^ 53 := by omega
        exact_mod_cast this
      calc (((2 ^ 52 + M : Nat)) : ℝ) * 2 ^ ((E : ℤ) - 1075) ≤ 2 ^ (53 : ℤ) * 2 ^ ((E : ℤ) - 1075) :=
            mul_le_mul_of_nonneg_right this (by positivity)
        _ = 2 ^ (53 + ((E : ℤ) - 1075)) := by rw [← zpow_add₀ (by norm_num)]
        _ ≤ 1 := zpow_le_one_of_nonpos₀ (by norm_num) (by omega)
  · rw [val_one]

theorem val_ge_one {b : Nat} (h : Positive b) (hb : f64One ≤ b) : 1 ≤ f64Val b := by
  obtain ⟨a, e, l⟩ := val_parts h
  unfold f64One at hb
  have hE : 1023 ≤ b / 2 ^ 52 := by omega
  unfold f64Val
  rw [a, e, if_neg (by decide), one_mul]
  generalize b % 2 ^ 52 = M at *
  generalize b / 2 ^ 52 = E at *
  rw [if_neg (by omega)]
  have : (2 : ℝ) ^ (52 : ℤ) ≤ (((2 ^ 52 + M : Nat)) : ℝ) := by
    have : 2 ^ 52 ≤ 2 ^ 52 + M := by omega
    exact_mod_cast this
  calc (1 : ℝ) ≤ 2 ^ (52 + ((E : ℤ) - 1075)) := one_le_zpow₀ (by norm_num) (by omega)
    _ = 2 ^ (52 : ℤ) * 2 ^ ((E : ℤ) - 1075) := by rw [← zpow_add₀ (by norm_num)]
    _ ≤ _ := mul_le_mul_of_nonneg_right this (by positivity)

theorem fineSteps_one : fineSteps f64One = 61440 := by
  unfold fineSteps
  rw [val_one, Real.logb_one]
  norm_num

theorem fineSteps_le {b : Nat} (h : Positive b) (hb : b ≤ f64One) : fineSteps b ≤ 61440 := by
  have h1 := val_le_one h hb
  have : Real.logb 2 (f64Val b) ≤ 0 := Real.logb_nonpos (by norm_num) (val_pos h).le h1
  unfold fineSteps
  linarith

theorem fineSteps_ge {b : Nat} (h : Positive b) (hb : f64One ≤ b) : 61440 ≤ fineSteps b := by
  have h1 := val_ge_one h hb
  have : 0 ≤ Real.logb 2 (f64Val b) := Real.logb_nonneg (by norm_num) h1
  unfold fineSteps
  linarith

section
variable [env : FloatEnv] {ε : ℝ}

/-- Storing and reading a factor. -/
theorem factor_leaf (hA : Accurate env ε) (hε : ε < 1) {x : Nat} (hx : Positive x) (hr : |Real.logb 2 (f64Val x)| ≤ 999) :
    ∃ c v, leafBuild .log2 (some (.f64 x)) = .ok c ∧ (∀ rest, leafParse .log2 (c ++ rest) = .ok (v, rest)) ∧
      near ε .log2 (.f64 x) v := by
  obtain ⟨t, t1, t2⟩ := hA.log2 x hx
  rw [abs_le] at t1 hr
  have hk : |cut t| ≤ 10000000 := by
    obtain ⟨c1, c2⟩ := cut_bounds t
    have : |((cut t : ℤ) : ℝ)| ≤ 10000000 := by
      rw [abs_le]
      rcases le_total 0 t with h | h
      · have := c1 h
        constructor <;> linarith
      · have := c2 h
        constructor <;> linarith
    exact_mod_cast this
  obtain ⟨y, y1, y2, y3⟩ := hA.exp2 (cut t) hk
  obtain ⟨c, hc⟩ := intBuild_ok_iff.2 (show intFits 4 true (cut t) = true by
    rw [abs_le] at hk
    simp only [intFits, if_true, decide_eq_true_eq]
    omega)
  refine ⟨c, .f64 y, ?_, ?_, y, rfl, y2, ?_⟩
  · simp only [leafBuild, LV.toFloat]
    rw [t2]
    exact hc
  · intro rest
    simp only [leafParse]
    rw [intParse_intBuild hc]
    dsimp only
    rw [y1]
  · rw [abs_le] at y3
    obtain ⟨c1, c2⟩ := cut_bounds t
    unfold steps
    generalize Real.logb 2 (f64Val y) = b at *
    generalize Real.logb 2 (f64Val x) = a at *
    rw [abs_lt]
    rcases le_total 0 t with h | h
    · have hh := c1 h
      refine ⟨⟨by linarith, by linarith⟩, fun _ => by linarith, fun ha => ?_⟩
      have h0 : cut t = 0 := cut_zero (by linarith) (by linarith)
      rw [h0] at y3
      push_cast at y3
      linarith
    · have hh := c2 h
      refine ⟨⟨by linarith, by linarith⟩, fun ha => ?_, fun _ => by linarith⟩
      have h0 : cut t = 0 := cut_zero (by linarith) (by linarith)
      rw [h0] at y3
      push_cast at y3
      linarith

/-- Storing and reading a position. -/
theorem position_leaf (hA : Accurate env ε) {x : Nat} (hx : x = 0 ∨ (Positive x ∧ x ≤ f64One)) :
    ∃ c v, leafBuild .logNormal (some (.f64 x)) = .ok c ∧ (∀ rest, leafParse .logNormal (c ++ rest) = .ok (v, rest)) ∧
      near ε .logNormal (.f64 x) v := by
  have build : ∀ a b : Int, 0 ≤ a → a < 65536 → 0 ≤ b → b < 65536 → ∃ c, int2Build 2 a b = .ok c := by
    intro a b h1 h2 h3 h4
    obtain ⟨c, hc⟩ := intBuild_ok_iff.2 (show intFits 2 false a = true by simp [intFits]; omega)
    obtain ⟨d, hd⟩ := intBuild_ok_iff.2 (show intFits 2 false b = true by simp [intFits]; omega)
    exact ⟨c ++ d, by unfold int2Build; rw [hc, hd]⟩
  rcases hx with rfl | ⟨hx, hle⟩
  · obtain ⟨c, hc⟩ := build 0 0 (by omega) (by omega) (by omega) (by omega)
    refine ⟨c, .f64 0, ?_, ?_, 0, rfl, Nat.zero_le _, fun _ => rfl, fun h => absurd rfl h⟩
    · simp only [leafBuild, LV.toFloat, lnEncode]
      rw [if_pos (Or.inl trivial)]
      exact hc
    · intro rest
      simp only [leafParse]
      rw [int2Parse_int2Build hc]
      dsimp only [lnDecode]
      rw [if_pos rfl]
  · obtain ⟨t, t1, t2⟩ := hA.lnLog x hx hle
    rw [abs_le] at t1
    have hx0 : x ≠ 0 := by have := hx.1; omega
    have henc : lnEncode x = some (min (max 0 (cut t)) 61440, 63) := by
      unfold lnEncode
      rw [if_neg (by have := hx.2; rintro (h | h) <;> omega), if_pos hle]
      show some (min (max 0 (env.lnLog x)) 61440, (63 : ℤ)) = _
      rw [t2]
    obtain ⟨c, hc⟩ := build (min (max 0 (cut t)) 61440) 63 (by omega) (by omega) (by omega) (by omega)
    have hb : leafBuild .logNormal (some (.f64 x)) = .ok c := by
      simp only [leafBuild, LV.toFloat]
      rw [henc]
      exact hc
    obtain ⟨c1, c2⟩ := cut_bounds t
    have hxs := fineSteps_le hx hle
    change -ε ≤ t - fineSteps x ∧ t - fineSteps x ≤ ε at t1
    by_cases hz : cut t ≤ 0
    · refine ⟨c, .f64 0, hb, ?_, 0, rfl, Nat.zero_le _, fun h => absurd h hx0, fun _ => .inl ⟨rfl, ?_⟩⟩
      · intro rest
        simp only [leafParse]
        rw [int2Parse_int2Build hc]
        dsimp only [lnDecode]
        rw [if_pos (by omega)]
      · have hz' : ((cut t : ℤ) : ℝ) ≤ 0 := by exact_mod_cast hz
        rcases le_total 0 t with h | h
        · have := c1 h
          linarith
        · linarith
    · obtain ⟨n, hn⟩ : ∃ n : Nat, min (max 0 (cut t)) 61440 = n := ⟨(min (max 0 (cut t)) 61440).toNat, by omega⟩
      obtain ⟨l1, l2⟩ := hA.lnPow n (by omega) (by omega)
      rw [abs_le] at l2
      change -ε ≤ fineSteps (env.lnPow n) - n ∧ fineSteps (env.lnPow n) - n ≤ ε at l2
      have htpos : 0 ≤ t := by
        rcases le_total 0 t with h | h
        · exact h
        · have := (c2 h).2
          have h1 : (1 : ℝ) ≤ ((cut t : ℤ) : ℝ) := by exact_mod_cast (show 1 ≤ cut t by omega)
          linarith
      have hct := c1 htpos
      have hle' : (n : ℝ) ≤ ((cut t : ℤ) : ℝ) := by
        have : (n : ℤ) ≤ cut t := by omega
        exact_mod_cast this
      have hge : ((cut t : ℤ) : ℝ) ≤ n ∨ (n : ℝ) = 61440 := by
        rcases le_total (cut t) 61440 with h | h
        · left
          have : cut t ≤ (n : ℤ) := by omega
          exact_mod_cast this
        · right
          have : n = 61440 := by omega
          exact_mod_cast this
      refine ⟨c, .f64 (min f64One (env.lnPow n)), hb, ?_, _, rfl, Nat.min_le_left _ _, fun h => absurd h hx0, fun _ => .inr ?_⟩
      · intro rest
        simp only [leafParse]
        rw [int2Parse_int2Build hc, hn]
        dsimp only [lnDecode]
        rw [if_neg (by omega), if_neg (by simp), Int.toNat_natCast]
      · rcases le_total f64One (env.lnPow n) with h | h
        · rw [Nat.min_eq_left h, fineSteps_one]
          have := fineSteps_ge l1 h
          refine ⟨⟨by decide, by decide⟩, ?_, by linarith⟩
          have : 0 ≤ ε := by linarith
          linarith
        · rw [Nat.min_eq_right h]
          refine ⟨l1, ?_, by linarith⟩
          have : 0 ≤ ε := by linarith
          rcases hge with h | h <;> linarith

theorem leaf_near (hA : Accurate env ε) (hε : ε < 1) {l : Leaf} (hl : l ≠ .greedy) {x : LV} (hx : logOK l x) :
    ∃ c v, leafBuild l (some x) = .ok c ∧ (∀ rest, leafParse l (c ++ rest) = .ok (v, rest)) ∧ near ε l x v := by
  by_cases h1 : ∃ n, l = .log2 ∧ x = .f64 n
  · obtain ⟨n, rfl, rfl⟩ := h1
    exact factor_leaf hA hε hx.1 hx.2
  by_cases h2 : ∃ n, l = .logNormal ∧ x = .f64 n
  · obtain ⟨n, rfl, rfl⟩ := h2
    exact position_leaf hA hx
  have hv : leafValid l x := by
    unfold logOK at hx
    split at hx
    · exact absurd ⟨_, rfl, rfl⟩ h1
    · exact absurd ⟨_, rfl, rfl⟩ h2
    · exact hx
  obtain ⟨c, q1, q2⟩ := leafRT_of_valid hv
  refine ⟨c, x, q1, fun rest => q2 rest (fun h => absurd h hl), ?_⟩
  unfold near
  split
  · exact absurd ⟨_, rfl, rfl⟩ h1
  · exact absurd ⟨_, rfl, rfl⟩ h2
  · rfl

theorem rec_near (hA : Accurate env ε) (hε : ε < 1) {cx : Ctx} : ∀ {fs : Fields} {rec : Rec}, recOK cx fs rec →
    ∃ bs rec', structBuild cx fs rec = .ok bs ∧ structParse cx fs bs = .ok (rec', []) ∧ recNear ε fs rec rec' := by
  intro fs
  induction fs with
  | nil =>
    intro rec h
    obtain ⟨bs, b1, b2⟩ := struct_roundtrip cx (show validFields cx [] rec by cases rec <;> exact h)
    exact ⟨bs, rec, b1, b2, by cases rec <;> rfl⟩
  | cons nf fs ih =>
    intro rec h
    by_cases hc : ∃ n l n' x rec', nf = (n, .opt l) ∧ rec = (n', some x) :: rec'
    · obtain ⟨n, l, n', x, rec, rfl, rfl⟩ := hc
      obtain ⟨rfl, hg, hl, hr⟩ := h
      obtain ⟨c, v, c1, c2, c3⟩ := leaf_near hA hε hg hl
      obtain ⟨bs, rec', b1, b2, b3⟩ := ih hr
      exact ⟨c ++ bs, (n, some v) :: rec', by simp [structBuild, fldBuild, c1, b1], by simp [structParse, fldParse, c2 bs, b2],
        rfl, rfl, c3, b3⟩
    · have hv : validFields cx (nf :: fs) rec := by
        unfold recOK at h
        split at h
        · next heq =>
          obtain ⟨rfl, rfl⟩ := List.cons.inj heq
          exact absurd ⟨_, _, _, _, _, rfl, rfl⟩ hc
        · exact h
      obtain ⟨bs, b1, b2⟩ := struct_roundtrip cx hv
      refine ⟨bs, rec, b1, b2, ?_⟩
      unfold recNear
      split
      · next heq _ =>
        obtain ⟨rfl, rfl⟩ := List.cons.inj heq
        exact absurd ⟨_, _, _, _, _, rfl, rfl⟩ hc
      · rfl

theorem parameters_ctx (a b : Nat) (bs : Bytes) :
    structParse ⟨a⟩ (SName.fields .parameters) bs = structParse ⟨b⟩ (SName.fields .parameters) bs :=
  structParse_ctx (by
    have hall : ∀ nf ∈ SName.fields .parameters, (match nf.2 with | .ifLen _ _ | .ifNew _ => false | _ => true) = true := by
      decide +kernel
    intro nf hnf
    have := hall nf hnf
    cases hf : nf.2 <;> rw [hf] at this <;> trivial) bs

theorem event_near (hA : Accurate env ε) (hε : ε < 1) {e : Event} (he : FitsOrLog e) : ∃ e', WrittenAs e e' ∧ ReadNear ε e e' := by
  rcases he with hv | ⟨hid, hk, rec, hrec, hok⟩
  · exact ⟨e.reread, writtenAs_stored (stored_of (kind_roundtrip hv)), rfl, rfl, .inl rfl⟩
  · obtain ⟨bs, rec', b1, b2, b3⟩ := rec_near hA hε hok
    have hpay : e.payload = .ok bs := by
      unfold Event.payload
      rw [hk, hrec]
      exact b1
    refine ⟨⟨e.id, e.kind, .fields rec', bs.length⟩,
      ⟨⟨rfl, rfl, by rw [pay_eq hpay], ?_⟩, fun h => absurd h (by omega)⟩, rfl, rfl, .inr ⟨rec, rec', hid, hrec, rfl, b3⟩⟩
    rw [pay_eq hpay, hk]
    show (structParse ⟨bs.length⟩ (SName.fields .parameters) bs).map _ = _
    rw [parameters_ctx bs.length e.len, b2]
    rfl

/-- **C126.** Saving a project and opening the file gives back every event as it was, except that stretch factors, start
positions and lengths of channels come back less than a step away (`near`): 1/10000 of an octave for the factors, 1/4096 for
the others.  Factors move towards 1, positions and lengths towards 0. -/
theorem C126_saved (hA : Accurate env ε) (hε : ε < 1) {p : Project} {file : Bytes} (hf : p.format ∈ formats)
    (hq : p.ppq ∈ ppqs) (hwt : WellTyped p.events) (hfit : ∀ e ∈ p.events, FitsOrLog e) (h : saveBytes p = .ok file) :
    ∃ q, parseFile file = .ok q ∧ q.format = p.format ∧ q.ppq = p.ppq ∧ Pointwise (ReadNear ε) p.events q.events := by
  have hex : ∀ evs : List Event, (∀ e ∈ evs, FitsOrLog e) → ∃ evs', Pointwise WrittenAs evs evs' ∧ Pointwise (ReadNear ε) evs evs' := by
    intro evs
    induction evs with
    | nil => exact fun _ => ⟨[], .nil, .nil⟩
    | cons e evs ih =>
      intro hfit
      obtain ⟨e', a, b⟩ := event_near hA hε (hfit e (by simp))
      obtain ⟨evs', c, d⟩ := ih fun x hx => hfit x (by simp [hx])
      exact ⟨e' :: evs', .cons a c, .cons b d⟩
  obtain ⟨evs', w, n⟩ := hex p.events hfit
  exact ⟨_, parse_saved_as hf hq hwt w h, rfl, rfl, n⟩

/-! ## Saving again -/

theorem again (hA : Accurate env ε) (hε : ε < 1 / 2) {k : Int} (hk : |k| ≤ 10000000) :
    ∃ x j, env.exp2 k = some x ∧ env.log2 x = some j ∧ (j = k ∨ (0 < k ∧ j = k - 1) ∨ (k < 0 ∧ j = k + 1)) := by
  obtain ⟨x, x1, x2, x3⟩ := hA.exp2 k hk
  obtain ⟨t, t1, t2⟩ := hA.log2 x x2
  refine ⟨x, cut t, x1, t2, ?_⟩
  rw [abs_le] at x3 t1
  have h1 : (k : ℝ) - 1 < t := by linarith
  have h2 : t < (k : ℝ) + 1 := by linarith
  obtain ⟨c1, c2⟩ := cut_bounds t
  rcases lt_trichotomy k 0 with hk0 | hk0 | hk0
  · have hk1 : (k : ℝ) ≤ -1 := by exact_mod_cast (show k ≤ -1 by omega)
    have := c2 (by linarith)
    have l1 : (k : ℝ) - 1 < ((cut t : ℤ) : ℝ) := by linarith
    have l2 : ((cut t : ℤ) : ℝ) < (k : ℝ) + 2 := by linarith
    have l1' : k - 1 < cut t := by exact_mod_cast l1
    have l2' : cut t < k + 2 := by exact_mod_cast l2
    omega
  · subst hk0
    left
    exact cut_zero (by push_cast at h1; linarith) (by push_cast at h2; linarith)
  · have hk1 : (1 : ℝ) ≤ k := by exact_mod_cast (show 1 ≤ k by omega)
    have := c1 (by linarith)
    have l1 : (k : ℝ) - 2 < ((cut t : ℤ) : ℝ) := by linarith
    have l2 : ((cut t : ℤ) : ℝ) < (k : ℝ) + 1 := by linarith
    have l1' : k - 2 < cut t := by exact_mod_cast l1
    have l2' : cut t < k + 1 := by exact_mod_cast l2
    omega

/-- **C126.** Reading a stored factor and writing it again writes the same number or the next one towards zero: opening and
saving a file once moves a stretch factor by at most 1/10000 of an octave, towards 1. -/
theorem C126_factor_again (hA : Accurate env ε) (hε : ε < 1 / 2) {k : Int} (hk : |k| ≤ 10000000) {bs : Bytes}
    (hb : intBuild 4 true k = .ok bs) :
    ∃ v j bs', leafParse .log2 bs = .ok (v, []) ∧ leafBuild .log2 (some v) = .ok bs' ∧ intBuild 4 true j = .ok bs' ∧
      (j = k ∨ (0 < k ∧ j = k - 1) ∨ (k < 0 ∧ j = k + 1)) := by
  obtain ⟨x, j, h1, h2, h3⟩ := again hA hε hk
  obtain ⟨c, hc⟩ := intBuild_ok_iff.2 (show intFits 4 true j = true by
    rw [abs_le] at hk
    simp only [intFits, if_true, decide_eq_true_eq]
    omega)
  refine ⟨.f64 x, j, c, ?_, ?_, hc, h3⟩
  · simp only [leafParse]
    have := intParse_intBuild hb []
    rw [List.append_nil] at this
    rw [this]
    dsimp only
    rw [h1]
  · simp only [leafBuild, LV.toFloat]
    rw [h2]
    exact hc

/-- **C126.** So saving over and over cannot change the factors for ever: files settle (C121) if numbers that stand for less
than 2^-1000 or more than 2^1000 are refused. -/
theorem C126_settles (hA : Accurate env ε) (hε : ε < 1 / 2) (hout : ∀ k : Int, 10000000 < |k| → env.exp2 k = none) :
    LogsSettle := by
  have hin : ∀ {k : Int} {x : Nat}, env.exp2 k = some x → |k| ≤ 10000000 := by
    intro k x h
    by_contra hc
    rw [hout k (by omega)] at h
    cases h
  have hstep : ∀ {k : Int} {x : Nat} {j : Int}, env.exp2 k = some x → env.log2 x = some j →
      (j = k ∨ (0 < k ∧ j = k - 1) ∨ (k < 0 ∧ j = k + 1)) ∧ |k| ≤ 10000000 := by
    intro k x j h1 h2
    obtain ⟨x', j', a, b, c⟩ := again hA hε (hin h1)
    rw [h1] at a
    cases a
    rw [h2] at b
    cases b
    exact ⟨c, hin h1⟩
  refine ⟨?_, ?_, ?_, ?_⟩
  · intro k x j _ _ h1 h2
    obtain ⟨a, b⟩ := hstep h1 h2
    refine ⟨by omega, by omega, ?_⟩
    have hj : |j| ≤ 10000000 := by
      rw [abs_le] at b ⊢
      omega
    obtain ⟨y, hy, -⟩ := hA.exp2 j hj
    show (env.exp2 j).isSome
    rw [hy]
    rfl
  · intro s hs
    refine antitone_settles (f := fun n => (-(s n)).toNat) (fun n => ?_) |>.imp fun N hN n hn => ?_
    · obtain ⟨x, h1, h2⟩ := (hs n).2.2
      have := hstep h1 h2
      have h3 := (hs n).2.1
      show (-(s (n + 1))).toNat ≤ (-(s n)).toNat
      omega
    · have h1 := hN n hn
      have h2 := (hs n).2.1
      have h3 := (hs N).2.1
      omega
  · intro x h
    obtain ⟨x', j, a, b, -⟩ := again hA hε (k := 0) (by simp)
    have h : env.exp2 0 = some x := h
    rw [h] at a
    cases a
    show (env.log2 x).isSome
    rw [b]
    rfl
  · intro a h1 h2
    show env.lnLog (min f64One (env.lnPow a)) ≤ a
    obtain ⟨l1, l2⟩ := hA.lnPow a h1 (by omega)
    rw [abs_le] at l2
    change -ε ≤ fineSteps (env.lnPow a) - a ∧ fineSteps (env.lnPow a) - a ≤ ε at l2
    have key : ∀ {b : Nat}, Positive b → b ≤ f64One → fineSteps b ≤ a + ε → env.lnLog b ≤ a := by
      intro b b1 b2 b3
      obtain ⟨t, t1, t2⟩ := hA.lnLog b b1 b2
      rw [abs_le] at t1
      change -ε ≤ t - fineSteps b ∧ t - fineSteps b ≤ ε at t1
      rw [t2]
      have ht : t < a + 1 := by linarith
      obtain ⟨c1, c2⟩ := cut_bounds t
      have : ((cut t : ℤ) : ℝ) < (a : ℝ) + 1 := by
        rcases le_total 0 t with h | h
        · have := c1 h
          linarith
        · have := c2 h
          have ha : (1 : ℝ) ≤ a := by exact_mod_cast h1
          linarith
      have : cut t < (a : ℤ) + 1 := by exact_mod_cast this
      omega
    rcases le_total f64One (env.lnPow a) with h | h
    · rw [Nat.min_eq_left h]
      have := fineSteps_ge l1 h
      refine key ⟨by decide, by decide⟩ (le_refl _) ?_
      rw [fineSteps_one]
      linarith
    · rw [Nat.min_eq_right h]
      exact key l1 h (by linarith)

/-- **C126.** Whatever the interpreter computes, a position or length read from a file is a number from 0.0 to 1.0. -/
theorem C126_position_range {bs rest : Bytes} {v : LV} (h : leafParse .logNormal bs = .ok (v, rest)) :
    ∃ y, v = .f64 y ∧ y ≤ f64One := by
  simp only [leafParse] at h
  split at h
  · cases h
  · split at h
    · next x hx =>
      cases h
      refine ⟨x, rfl, ?_⟩
      rcases lnDecode_some hx with ⟨-, rfl⟩ | ⟨-, -, rfl⟩
      · exact Nat.zero_le _
      · exact Nat.min_le_left _ _
    · cases h

/-- **C126.** A position outside of 0.0 to 1.0 cannot be written. -/
theorem C126_position_refused {x : Nat} (hx : x ≠ 0) (hz : x ≠ 2 ^ 63) (h : f64One < x) :
    leafBuild .logNormal (some (.f64 x)) = .error .valueError := by
  simp only [leafBuild, LV.toFloat, lnEncode]
  rw [if_neg (by rintro (h | h); exact hx h; exact hz h), if_neg (by omega)]

end

/-- Exactness is more than accuracy gives: with the nearest smaller numbers for all results (right up to 2^-30 steps), the
factor stored as 1 is written as 0. -/
theorem C126_exact_refuted : ¬ ∀ (env : FloatEnv), Accurate env (2 ^ (-30 : ℤ)) →
    ∀ (k : Int) (bs : Bytes) (v : LV), |k| ≤ 10000000 → intBuild 4 true k = .ok bs →
      @leafParse env .log2 bs = .ok (v, []) → @leafBuild env .log2 (some v) = .ok bs := by
  intro h
  have hx : (0 : ℝ) < 2 ^ (((1 : ℕ) : ℝ) / ((10000 : ℕ) : ℝ)) := Real.rpow_pos_of_pos (by norm_num) _
  have i := Ideal.ilog_pow2 (y := ((1 : ℕ) : ℝ) / ((10000 : ℕ) : ℝ)) (by norm_num) (by norm_num)
  obtain ⟨d1, d2, d3, d4, m, j, d5⟩ := Ideal.down_spec hx i.1 i.2
  have hne : Ideal.down (2 ^ (((1 : ℕ) : ℝ) / ((10000 : ℕ) : ℝ))) = Ideal.down (2 ^ (((1 : ℤ) : ℝ) / 10000)) := by norm_num
  have hlt : f64Val (Ideal.down (2 ^ (((1 : ℕ) : ℝ) / ((10000 : ℕ) : ℝ)))) < 2 ^ (((1 : ℕ) : ℝ) / ((10000 : ℕ) : ℝ)) := by
    refine lt_of_le_of_ne d2 fun he => ?_
    rw [d5] at he
    exact Ideal.root_ne (by norm_num) (by norm_num) m j he.symm
  have hlog := Real.logb_lt_logb (b := 2) (by norm_num) d4 hlt
  obtain ⟨l1, l2⟩ := Ideal.down_log hx i.1 i.2
  rw [Ideal.log_pow2] at hlog l1 l2
  rw [hne] at hlog l1 l2
  norm_num at hlog l2
  have hexp : @FloatEnv.exp2 Ideal.env 1 = some (Ideal.down (2 ^ (((1 : ℤ) : ℝ) / 10000))) := if_pos (by norm_num)
  have hp : @leafParse Ideal.env .log2 [1, 0, 0, 0] = .ok (.f64 (Ideal.down (2 ^ (((1 : ℤ) : ℝ) / 10000))), []) := by
    simp only [leafParse]
    rw [show intParse 4 true [1, 0, 0, 0] = .ok (1, []) by decide +kernel]
    dsimp only
    rw [hexp]
  have := h Ideal.env Ideal.accurate 1 [1, 0, 0, 0] _ (by norm_num) (by decide +kernel) hp
  simp only [leafBuild, LV.toFloat] at this
  change intBuild 4 true (cut (10000 * Real.logb 2 (f64Val (Ideal.down (2 ^ (((1 : ℤ) : ℝ) / 10000)))))) = _ at this
  rw [cut_zero (by norm_num; linarith) (by norm_num; linarith)] at this
  exact absurd this (by decide +kernel)

/-- C126: these are the fields that are stored as logarithms. -/
theorem C126_names : ∀ nf ∈ SName.fields .parameters,
    (nf.2.leaf = .log2 ↔ nf.1 = "stretching.multiplier") ∧ (nf.2.leaf = .logNormal ↔ nf.1 = "fx.start" ∨ nf.1 = "fx.length") := by
  decide +kernel

/-! ## The hypotheses can be met -/

namespace Demo

/-- A value for every field: the stretch factor is 1.5 and start and length are 0.3. -/
def sampleValue : Leaf → LV
  | .raw n => .bytes (List.replicate n 0)
  | .greedy => .bytes []
  | .flag => .bool true
  | .f32 => .f32 0x3F800000
  | .pair32 => .pair 0 130
  | .musical => .time 1 2 5
  | .log2 => .f64 0x3FF8000000000000
  | .logNormal => .f64 0x3FD3333333333333
  | _ => .int 1

def sampleRec : Rec := (SName.fields .parameters).map fun f => (f.1, some (sampleValue f.2.leaf))

/-- A project with one channel with parameters. -/
def stretched : Project := ⟨0, 1, 96, [⟨199, .ascii, .str (PStr.lit "20.8.3"), 7⟩, ⟨64, .u16, .lv (.int 0), 2⟩,
  ⟨215, .struct .parameters, .fields sampleRec, 157⟩]⟩

theorem positive_sample : Positive 0x3FF8000000000000 ∧ Positive 0x3FD3333333333333 := by
  unfold Positive
  norm_num

theorem sample_factor : |Real.logb 2 (f64Val 0x3FF8000000000000)| ≤ 999 := by
  have h : f64Val 0x3FF8000000000000 = 3 / 2 := by
    unfold f64Val
    norm_num
  rw [h, abs_le]
  have h1 : 0 ≤ Real.logb 2 (3 / 2) := Real.logb_nonneg (by norm_num) (by norm_num)
  have h2 : Real.logb 2 (3 / 2) ≤ 1 := by
    rw [Real.logb_le_iff_le_rpow (by norm_num) (by norm_num)]
    norm_num
  constructor <;> linarith

theorem sample_ok [FloatEnv] (cx : Ctx) : recOK cx (SName.fields .parameters) sampleRec := by
  have h1 := positive_sample.1
  have h2 := positive_sample.2
  have h3 := sample_factor
  have h4 : 0x3FD3333333333333 ≤ f64One := by decide
  simp only [sampleRec, SName.fields, List.map_cons, List.map_nil, Fld.leaf, u8, u16, u32, i32, sampleValue, recOK]
  simp only [logOK, leafValid, validFields]
  simp [intFits, h1, h2, h3, h4]

theorem sample_size [FloatEnv] {cx : Ctx} : ∀ {fs : Fields}, (∀ nf ∈ fs, nf.2 = .req .greedy ∨ ∃ l k, nf.2 = .opt l ∧
      leafSize l = some k ∧ k ≤ 28) → ∀ {bs : Bytes},
    structBuild cx fs (fs.map fun f => (f.1, some (sampleValue f.2.leaf))) = .ok bs → bs.length ≤ 28 * fs.length := by
  intro fs
  induction fs with
  | nil =>
    intro _ bs h
    cases h
    simp
  | cons nf fs ih =>
    intro hall bs h
    obtain ⟨n, f⟩ := nf
    simp only [List.map_cons, structBuild, if_true] at h
    split at h
    · cases h
    · next b hb =>
      split at h
      · cases h
      · next bs' hbs' =>
        cases h
        have h1 := ih (fun x hx => hall x (by simp [hx])) hbs'
        have h2 : b.length ≤ 28 := by
          rcases hall (n, f) (by simp) with rfl | ⟨l, k, rfl, hk, hle⟩
          · cases hb
            simp
          · simp only [fldBuild] at hb
            split at hb
            · next hb' =>
              cases hb
              have := leafBuild_size hb' hk
              omega
            · cases hb
              simp
        simp only [List.length_append, List.length_cons]
        omega

/-- The hypotheses of `C126_saved` can be met, with a factor and positions that cannot be stored exactly. -/
example : ∃ env : FloatEnv, Accurate env (2 ^ (-30 : ℤ)) ∧ (2 : ℝ) ^ (-30 : ℤ) < 1 ∧ stretched.format ∈ formats ∧
    stretched.ppq ∈ ppqs ∧ WellTyped stretched.events ∧ (∀ e ∈ stretched.events, @FitsOrLog env e) ∧
    ∃ file, @saveBytes env stretched = .ok file := by
  letI := Ideal.env
  have hA : Accurate Ideal.env (2 ^ (-30 : ℤ)) := Ideal.accurate
  have hε : (2 : ℝ) ^ (-30 : ℤ) < 1 := by norm_num
  refine ⟨Ideal.env, hA, hε, by decide, by decide, wellTyped_of (by decide +kernel), ?_, ?_⟩
  · intro e he
    simp only [stretched, List.mem_cons, List.not_mem_nil, or_false] at he
    rcases he with rfl | rfl | rfl
    · exact .inl ⟨by decide, by decide⟩
    · exact .inl ⟨_, rfl, rfl⟩
    · exact .inr ⟨rfl, rfl, _, rfl, sample_ok _⟩
  · rw [C03_save_succeeds]
    obtain ⟨bs, rec', b1, b2, b3⟩ := rec_near hA hε (sample_ok ⟨157⟩)
    have hlen : bs.length ≤ 28 * (SName.fields .parameters).length := by
      refine sample_size ?_ b1
      have : ∀ nf ∈ SName.fields .parameters, nf.2 = .req .greedy ∨ (nf.2 = .opt nf.2.leaf ∧
          leafSize nf.2.leaf = some ((leafSize nf.2.leaf).getD 0) ∧ (leafSize nf.2.leaf).getD 0 ≤ 28) := by decide +kernel
      intro nf hnf
      exact (this nf hnf).imp id fun h => ⟨_, _, h⟩
    have hlen : bs.length ≤ 28 * 64 := le_trans hlen (Nat.mul_le_mul_left 28 (struct_fields_few .parameters))
    refine ⟨[frame (199, [50, 48, 46, 56, 46, 51, 0]), frame (64, [0, 0]), frame (215, bs)],
      ?_, by decide, by decide, by decide, ?_⟩
    · simp only [stretched, List.map_cons, List.map_nil]
      rw [toBytes_frame (b := [50, 48, 46, 56, 46, 51, 0]) (by decide) rfl, toBytes_frame (b := [0, 0]) (by decide) rfl,
        toBytes_frame (e := ⟨215, .struct .parameters, .fields sampleRec, 157⟩) (b := bs) (by decide) b1]
    · have hv' := varBuild_length (n := 7) (k := 1) (by omega) (by omega)
      have hv := varBuild_length (n := bs.length) (k := 9) (by omega) (by omega)
      simp only [frame, List.flatten_cons, List.flatten_nil, List.length_append, List.length_cons, List.length_nil]
      norm_num
      omega

/-- The hypotheses of `C126_settles` can be met. -/
example : ∃ env : FloatEnv, Accurate env (2 ^ (-30 : ℤ)) ∧ (2 : ℝ) ^ (-30 : ℤ) < 1 / 2 ∧
    ∀ k : Int, 10000000 < |k| → env.exp2 k = none :=
  ⟨Ideal.env, Ideal.accurate, by norm_num, fun k hk => if_neg (by omega)⟩

end Demo

end PyFLP
