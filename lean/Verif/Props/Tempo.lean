import Verif.FltLemmas
import Verif.Props.Project
/-!
# The tempo of a project (C46)
-/

namespace PyFLP

open Spec Heap

namespace Spec

/-- `v` is older than `a.b.c`. -/
def older (v : FLVersion) (a b c : Int) : Prop :=
  v.major < a ∨ (v.major = a ∧ (v.minor < b ∨ (v.minor = b ∧ v.patch < c)))

instance (v : FLVersion) (a b c : Int) : Decidable (older v a b c) := by unfold older; infer_instance

/-- The highest tempo of a version: 522, in versions 1.4.2 to 10 it was 999. -/
def highestTempo (v : FLVersion) : Rat := if ¬ older v 1 4 2 ∧ older v 11 0 0 then 999 else 522

/-- The version can be compared with `a.b.c` (`TypeError` if they differ only in the build number). -/
def comparable (v : FLVersion) (a b c : Int) : Prop :=
  v.build = none ∨ ¬ (v.major = a ∧ v.minor = b ∧ v.patch = c)

end Spec

theorem FLVersion.lt_spec (v : FLVersion) (a b c : Int) :
    (comparable v a b c → v.lt ⟨a, b, c, none⟩ = .ok (decide (older v a b c))) ∧
    (¬ comparable v a b c → v.lt ⟨a, b, c, none⟩ = .error .typeError) := by
  unfold FLVersion.lt comparable
  dsimp only
  by_cases h1 : v.major = a
  · rw [if_neg (by simpa using h1)]
    by_cases h2 : v.minor = b
    · rw [if_neg (by simpa using h2)]
      by_cases h3 : v.patch = c
      · rw [if_neg (by simpa using h3)]
        cases v.build <;> simp [h1, h2, h3, older]
      · rw [if_pos h3]
        refine ⟨fun _ => ?_, fun h => absurd (.inr fun x => h3 x.2.2) h⟩
        congr 1
        rw [decide_eq_decide]; unfold older; omega
    · rw [if_pos h2]
      refine ⟨fun _ => ?_, fun h => absurd (.inr fun x => h2 x.2.1) h⟩
      congr 1
      rw [decide_eq_decide]; unfold older; omega
  · rw [if_pos h1]
    refine ⟨fun _ => ?_, fun h => absurd (.inr fun x => h1 x.1) h⟩
    congr 1
    rw [decide_eq_decide]; unfold older; omega

theorem FLVersion.le_spec (v : FLVersion) (a b c : Int) :
    (comparable v a b c → (⟨a, b, c, none⟩ : FLVersion).le v = .ok (decide (¬ older v a b c))) ∧
    (¬ comparable v a b c → (⟨a, b, c, none⟩ : FLVersion).le v = .error .typeError) := by
  unfold FLVersion.le
  by_cases hv : (⟨a, b, c, none⟩ : FLVersion) = v
  · subst hv
    rw [if_pos rfl]
    simp [comparable, older]
  · rw [if_neg hv]
    obtain ⟨va, vb, vc, vd⟩ := v
    unfold FLVersion.lt comparable
    dsimp only
    by_cases h1 : a = va
    · subst h1
      rw [if_neg (by simp)]
      by_cases h2 : b = vb
      · subst h2
        rw [if_neg (by simp)]
        by_cases h3 : c = vc
        · subst h3
          rw [if_neg (by simp)]
          cases vd with
          | none => exact absurd rfl hv
          | some d => simp [older]
        · rw [if_pos h3]
          refine ⟨fun _ => ?_, fun h => absurd (.inr fun x => h3 x.2.2.symm) h⟩
          congr 1
          rw [decide_eq_decide]; unfold older; dsimp only; omega
      · rw [if_pos h2]
        refine ⟨fun _ => ?_, fun h => absurd (.inr fun x => h2 x.2.1.symm) h⟩
        congr 1
        rw [decide_eq_decide]; unfold older; dsimp only; omega
    · rw [if_pos h1]
      refine ⟨fun _ => ?_, fun h => absurd (.inr fun x => h1 x.1.symm) h⟩
      congr 1
      rw [decide_eq_decide]; unfold older; dsimp only; omega

theorem maxTempo_ok {v : FLVersion} (h1 : comparable v 1 4 2) (h2 : comparable v 11 0 0) :
    World.maxTempo v = .ok (highestTempo v) := by
  unfold World.maxTempo highestTempo
  rw [(FLVersion.le_spec v 1 4 2).1 h1, (FLVersion.lt_spec v 11 0 0).1 h2]
  by_cases a : older v 1 4 2 <;> by_cases b : older v 11 0 0 <;> simp [a, b]

theorem maxTempo_err {v : FLVersion} (h : ¬ (comparable v 1 4 2 ∧ comparable v 11 0 0)) :
    World.maxTempo v = .error .typeError := by
  unfold World.maxTempo
  by_cases h1 : comparable v 1 4 2
  · have h2 : ¬ comparable v 11 0 0 := fun x => h ⟨h1, x⟩
    have hold : ¬ older v 1 4 2 := by
      unfold comparable at h2
      unfold older
      push Not at h2
      omega
    rw [(FLVersion.le_spec v 1 4 2).1 h1, (FLVersion.lt_spec v 11 0 0).2 h2]
    simp [hold]
  · rw [(FLVersion.le_spec v 1 4 2).2 h1]

theorem assignIf_eq {w : World} {L : Nat → Prop} (r : WReach w L) (id : Nat) (v : Int) :
    WReach (w.assignIf id v) L ∧
      (w.assignIf id v).project = { w.project with events := setFirst w.project.events id (.lv (.int v)) } := by
  unfold World.assignIf World.firstEv
  rw [World.contains_eq r (L0 r), ← World.project_events]
  rcases World.first_value r (L0 r) id with ⟨ref, h1, h2, h3, _⟩ | ⟨h1, h2⟩
  · rw [h1]
    rw [← World.project_events] at h3
    obtain ⟨g1, g2⟩ := World.first_set r (L0 r) (.lv (.int v)) h1
    rw [h3]
    exact ⟨g2, g1⟩
  · rw [← World.project_events] at h2
    rw [h2, setFirst_none h2]
    exact ⟨r, rfl⟩

/-- The steps of the setter in order. -/
theorem setTempo_cases (w : World) (x : PyNum) {w' : World} (h : w.setTempo x = (w', .ok ())) :
    ∃ t v, w.tempo = .ok (some t) ∧ w.version = .ok v ∧ World.maxTempo v = .ok (highestTempo v) ∧
      (∀ q, x = .float q → v.lt ⟨3, 4, 0, none⟩ = .ok false) ∧ 10 ≤ x.val ∧ x.val ≤ highestTempo v ∧
      w' = ((w.assignIf 156 x.milli).assignIf 93 x.fine).assignIf 66 x.val.floor := by
  unfold World.setTempo at h
  split at h
  · cases h
  · cases h
  next t ht =>
  split at h
  · cases h
  next v hv =>
  split at h
  · cases h
  next mx hmx =>
  have hmx' : mx = highestTempo v := by
    by_cases hc : comparable v 1 4 2 ∧ comparable v 11 0 0
    · rw [maxTempo_ok hc.1 hc.2] at hmx; injection hmx with hmx; exact hmx.symm
    · rw [maxTempo_err hc] at hmx; cases hmx
  subst hmx'
  split at h
  · cases h
  · cases h
  next hx =>
  split at h
  · cases h
  split at h
  · cases h
  next hr =>
  push Not at hr
  injection h with h _
  refine ⟨t, v, ht, hv, hmx, ?_, hr.2, hr.1, h.symm⟩
  intro q hq
  subst hq
  exact hx

theorem highest_le (v : FLVersion) : highestTempo v ≤ 999 := by
  unfold highestTempo; split <;> norm_num

theorem tempo_some {a b c : Option Value} {t : PyNum} (h : tempoOf a b c = .ok (some t)) :
    a.isSome ∨ (a = none ∧ b.isSome) := by
  unfold tempoOf at h
  cases a with
  | some _ => exact .inl rfl
  | none =>
    refine .inr ⟨rfl, ?_⟩
    cases b with
    | some _ => rfl
    | none =>
      exfalso
      simp only [Option.isSome_none, Bool.false_eq_true, if_false] at h
      cases c with
      | none => cases h
      | some c =>
        simp only [Option.isSome_some, if_true] at h
        cases hc : intOf (some c) <;> rw [hc] at h <;> cases h

theorem milli_read_int {i : Int} (h1 : 10 ≤ i) (h2 : i ≤ 999) : fl (((i * 1000 : Int) : Rat) / 1000) = i := by
  rw [show ((i * 1000 : Int) : Rat) / 1000 = ((i : Int) : Rat) by push_cast; field_simp]
  exact fl_int (by omega) (by omega)

theorem fl_zero : fl 0 = 0 := by
  have := @fl_int 0 (by norm_num) (by norm_num)
  simpa using this

theorem addMilli_zero {i : Int} (h1 : 10 ≤ i) (h2 : i ≤ 999) : addMilli i 0 = i := by
  unfold addMilli
  rw [show (((0 : Int) : Rat) / 1000) = 0 by norm_num, fl_zero, add_zero]
  exact fl_int (by omega) (by omega)

/-- One thousandth, and the roundings of binary64. -/
theorem milli_read_float {q : Rat} (h1 : 10 ≤ q) (h2 : q ≤ 999) :
    |fl (((trunc (fl (q * 1000)) : Int) : Rat) / 1000) - q| < 1001 / 1000000 := by
  have e1 := fl_err (q * 1000)
  rw [abs_of_nonneg (by linarith : 0 ≤ q * 1000), abs_le] at e1
  have hnn : 0 ≤ fl (q * 1000) := fl_nonneg (by linarith)
  obtain ⟨t1, t2⟩ := trunc_nonneg hnn
  generalize fl (q * 1000) = a at *
  have ht0 : (0 : Rat) ≤ trunc a := by
    have : (-1 : Rat) < trunc a := by linarith
    have : (-1 : Int) < trunc a := by exact_mod_cast this
    exact_mod_cast (by omega : 0 ≤ trunc a)
  generalize (trunc a : Rat) = n at *
  have e2 := fl_err (n / 1000)
  rw [abs_of_nonneg (by positivity : 0 ≤ n / 1000), abs_le] at e2
  generalize fl (n / 1000) = y at *
  rw [abs_lt]
  constructor <;> norm_num at * <;> linarith [e1.1, e1.2, e2.1, e2.2]

theorem fine_read_float {q : Rat} (h1 : 10 ≤ q) (h2 : q ≤ 999) :
    |addMilli q.floor (trunc (fl (fl (q - q.floor) * 1000))) - q| < 1001 / 1000000 := by
  obtain ⟨f1, f2⟩ := floor_bounds q
  have hc0 : (0 : Rat) ≤ q.floor := by linarith
  unfold addMilli
  generalize (q.floor : Rat) = c at *
  have e0 := fl_err (q - c)
  rw [abs_of_nonneg (by linarith : 0 ≤ q - c), abs_le] at e0
  have hd : 0 ≤ fl (q - c) := fl_nonneg (by linarith)
  generalize fl (q - c) = d at *
  have e1 := fl_err (d * 1000)
  rw [abs_of_nonneg (by linarith : 0 ≤ d * 1000), abs_le] at e1
  have hnn : 0 ≤ fl (d * 1000) := fl_nonneg (by linarith)
  obtain ⟨t1, t2⟩ := trunc_nonneg hnn
  generalize fl (d * 1000) = a at *
  have ht0 : (0 : Rat) ≤ trunc a := by
    have : (-1 : Rat) < trunc a := by linarith
    have : (-1 : Int) < trunc a := by exact_mod_cast this
    exact_mod_cast (by omega : 0 ≤ trunc a)
  generalize (trunc a : Rat) = n at *
  have e2 := fl_err (n / 1000)
  rw [abs_of_nonneg (by positivity : 0 ≤ n / 1000), abs_le] at e2
  have hg : 0 ≤ fl (n / 1000) := fl_nonneg (by positivity)
  generalize fl (n / 1000) = g at *
  have e3 := fl_err (c + g)
  rw [abs_of_nonneg (by linarith : 0 ≤ c + g), abs_le] at e3
  generalize fl (c + g) = y at *
  rw [abs_lt]
  constructor <;> norm_num at * <;> linarith [e0.1, e0.2, e1.1, e1.2, e2.1, e2.2, e3.1, e3.2]

/-- C46. An accepted tempo lies between 10 and the highest tempo of the version. Only the tempo events
of the project change. A whole number reads back exactly; a fractional one is off by less than
0.001001, or, if the project stores only whole tempos, is rounded down. -/
theorem C46_tempo {w w' : World} {L : Nat → Prop} (r : WReach w L) (x : PyNum)
    (h : w.setTempo x = (w', .ok ())) :
    WReach w' L ∧
    (∃ v, w.version = .ok v ∧ 10 ≤ x.val ∧ x.val ≤ highestTempo v) ∧
    (∃ a b c : Int, w'.project = { w.project with
      events := setFirst (setFirst (setFirst w.project.events 156 (.lv (.int a))) 93 (.lv (.int b)))
        66 (.lv (.int c)) }) ∧
    ∃ y, w'.tempo = .ok (some y) ∧
      (∀ i, x = .int i → y.val = i) ∧
      (∀ q, x = .float q →
        if ∃ e ∈ w.project.events, e.id = 156 ∨ e.id = 93 then |y.val - q| < 1001 / 1000000
        else y.val ≤ q ∧ q < y.val + 1) := by
  obtain ⟨t, v, ht, hv, hmx, hfl, h10, hhi, hw⟩ := setTempo_cases w x h
  obtain ⟨r1, p1⟩ := assignIf_eq r 156 x.milli
  obtain ⟨r2, p2⟩ := assignIf_eq r1 93 x.fine
  obtain ⟨r3, p3⟩ := assignIf_eq r2 66 x.val.floor
  rw [← hw] at r3 p3
  have h999 : x.val ≤ 999 := hhi.trans (highest_le v)
  refine ⟨r3, ⟨v, hv, h10, hhi⟩, ⟨x.milli, x.fine, x.val.floor, ?_⟩, ?_⟩
  · rw [p3, p2, p1]
  have hev : w'.project.events = setFirst (setFirst (setFirst w.project.events 156 (.lv (.int x.milli)))
      93 (.lv (.int x.fine))) 66 (.lv (.int x.val.floor)) := by rw [p3, p2, p1]
  rw [tempo_eq r] at ht
  rw [tempo_eq r3, hev]
  have hex : ∀ id, (∃ e ∈ w.project.events, e.id = id) ↔ (valueOf w.project.events id).isSome := by
    intro id
    unfold valueOf
    rw [Option.isSome_map, List.find?_isSome]
    simp
  have hcond : (∃ e ∈ w.project.events, e.id = 156 ∨ e.id = 93) ↔
      ((valueOf w.project.events 156).isSome ∨ (valueOf w.project.events 93).isSome) := by
    rw [← hex, ← hex]
    constructor
    · rintro ⟨e, h1, h2 | h2⟩
      · exact .inl ⟨e, h1, h2⟩
      · exact .inr ⟨e, h1, h2⟩
    · rintro (⟨e, h1, h2⟩ | ⟨e, h1, h2⟩)
      · exact ⟨e, h1, .inl h2⟩
      · exact ⟨e, h1, .inr h2⟩
  have s156 : valueOf (setFirst (setFirst (setFirst w.project.events 156 (.lv (.int x.milli)))
      93 (.lv (.int x.fine))) 66 (.lv (.int x.val.floor))) 156 =
      (valueOf w.project.events 156).map fun _ => .lv (.int x.milli) := by
    rw [valueOf_setFirst_other (by decide), valueOf_setFirst_other (by decide)]
    cases hh : valueOf w.project.events 156 with
    | none => rw [setFirst_none hh, hh]; rfl
    | some z => rw [valueOf_setFirst_self (by rw [hh]; rfl)]; rfl
  have s93 : valueOf (setFirst (setFirst (setFirst w.project.events 156 (.lv (.int x.milli)))
      93 (.lv (.int x.fine))) 66 (.lv (.int x.val.floor))) 93 =
      (valueOf w.project.events 93).map fun _ => .lv (.int x.fine) := by
    rw [valueOf_setFirst_other (by decide)]
    cases hh : valueOf w.project.events 93 with
    | none =>
      have : valueOf (setFirst w.project.events 156 (.lv (.int x.milli))) 93 = none := by
        rw [valueOf_setFirst_other (by decide), hh]
      rw [setFirst_none this, this]; rfl
    | some z =>
      rw [valueOf_setFirst_self (by rw [valueOf_setFirst_other (by decide), hh]; rfl)]; rfl
  have s66 : valueOf (setFirst (setFirst (setFirst w.project.events 156 (.lv (.int x.milli)))
      93 (.lv (.int x.fine))) 66 (.lv (.int x.val.floor))) 66 =
      (valueOf w.project.events 66).map fun _ => .lv (.int x.val.floor) := by
    cases hh : valueOf w.project.events 66 with
    | none =>
      have : valueOf (setFirst (setFirst w.project.events 156 (.lv (.int x.milli)))
          93 (.lv (.int x.fine))) 66 = none := by
        rw [valueOf_setFirst_other (by decide), valueOf_setFirst_other (by decide), hh]
      rw [setFirst_none this, this]; rfl
    | some z =>
      rw [valueOf_setFirst_self (by
        rw [valueOf_setFirst_other (by decide), valueOf_setFirst_other (by decide), hh]; rfl)]; rfl
  rw [s156, s93, s66]
  rcases tempo_some ht with hm | ⟨hm, hc⟩
  · -- stored in thousandths
    obtain ⟨z, hz⟩ := Option.isSome_iff_exists.1 hm
    rw [hz]
    refine ⟨.float (fl ((x.milli : Rat) / 1000)), rfl, ?_, ?_⟩
    · rintro i rfl
      have a1 : (10 : Rat) ≤ (i : Rat) := h10
      have a2 : (i : Rat) ≤ 999 := h999
      exact milli_read_int (by exact_mod_cast a1) (by exact_mod_cast a2)
    · rintro q rfl
      rw [if_pos (hcond.2 (.inl hm))]
      exact milli_read_float h10 h999
  · obtain ⟨z, hz⟩ := Option.isSome_iff_exists.1 hc
    rw [hm, hz]
    cases hf : valueOf w.project.events 93 with
    | some f =>
      refine ⟨.float (addMilli x.val.floor x.fine), rfl, ?_, ?_⟩
      · rintro i rfl
        have a1 : (10 : Rat) ≤ (i : Rat) := h10
        have a2 : (i : Rat) ≤ 999 := h999
        show addMilli ((i : Rat)).floor 0 = i
        rw [floor_int]
        exact addMilli_zero (by exact_mod_cast a1) (by exact_mod_cast a2)
      · rintro q rfl
        rw [if_pos (hcond.2 (.inr (by rw [hf]; rfl)))]
        exact fine_read_float h10 h999
    | none =>
      refine ⟨.int x.val.floor, rfl, ?_, ?_⟩
      · rintro i rfl
        show (((i : Rat).floor : Int) : Rat) = i
        rw [floor_int]
      · rintro q rfl
        rw [if_neg (by rw [hcond, hm, hf]; simp)]
        exact floor_bounds q

/-- C46. What is accepted: in a project with a version and a tempo, whole numbers from 10 to the
highest tempo, and from version 3.4 on fractional numbers in the same range. Everything else is
refused and changes nothing; whole numbers that are too great for a `float` (half a unit in the last place beyond the greatest
one) are refused with `OverflowError`. -/
theorem C46_tempo_accepted {w : World} {v : FLVersion} {t : PyNum}
    (hv : w.version = .ok v) (ht : w.tempo = .ok (some t)) (h1 : comparable v 1 4 2) (h2 : comparable v 11 0 0)
    (h3 : comparable v 3 4 0) (x : PyNum) :
    ((∃ w', w.setTempo x = (w', .ok ())) ↔
      (10 ≤ x.val ∧ x.val ≤ highestTempo v ∧ ∀ q, x = .float q → ¬ older v 3 4 0)) ∧
    (∀ q, x = .float q → older v 3 4 0 → w.setTempo x = (w, .error .typeError)) ∧
    (∀ i, x = .int i → i < 10 ∨ highestTempo v < (i : Rat) →
      w.setTempo x = (w, .error (if i.natAbs < 2 ^ 1024 - 2 ^ 970 then .valueError else .overflowError))) := by
  have hno : 10 ≤ x.val → x.val ≤ highestTempo v → x.overflows = false := by
    intro a b
    have b := b.trans (highest_le v)
    cases x with
    | float q => rfl
    | int i =>
      have a' : (10 : Rat) ≤ (i : Rat) := a
      have b' : (i : Rat) ≤ 999 := b
      have a1 : 10 ≤ i := by exact_mod_cast a'
      have b1 : i ≤ 999 := by exact_mod_cast b'
      have hbig : (999 : Int) < 2 ^ 1024 - 2 ^ 970 := by decide +kernel
      simp only [PyNum.overflows, Bool.or_eq_false_iff, decide_eq_false_iff_not]
      omega
  have hf := (FLVersion.lt_spec v 3 4 0).1 h3
  have hset : ∀ (h : ∀ q, x = .float q → ¬ older v 3 4 0), w.setTempo x =
      (if x.overflows then (w, .error .overflowError)
        else if highestTempo v < x.val ∨ x.val < 10 then (w, .error .valueError)
        else (((w.assignIf 156 x.milli).assignIf 93 x.fine).assignIf 66 x.val.floor, .ok ())) := by
    intro h
    unfold World.setTempo
    rw [ht, hv]
    dsimp only
    rw [maxTempo_ok h1 h2]
    cases x with
    | int i => rfl
    | float q =>
      dsimp only
      rw [hf, decide_eq_false (h q rfl)]
  have hold : ∀ q, x = .float q → older v 3 4 0 → w.setTempo x = (w, .error .typeError) := by
    rintro q rfl ho
    unfold World.setTempo
    rw [ht, hv]
    dsimp only
    rw [maxTempo_ok h1 h2]
    dsimp only
    rw [hf, decide_eq_true ho]
  refine ⟨⟨?_, ?_⟩, hold, ?_⟩
  · rintro ⟨w', h⟩
    obtain ⟨_, v', _, hv', _, hfl, a, b, _⟩ := setTempo_cases w x h
    rw [hv] at hv'
    injection hv' with hv'
    subst hv'
    refine ⟨a, b, fun q hq ho => ?_⟩
    rw [hold q hq ho] at h
    cases h
  · rintro ⟨a, b, c⟩
    rw [hset c, hno a b]
    rw [if_neg (by simp), if_neg (by push Not; exact ⟨b, a⟩)]
    exact ⟨_, rfl⟩
  · rintro i rfl hi
    rw [hset (by rintro q hq; cases hq)]
    have hbound : ((2 ^ 1024 - 2 ^ 970 : Nat) : Int) = 2 ^ 1024 - 2 ^ 970 := by decide +kernel
    have hov : (PyNum.int i).overflows = !decide (i.natAbs < 2 ^ 1024 - 2 ^ 970) := by
      rw [Bool.eq_iff_iff]
      simp only [PyNum.overflows, Bool.or_eq_true, decide_eq_true_eq, Bool.not_eq_true', decide_eq_false_iff_not]
      rw [← hbound]
      generalize (2 ^ 1024 - 2 ^ 970 : Nat) = B
      omega
    rw [hov]
    by_cases hsmall : i.natAbs < 2 ^ 1024 - 2 ^ 970
    swap
    · rw [decide_eq_false hsmall, if_neg hsmall]
      rfl
    rw [decide_eq_true hsmall, if_pos hsmall, if_neg (by simp), if_pos]
    rcases hi with hi | hi
    · right
      show (i : Rat) < 10
      exact_mod_cast hi
    · exact .inl hi

/-- A refused tempo changes nothing. -/
theorem C46_tempo_unchanged {w w' : World} {x : PyNum} {e : Exc} (h : w.setTempo x = (w', .error e)) : w' = w := by
  unfold World.setTempo at h
  split at h
  · cases h; rfl
  · cases h; rfl
  split at h
  · cases h; rfl
  split at h
  · cases h; rfl
  split at h
  · cases h; rfl
  · cases h; rfl
  split at h
  · cases h; rfl
  split at h
  · cases h; rfl
  · cases h

/-! ### Writing back the tempo that was read -/

namespace Demo

/-- A project with the tempo 16.002. -/
def slow : World := World.ofProject ⟨0, 0, 96, [⟨199, .ascii, .str (PStr.lit "20.8.3"), 7⟩, ⟨156, .u32, .lv (.int 16002), 4⟩]⟩

theorem slow_reach : WReach slow (· = 0) := .parsed _

theorem slow_version : slow.version = .ok ⟨20, 8, 3, none⟩ := by decide +kernel

theorem slow_tempo : slow.tempo = .ok (some (.float (fl ((16002 : Int) / 1000 : Rat)))) := by
  rw [tempo_eq slow_reach]
  rw [show valueOf slow.project.events 156 = some (.lv (.int 16002)) by decide +kernel]
  rfl

theorem slow_set : slow.setTempo (.float (fl ((16002 : Int) / 1000 : Rat))) =
    (((slow.assignIf 156 16001).assignIf 93 (PyNum.float (fl ((16002 : Int) / 1000 : Rat))).fine).assignIf 66 16, .ok ()) := by
  unfold World.setTempo
  rw [slow_tempo, slow_version]
  dsimp only
  rw [maxTempo_ok (.inl rfl) (.inl rfl)]
  dsimp only
  rw [(FLVersion.lt_spec _ 3 4 0).1 (.inl rfl)]
  rw [decide_eq_false (by decide), show (PyNum.float (fl ((16002 : Int) / 1000 : Rat))).overflows = false from rfl]
  rw [if_neg (by simp), if_neg (by decide +kernel)]
  rw [show (PyNum.float (fl ((16002 : Int) / 1000 : Rat))).milli = 16001 by decide +kernel,
    show (PyNum.float (fl ((16002 : Int) / 1000 : Rat))).val.floor = 16 by decide +kernel]

/-- The hypotheses of `C46_tempo` and `C46_tempo_accepted` can be met. -/
example : ∃ w', slow.setTempo (.float (281 / 2)) = (w', .ok ()) :=
  (C46_tempo_accepted slow_version slow_tempo (.inl rfl) (.inl rfl) (.inl rfl) _).1.2
    ⟨by decide +kernel, by decide +kernel, fun _ _ => by decide⟩

end Demo

/-- The claim that `project.tempo = project.tempo` changes nothing is false: 16.002 becomes 16.001. -/
theorem C46_rewrite_refuted : ¬ ∀ (w w' : World) (L : Nat → Prop) (x : PyNum), WReach w L →
    w.tempo = .ok (some x) → w.setTempo x = (w', .ok ()) → w'.project = w.project := by
  intro h
  have := h _ _ _ _ Demo.slow_reach Demo.slow_tempo Demo.slow_set
  obtain ⟨r1, p1⟩ := assignIf_eq Demo.slow_reach 156 16001
  obtain ⟨r2, p2⟩ := assignIf_eq r1 93 (PyNum.float (fl ((16002 : Int) / 1000 : Rat))).fine
  obtain ⟨r3, p3⟩ := assignIf_eq r2 66 16
  have hv := congrArg (fun p => valueOf p.events 156) this
  simp only [p3, p2, p1] at hv
  rw [valueOf_setFirst_other (by decide), valueOf_setFirst_other (by decide)] at hv
  revert hv
  decide +kernel

/-- C46, as far as it holds for writing back the tempo that was read: the stored number of
thousandths stays or goes down by one; whole tempos stay. -/
theorem C46_rewrite_partial {w w' : World} {L : Nat → Prop} (r : WReach w L) {x : PyNum} {n : Int}
    (hn : valueOf w.project.events 156 = some (.lv (.int n)))
    (ht : w.tempo = .ok (some x)) (h : w.setTempo x = (w', .ok ())) :
    (valueOf w'.project.events 156 = some (.lv (.int n)) ∨ valueOf w'.project.events 156 = some (.lv (.int (n - 1)))) ∧
    (1000 ∣ n → valueOf w'.project.events 156 = some (.lv (.int n))) := by
  obtain ⟨t, v, _, hv, hmx, hfl, h10, hhi, hw⟩ := setTempo_cases w x h
  obtain ⟨r1, p1⟩ := assignIf_eq r 156 x.milli
  obtain ⟨r2, p2⟩ := assignIf_eq r1 93 x.fine
  obtain ⟨r3, p3⟩ := assignIf_eq r2 66 x.val.floor
  rw [← hw] at r3 p3
  have h999 : x.val ≤ 999 := hhi.trans (highest_le v)
  have hval : valueOf w'.project.events 156 = some (.lv (.int x.milli)) := by
    rw [p3, p2, p1]
    dsimp only
    rw [valueOf_setFirst_other (by decide), valueOf_setFirst_other (by decide),
      valueOf_setFirst_self (by rw [hn]; rfl)]
  have hx : x = .float (fl ((n : Rat) / 1000)) := by
    rw [tempo_eq r, hn] at ht
    have : tempoOf (some (.lv (.int n))) (valueOf w.project.events 66) (valueOf w.project.events 93) =
      .ok (some (.float (fl ((n : Rat) / 1000)))) := rfl
    rw [this] at ht
    injection ht with ht
    injection ht with ht
    exact ht.symm
  subst hx
  rw [hval]
  simp only [PyNum.val] at h10 h999
  rw [show (PyNum.float (fl ((n : Rat) / 1000))).milli = trunc (fl (fl ((n : Rat) / 1000) * 1000)) from rfl]
  -- the number before rounding
  have hn0 : (0 : Rat) ≤ n := by
    by_contra hc
    push Not at hc
    have e := fl_err ((n : Rat) / 1000)
    rw [abs_of_neg (by linarith : (n : Rat) / 1000 < 0), abs_le] at e
    norm_num at e
    linarith [e.1, e.2]
  have e1 := fl_err ((n : Rat) / 1000)
  rw [abs_of_nonneg (by positivity : 0 ≤ (n : Rat) / 1000), abs_le] at e1
  have hbound : (n : Rat) ≤ 1000000 := by
    norm_num at e1
    linarith [e1.1]
  constructor
  · have ha : 0 ≤ fl ((n : Rat) / 1000) := fl_nonneg (by positivity)
    generalize fl ((n : Rat) / 1000) = a at *
    have e2 := fl_err (a * 1000)
    rw [abs_of_nonneg (by positivity : 0 ≤ a * 1000), abs_le] at e2
    have hb : 0 ≤ fl (a * 1000) := fl_nonneg (by positivity)
    obtain ⟨t1, t2⟩ := trunc_nonneg hb
    generalize fl (a * 1000) = b at *
    have u1 : (trunc b : Rat) < n + 1 := by
      norm_num at *
      linarith [e1.2, e2.2]
    have u2 : (n : Rat) - 2 < trunc b := by
      norm_num at *
      linarith [e1.1, e2.1]
    have u1' : trunc b < n + 1 := by exact_mod_cast u1
    have u2' : n - 2 < trunc b := by exact_mod_cast u2
    rcases (show trunc b = n ∨ trunc b = n - 1 by omega) with hh | hh
    · left; rw [hh]
    · right; rw [hh]
  · rintro ⟨k, rfl⟩
    have hk : ((1000 * k : Int) : Rat) / 1000 = (k : Rat) := by push_cast; field_simp
    have hb : (1000 * k : Int) ≤ 1000000 := by exact_mod_cast hbound
    have hb0 : (0 : Int) ≤ 1000 * k := by exact_mod_cast hn0
    show some (Value.lv (.int (trunc (fl (fl (((1000 * k : Int) : Rat) / 1000) * 1000))))) = _
    rw [hk, fl_int (by omega) (by omega), show (k : Rat) * 1000 = ((1000 * k : Int) : Rat) by push_cast; ring,
      fl_int (by omega) (by omega), trunc_int]

end PyFLP
