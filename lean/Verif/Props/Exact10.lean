import Verif.Props.Sessions
/-!
# Exact statements, continued
-/

namespace PyFLP

open Spec Heap

/-! ### C46: what an accepted tempo is stored as -/

theorem milli_bounds {x : PyNum} (h1 : 10 ≤ x.val) (h2 : x.val ≤ 999) :
    1000 * x.val - 1001 / 1000 < (x.milli : Rat) ∧ (x.milli : Rat) ≤ 1000 * x.val + 1 / 1000 := by
  cases x with
  | int i =>
    show 1000 * (i : Rat) - 1001 / 1000 < ((i * 1000 : Int) : Rat) ∧ ((i * 1000 : Int) : Rat) ≤ 1000 * (i : Rat) + 1 / 1000
    push_cast
    constructor <;> linarith
  | float q =>
    have a1 : (10 : Rat) ≤ q := h1
    have a2 : q ≤ 999 := h2
    show 1000 * q - 1001 / 1000 < (trunc (fl (q * 1000)) : Rat) ∧ (trunc (fl (q * 1000)) : Rat) ≤ 1000 * q + 1 / 1000
    have e1 := fl_err (q * 1000)
    rw [abs_of_nonneg (by linarith : 0 ≤ q * 1000), abs_le] at e1
    have hnn : 0 ≤ fl (q * 1000) := fl_nonneg (by linarith)
    obtain ⟨t1, t2⟩ := trunc_nonneg hnn
    constructor <;> norm_num at * <;> linarith [e1.1, e1.2]

theorem fine_bounds {x : PyNum} :
    (0 ≤ x.fine ∧ x.fine ≤ 1000) ∧
    1000 * (x.val - x.val.floor) - 1001 / 1000 < (x.fine : Rat) ∧ (x.fine : Rat) ≤ 1000 * (x.val - x.val.floor) + 1 / 1000 := by
  cases x with
  | int i =>
    show (0 ≤ (0 : Int) ∧ (0 : Int) ≤ 1000) ∧ 1000 * ((i : Rat) - ((i : Rat).floor : Rat)) - 1001 / 1000 < ((0 : Int) : Rat) ∧
      ((0 : Int) : Rat) ≤ 1000 * ((i : Rat) - ((i : Rat).floor : Rat)) + 1 / 1000
    rw [Rat.floor_intCast]
    norm_num
  | float q =>
    obtain ⟨f1, f2⟩ := floor_bounds q
    show (0 ≤ trunc (fl (fl (q - q.floor) * 1000)) ∧ trunc (fl (fl (q - q.floor) * 1000)) ≤ 1000) ∧
      1000 * (q - q.floor) - 1001 / 1000 < (trunc (fl (fl (q - q.floor) * 1000)) : Rat) ∧
      (trunc (fl (fl (q - q.floor) * 1000)) : Rat) ≤ 1000 * (q - q.floor) + 1 / 1000
    generalize (q.floor : Rat) = c at *
    have e0 := fl_err (q - c)
    rw [abs_of_nonneg (by linarith : 0 ≤ q - c), abs_le] at e0
    have hd : 0 ≤ fl (q - c) := fl_nonneg (by linarith)
    generalize fl (q - c) = d at *
    have e1 := fl_err (d * 1000)
    rw [abs_of_nonneg (by linarith : 0 ≤ d * 1000), abs_le] at e1
    have hnn : 0 ≤ fl (d * 1000) := fl_nonneg (by linarith)
    obtain ⟨t1, t2⟩ := trunc_nonneg hnn
    generalize hn : trunc (fl (d * 1000)) = n at *
    have u1 : (-1 : Rat) < n := by linarith
    have u2 : (n : Rat) < 1001 := by norm_num at *; linarith [e0.2, e1.2]
    have v1 : (-1 : Int) < n := by exact_mod_cast u1
    have v2 : n < 1001 := by exact_mod_cast u2
    refine ⟨⟨by omega, by omega⟩, ?_, ?_⟩ <;> norm_num at * <;> linarith [e0.1, e0.2, e1.1, e1.2]

/-- C46: what the events of the project hold after an accepted tempo: the number of thousandths, cut off (up to a millionth of a
beat per minute), in the tempo event; the whole part in the event of whole tempos, and the thousandths of the rest in that of the fraction.
So the older events agree with the tempo as well.  A whole tempo is stored exactly. -/
theorem C46_stored {w w' : World} {L : Nat → Prop} (r : WReach w L) (x : PyNum) (h : w.setTempo x = (w', .ok ())) :
    ∃ milli fine whole : Int,
      w'.project = { w.project with
        events := setFirst (setFirst (setFirst w.project.events 156 (.lv (.int milli))) 93 (.lv (.int fine)))
          66 (.lv (.int whole)) } ∧
      (1000 * x.val - 1001 / 1000 < milli ∧ milli ≤ 1000 * x.val + 1 / 1000) ∧
      ((whole : Rat) ≤ x.val ∧ x.val < whole + 1) ∧
      (0 ≤ fine ∧ fine ≤ 1000 ∧ 1000 * (x.val - whole) - 1001 / 1000 < fine ∧ fine ≤ 1000 * (x.val - whole) + 1 / 1000) ∧
      ∀ i, x = .int i → milli = 1000 * i ∧ fine = 0 ∧ whole = i := by
  obtain ⟨t, v, _, _, _, _, h10, hhi, hw⟩ := setTempo_cases w x h
  obtain ⟨r1, p1⟩ := assignIf_eq r 156 x.milli
  obtain ⟨r2, p2⟩ := assignIf_eq r1 93 x.fine
  obtain ⟨r3, p3⟩ := assignIf_eq r2 66 x.val.floor
  rw [← hw] at r3 p3
  have h999 : x.val ≤ 999 := hhi.trans (highest_le v)
  obtain ⟨b0, b1, b2⟩ := fine_bounds (x := x)
  refine ⟨x.milli, x.fine, x.val.floor, by rw [p3, p2, p1], milli_bounds h10 h999, floor_bounds x.val,
    ⟨b0.1, b0.2, b1, b2⟩, ?_⟩
  rintro i rfl
  refine ⟨?_, rfl, ?_⟩
  · show i * 1000 = 1000 * i
    omega
  · exact Rat.floor_intCast i

open Demo in
/-- An accepted tempo with a fraction: 140.5 in a project that stores 16.002. -/
example : WReach slow (· = 0) ∧ ∃ w', slow.setTempo (.float (281 / 2)) = (w', .ok ()) :=
  ⟨slow_reach, (C46_tempo_accepted slow_version slow_tempo (.inl rfl) (.inl rfl) (.inl rfl) _).1.2
    ⟨by decide +kernel, by decide +kernel, fun _ _ => by decide⟩⟩

end PyFLP
