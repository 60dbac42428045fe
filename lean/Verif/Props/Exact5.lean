import Verif.Props.Notes
import Verif.Props.Patterns
import Verif.Props.Mixer
import Verif.Props.Slices
import Verif.Props.Stretch
/-!
# What happens in every case: slices, names of keys, numbers of inserts, musical times
-/

namespace PyFLP

open Spec

namespace Spec

/-- The elements at the positions `start`, …, `stop - 1`; positions below zero do not exist. -/
def between {α : Type} (l : List α) (start stop : Int) : List α :=
  (l.zipIdx.filter fun x => decide (start ≤ (x.2 : Int) ∧ (x.2 : Int) < stop)).map Prod.fst

/-- What slicing gives when the iteration yields `l` and then raises `e`, if any: the elements between the bounds, without
regard to the step; `TypeError` if a bound is missing and something is yielded. -/
def sliceOf {α : Type} (l : List α) (e : Option Exc) (start stop : Option Int) : Py (List α) :=
  match start, stop with
  | some a, some b =>
    match e with
    | none => .ok (between l a b)
    | some x => .error x
  | _, _ =>
    if l = [] then
      match e with
      | none => .ok []
      | some x => .error x
    else .error .typeError

end Spec

/-! ### Slices -/

theorem between_from {α : Type} (l : List α) (k : Nat) (a b : Int) :
    ((l.zipIdx k).filter fun x => decide (a ≤ (x.2 : Int) ∧ (x.2 : Int) < b)).map Prod.fst =
      (l.drop (a - k).toNat).take ((b - k).toNat - (a - k).toNat) := by
  induction l generalizing k with
  | nil => simp
  | cons m l ih =>
    rw [List.zipIdx_cons, List.filter_cons]
    have ih := ih (k + 1)
    by_cases h1 : a ≤ k
    · have e1 : (a - k).toNat = 0 := by omega
      have e2 : (a - ((k + 1 : Nat) : Int)).toNat = 0 := by omega
      rw [e2] at ih
      rw [e1]
      by_cases h2 : (k : Int) < b
      · have e3 : (b - k).toNat = (b - ((k + 1 : Nat) : Int)).toNat + 1 := by omega
        rw [if_pos (by simpa using ⟨h1, h2⟩), e3, List.map_cons, ih]
        simp
      · have e3 : (b - k).toNat = 0 := by omega
        have e4 : (b - ((k + 1 : Nat) : Int)).toNat = 0 := by omega
        rw [if_neg (by simp; omega), e3, ih, e4]
        simp
    · have e1 : (a - k).toNat = (a - ((k + 1 : Nat) : Int)).toNat + 1 := by omega
      rw [if_neg (by simp; omega), e1, ih, List.drop_succ_cons]
      congr 1
      omega

theorem between_eq {α : Type} (l : List α) (a b : Int) : between l a b = (l.drop a.toNat).take (b.toNat - a.toNat) := by
  unfold between
  rw [between_from]
  simp

theorem sliceLoop_eq {α : Type} (start stop : Option Int) (e : Option Exc) (l : List α) :
    sliceLoop start stop e l 0 = sliceOf l e start stop := by
  unfold sliceOf
  split
  · next a b =>
    cases e with
    | none => dsimp only; rw [sliceLoop_some, between_eq, Int.sub_zero, Int.sub_zero]
    | some e => exact sliceLoop_error a b e l 0
  · next h =>
    cases l with
    | nil => rfl
    | cons m l =>
      rw [if_neg (by simp)]
      unfold sliceLoop
      split
      · next a b => exact absurd rfl (h a b rfl)
      · rfl

/-- C50 for every slice: `patterns[start:stop]`. -/
theorem C50_slice_exact (w : World) (t : Nat) (start stop : Option Int) :
    w.slicePatterns t start stop = ((w.iterPatterns t).1, sliceOf (w.iterPatterns t).2 none start stop) := by
  unfold World.slicePatterns
  dsimp only
  congr 1
  generalize hw : (w.iterPatterns t).1 = w1
  cases start with
  | none => cases h : (w.iterPatterns t).2 <;> rfl
  | some a =>
    cases stop with
    | none => cases h : (w.iterPatterns t).2 <;> rfl
    | some b =>
      rw [getSlice_some, List.map_map]
      have hid : ∀ l : List Nat, l.map (Prod.fst ∘ fun u => (u, w1.patternName u)) = l :=
        fun l => (List.map_congr_left fun _ _ => rfl).trans (List.map_id l)
      rw [hid]
      show _ = Except.ok (between _ a b)
      rw [between_eq, Int.sub_zero, Int.sub_zero]

/-- C94 for every slice of every collection: arrangements, inserts, slots, channels, children of a layer, automation points. -/
theorem C94_exact (w : World) (t : Nat) (start stop : Option Int) :
    (∀ e, (w.iterArrangements t).2 = .error e → (w.sliceArrangements t start stop).2 = .error e) ∧
    (∀ us, (w.iterArrangements t).2 = .ok us → (w.sliceArrangements t start stop).2 = sliceOf us none start stop) ∧
    (∀ v, (w.sliceInserts t v start stop).2 = sliceOf (w.iterInserts t v).2 none start stop) ∧
    (∀ w' us e params, w.iterSlots t params = (w', us, e) → w.sliceSlots t params start stop = (w', sliceOf us e start stop)) ∧
    (∀ w' cs e, w.iterRack t = (w', cs, e) → w.sliceChannels t start stop = (w', sliceOf cs e start stop)) ∧
    (∀ cs l e, w.iterLayer cs t = (l, e) → w.sliceChildren cs t start stop = sliceOf l e start stop) ∧
    (∀ e, w.points t = .error e → w.slicePoints t start stop = .error e) ∧
    (∀ ps, w.points t = .ok ps → w.slicePoints t start stop = sliceOf ps none start stop) := by
  refine ⟨?_, ?_, ?_, ?_, ?_, ?_, ?_, ?_⟩
  · intro e h
    unfold World.sliceArrangements
    rcases hw : w.iterArrangements t with ⟨w1, x⟩
    rw [hw] at h
    cases h
    rfl
  · intro us h
    unfold World.sliceArrangements
    rcases hw : w.iterArrangements t with ⟨w1, x⟩
    rw [hw] at h
    cases h
    exact sliceLoop_eq ..
  · intro v
    exact sliceLoop_eq ..
  · intro w' us e params h
    unfold World.sliceSlots
    rw [h]
    dsimp only
    rw [sliceLoop_eq]
  · intro w' cs e h
    unfold World.sliceChannels
    rw [h]
    dsimp only
    rw [sliceLoop_eq]
  · intro cs l e h
    unfold World.sliceChildren
    rw [h]
    exact sliceLoop_eq ..
  · intro e h
    unfold World.slicePoints
    rw [h]
  · intro ps h
    unfold World.slicePoints
    rw [h]
    exact sliceLoop_eq ..

/-- Slices of three elements: bounds below zero and behind the end, a missing bound. -/
example : between [7, 8, 9] (-1) 2 = [7, 8] ∧ between [7, 8, 9] 1 9 = [8, 9] ∧ between [7, 8, 9] 0 (-1) = [] ∧
    sliceOf [7, 8, 9] none (some 0) none = .error .typeError ∧ sliceOf ([] : List Nat) none none none = .ok [] := by
  decide

/-! ### Names of keys -/

theorem lstrip_last (l : PStr) {c : Nat} (hc : isSpace c = false) : ∃ l', lstripSpace (l ++ [c]) = l' ++ [c] := by
  induction l with
  | nil => exact ⟨[], by simp [lstripSpace, hc]⟩
  | cons x l ih =>
    rw [List.cons_append, lstripSpace]
    split
    · exact ih
    · exact ⟨x :: l, rfl⟩

theorem pyInt_sharp (s : PStr) : pyInt (35 :: s) = none := by
  unfold pyInt
  have h1 : lstripSpace (35 :: s) = 35 :: s := rfl
  obtain ⟨l, hl⟩ := lstrip_last s.reverse (c := 35) rfl
  rw [h1, List.reverse_cons, hl, List.reverse_append]
  rfl

/-- C54 for every text assigned to `note.key`: it raises `ValueError`.  If the text is a letter without a sharp sign, followed by
something that `int()` reads as an octave, the key of this note is changed nevertheless; otherwise, so for every name with
a sharp sign, nothing changes. -/
theorem C54_name_exact {l : List Rec} {s : ListObj} {hs : List Item} {es : List Edit} (r : IReach l s hs es)
    {it : Item} (hm : it ∈ hs) (value : PStr) :
    (∀ (n letter : Nat) (rest : PStr) (octave : Int), semitones[n]? = some (letter, false) → value = letter :: rest →
      pyInt rest = some octave → ∃ s', s.setNoteKey it (.str value) = (s', .error .valueError) ∧
        s'.value = s.value.modify it.index (fun r => Rec.put r "key" (some (.int (12 * octave + n))))) ∧
    ((∀ (n letter : Nat) (rest : PStr), semitones[n]? = some (letter, false) → value = letter :: rest → pyInt rest = none) →
      s.setNoteKey it (.str value) = (s, .error .valueError)) ∧
    (∀ k, IsKeyName k value → if 35 ∈ value then s.setNoteKey it (.str value) = (s, .error .valueError)
      else ∃ s', s.setNoteKey it (.str value) = (s', .error .valueError) ∧
        s'.value = s.value.modify it.index (fun r => Rec.put r "key" (some (.int k)))) := by
  have sharp : ∀ (rest : PStr) (o : Int), pyInt rest = some o → ([35] : PStr).isPrefixOf rest = false := by
    intro rest o h
    cases rest with
    | nil => rfl
    | cons c rest =>
      by_cases hc : c = 35
      · subst hc
        rw [pyInt_sharp] at h
        cases h
      · simp [List.isPrefixOf, Ne.symm hc]
  have hit : ∀ (n letter : Nat) (rest : PStr) (octave : Int), semitones[n]? = some (letter, false) → value = letter :: rest →
      pyInt rest = some octave → ∃ s', s.setNoteKey it (.str value) = (s', .error .valueError) ∧
        s'.value = s.value.modify it.index (fun r => Rec.put r "key" (some (.int (12 * octave + n)))) := by
    intro n letter rest octave hn hv ho
    have hs := sharp rest octave ho
    obtain ⟨s', h1, h2, -⟩ := C40_edit_step r hm "key" (some (.int (octave * 12 + n)))
    refine ⟨s', ?_, by rw [h2, Int.mul_comm octave 12]⟩
    have hlt : n < 12 := by
      rcases Nat.lt_or_ge n 12 with h | h
      · exact h
      · rw [List.getElem?_eq_none (by exact h)] at hn
        cases hn
    subst hv
    have key : n = 0 ∧ letter = 67 ∨ n = 2 ∧ letter = 68 ∨ n = 4 ∧ letter = 69 ∨ n = 5 ∧ letter = 70 ∨ n = 7 ∧ letter = 71 ∨
        n = 9 ∧ letter = 65 ∨ n = 11 ∧ letter = 66 := by
      have : ∀ n < 12, ∀ x ∈ semitones[n]?, x.2 = false → n = 0 ∧ x.1 = 67 ∨ n = 2 ∧ x.1 = 68 ∨ n = 4 ∧ x.1 = 69 ∨ n = 5 ∧ x.1 = 70 ∨
        n = 7 ∧ x.1 = 71 ∨ n = 9 ∧ x.1 = 65 ∨ n = 11 ∧ x.1 = 66 := by decide
      exact this n hlt _ hn rfl
    unfold ListObj.setNoteKey noteNames
    rcases key with ⟨rfl, rfl⟩ | ⟨rfl, rfl⟩ | ⟨rfl, rfl⟩ | ⟨rfl, rfl⟩ | ⟨rfl, rfl⟩ | ⟨rfl, rfl⟩ | ⟨rfl, rfl⟩ <;>
      simp [ListObj.setKeyLoop, PStr.lit, List.isPrefixOf, ho, hs] <;> simp at h1 <;> rw [h1]
  have miss : (∀ (n letter : Nat) (rest : PStr), semitones[n]? = some (letter, false) → value = letter :: rest → pyInt rest = none) →
      s.setNoteKey it (.str value) = (s, .error .valueError) := by
    intro h
    unfold ListObj.setNoteKey noteNames
    cases value with
    | nil => rfl
    | cons c rest =>
      have g : ∀ n, semitones[n]? = some (c, false) → pyInt rest = none := fun n hn => h n c rest hn rfl
      by_cases h1 : c = 67
      · simp [ListObj.setKeyLoop, PStr.lit, List.isPrefixOf, h1, g 0 (by rw [h1]; rfl)]
      by_cases h2 : c = 68
      · simp [ListObj.setKeyLoop, PStr.lit, List.isPrefixOf, h2, g 2 (by rw [h2]; rfl)]
      by_cases h3 : c = 69
      · simp [ListObj.setKeyLoop, PStr.lit, List.isPrefixOf, h3, g 4 (by rw [h3]; rfl)]
      by_cases h4 : c = 70
      · simp [ListObj.setKeyLoop, PStr.lit, List.isPrefixOf, h4, g 5 (by rw [h4]; rfl)]
      by_cases h5 : c = 71
      · simp [ListObj.setKeyLoop, PStr.lit, List.isPrefixOf, h5, g 7 (by rw [h5]; rfl)]
      by_cases h6 : c = 65
      · simp [ListObj.setKeyLoop, PStr.lit, List.isPrefixOf, h6, g 9 (by rw [h6]; rfl)]
      by_cases h7 : c = 66
      · simp [ListObj.setKeyLoop, PStr.lit, List.isPrefixOf, h7, g 11 (by rw [h7]; rfl)]
      simp [ListObj.setKeyLoop, PStr.lit, List.isPrefixOf, Ne.symm h1, Ne.symm h2, Ne.symm h3, Ne.symm h4, Ne.symm h5, Ne.symm h6,
        Ne.symm h7]
  refine ⟨hit, miss, fun k hk => ?_⟩
  obtain ⟨o, st, letter, sh, h1, h2, h3, h4, h5⟩ := hk
  have letters : ∀ x ∈ semitones, x.1 ≠ 35 := by decide
  have hl : letter ≠ 35 := letters _ (List.mem_of_getElem? h4)
  cases sh with
  | true =>
    rw [if_pos (by rw [h5]; simp)]
    apply miss
    intro n letter' rest hn hv
    rw [h5] at hv
    simp at hv
    rw [← hv.2, pyInt_sharp]
  | false =>
    have hd : 35 ∉ intRepr o := by
      intro hmem
      unfold intRepr at hmem
      split at hmem
      · rcases List.mem_cons.1 hmem with e | hmem
        · exact absurd e (by decide)
        · have := natRepr_digits _ _ hmem
          omega
      · have := natRepr_digits _ _ hmem
        omega
    rw [if_neg (by rw [h5]; simp [Ne.symm hl, hd])]
    obtain ⟨s', g1, g2⟩ := hit st.toNat letter (intRepr o) o h4 (by rw [h5]; simp) (pyInt_intRepr o)
    have e : 12 * o + (st.toNat : Int) = k := by omega
    exact ⟨s', g1, by rw [g2, e]⟩

open Demo in
/-- `"D#4"` changes nothing, `"D4"` and `"D 04"` set the key to 50. -/
example : IReach twoNotes (.parse twoNotes) [⟨0, 0⟩, ⟨1, 1⟩] [] ∧ semitones[2]? = some (68, false) ∧
    pyInt (PStr.lit " 04") = some 4 ∧ IsKeyName 51 (PStr.lit "D#4") ∧ IsKeyName 50 (PStr.lit "D4") := by
  refine ⟨twoNotes_items ▸ twoNotes_reach, by decide, by decide, ?_, ?_⟩
  · refine ⟨4, 3, 68, true, by decide, by decide, by decide, by decide, ?_⟩
    simp [intRepr, natRepr, PStr.lit]
  · refine ⟨4, 2, 68, false, by decide, by decide, by decide, by decide, ?_⟩
    simp [intRepr, natRepr, PStr.lit]

/-! ### Numbers of inserts -/

/-- C61 for every version: `max_inserts` is the documented number exactly for versions before 1.6.5 and from 12.9 on; in between it is
the number of the next range. -/
theorem C61_exact (v : FLVersion) :
    maxInserts v = (if fromVersion 9 0 0 v then 127 else if fromVersion 4 0 0 v then 105 else if fromVersion 3 3 0 v then 64
      else if fromVersion 3 0 0 v then 20 else if fromVersion 2 0 1 v then 18 else if fromVersion 1 6 5 v then 8 else 5) ∧
    (maxInserts v = documentedInserts v ↔ ¬ fromVersion 1 6 5 v ∨ fromVersion 12 9 0 v) := by
  have key : ∀ k : Int × Int × Int, versionLe3 v k = decide (¬ fromVersion k.1 k.2.1 k.2.2 v) := by
    intro k
    unfold versionLe3 fromVersion
    rw [Bool.eq_iff_iff]
    split
    · simp; omega
    · split
      · simp; omega
      · simp; omega
  unfold documentedInserts maxInserts maxInsertsTable
  simp only [bandOf, key]
  have m : ∀ a b c a' b' c' : Int, (a < a' ∨ (a = a' ∧ (b < b' ∨ (b = b' ∧ c ≤ c')))) →
      fromVersion a' b' c' v → fromVersion a b c v := by
    intro a b c a' b' c' h1 h2
    unfold fromVersion at *
    omega
  have m1 := m 9 0 0 12 9 0 (by omega)
  have m2 := m 4 0 0 9 0 0 (by omega)
  have m3 := m 3 3 0 4 0 0 (by omega)
  have m4 := m 3 0 0 3 3 0 (by omega)
  have m5 := m 2 0 1 3 0 0 (by omega)
  have m6 := m 1 6 5 2 0 1 (by omega)
  by_cases h1 : fromVersion 12 9 0 v
  · simp [h1, m1 h1, m2 (m1 h1), m3 (m2 (m1 h1)), m4 (m3 (m2 (m1 h1))), m5 (m4 (m3 (m2 (m1 h1)))),
      m6 (m5 (m4 (m3 (m2 (m1 h1)))))]
  by_cases h2 : fromVersion 9 0 0 v
  · simp [h1, h2, m2 h2, m3 (m2 h2), m4 (m3 (m2 h2)), m5 (m4 (m3 (m2 h2))), m6 (m5 (m4 (m3 (m2 h2))))]
  by_cases h3 : fromVersion 4 0 0 v
  · simp [h1, h2, h3, m3 h3, m4 (m3 h3), m5 (m4 (m3 h3)), m6 (m5 (m4 (m3 h3)))]
  by_cases h4 : fromVersion 3 3 0 v
  · simp [h1, h2, h3, h4, m4 h4, m5 (m4 h4), m6 (m5 (m4 h4))]
  by_cases h5 : fromVersion 3 0 0 v
  · simp [h1, h2, h3, h4, h5, m5 h5, m6 (m5 h5)]
  by_cases h6 : fromVersion 2 0 1 v
  · simp [h1, h2, h3, h4, h5, h6, m6 h6]
  by_cases h7 : fromVersion 1 6 5 v
  · simp [h1, h2, h3, h4, h5, h6, h7]
  · simp [h1, h2, h3, h4, h5, h6, h7]

/-! ### Musical times -/

/-- `int(n * 0.2) == n // 5` for every number of ticks whose fifth fits the field. -/
theorem ticks_floor {n : Int} (h0 : 0 ≤ n) (h : n < 5 * 2 ^ 32) : trunc (fl ((n : Rat) * fl (1 / 5))) = n / 5 := by
  have hf : fl (1 / 5) = 3602879701896397 / 18014398509481984 := by decide +kernel
  rw [hf]
  rcases Int.lt_or_eq_of_le h0 with h0 | rfl
  · obtain ⟨k, hk⟩ : ∃ k, n / 5 = k := ⟨_, rfl⟩
    rw [hk]
    have k0 : (0 : Rat) ≤ k := by exact_mod_cast (show (0 : Int) ≤ k by omega)
    have k1 : (k : Rat) < 4294967296 := by
      have : k < 4294967296 := by omega
      exact_mod_cast this
    have n0 : (0 : Rat) < n := by exact_mod_cast h0
    have n1 : 5 * (k : Rat) ≤ n := by exact_mod_cast (show 5 * k ≤ n by omega)
    have n2 : (n : Rat) ≤ 5 * k + 4 := by exact_mod_cast (show n ≤ 5 * k + 4 by omega)
    have a1 : (k : Rat) ≤ n * (3602879701896397 / 18014398509481984) := by linarith
    have a2 : ((n : Rat) * (3602879701896397 / 18014398509481984)) ≤ k + 9 / 10 := by linarith
    have q0 : (0 : Rat) < n * (3602879701896397 / 18014398509481984) := by linarith
    generalize (n : Rat) * (3602879701896397 / 18014398509481984) = q at *
    have f1 : (k : Rat) ≤ fl q := fl_ge_int a1 q0 (by norm_num; linarith)
    have e := fl_err q
    rw [abs_of_pos q0, abs_le] at e
    have f2 : fl q < k + 1 := by
      have := e.2
      norm_num at this
      linarith
    unfold trunc
    rw [if_neg (by linarith)]
    exact floor_eq f1 f2
  · decide +kernel

/-- … and it is too large for the field otherwise. -/
theorem ticks_large {n : Int} (h : 5 * 2 ^ 32 ≤ n) : 2 ^ 32 ≤ trunc (fl ((n : Rat) * fl (1 / 5))) := by
  have hf : fl (1 / 5) = 3602879701896397 / 18014398509481984 := by decide +kernel
  rw [hf]
  have n1 : (21474836480 : Rat) ≤ n := by exact_mod_cast (show (21474836480 : Int) ≤ n by omega)
  have a1 : (4294967296 : Rat) ≤ n * (3602879701896397 / 18014398509481984) := by linarith
  generalize (n : Rat) * (3602879701896397 / 18014398509481984) = q at *
  have q0 : 0 < q := by linarith
  have f1 : ((4294967296 : Int) : Rat) ≤ fl q := by
    by_cases hq : q < 2 ^ 53
    · exact fl_ge_int (by exact_mod_cast a1) q0 hq
    · have e := fl_err q
      rw [abs_of_pos q0, abs_le] at e
      have := e.1
      push_cast
      norm_num at this hq ⊢
      linarith
  unfold trunc
  rw [if_neg (by push_cast at f1; linarith)]
  exact Rat.le_floor_iff.2 f1

variable [FloatEnv]

/-- C102 for every time: the length is rounded down to a multiple of five ticks, part by part, stored, and read as whole bars, beats below
16 and ticks below 240; a time of 5 * 2 ** 32 ticks or more has no place in the field. -/
theorem C102_exact (bars beats ticks : Int) (h1 : 0 ≤ bars) (h2 : 0 ≤ beats) (h3 : 0 ≤ ticks) (rest : Bytes) :
    (timeTicks bars beats ticks < 5 * 2 ^ 32 →
      ∃ bs bars' beats' ticks', leafBuild .musical (some (.time bars beats ticks)) = .ok bs ∧ bs.length = 4 ∧
        leafParse .musical (bs ++ rest) = .ok (.time bars' beats' ticks', rest) ∧
        timeTicks bars' beats' ticks' = timeTicks bars beats ticks / 5 * 5 ∧ 0 ≤ bars' ∧
        (0 ≤ beats' ∧ beats' < 16) ∧ (0 ≤ ticks' ∧ ticks' < 240)) ∧
    (5 * 2 ^ 32 ≤ timeTicks bars beats ticks → ∃ e, leafBuild .musical (some (.time bars beats ticks)) = .error e) := by
  refine ⟨fun hfit => ?_, fun hbig => ?_⟩
  · unfold timeTicks at hfit
    have hn : musicalEncode bars beats ticks = bars * 768 + beats * 48 + ticks / 5 := by
      unfold musicalEncode
      rw [ticks_floor h3 (by omega)]
    obtain ⟨n, hn'⟩ : ∃ n : Nat, bars * 768 + beats * 48 + ticks / 5 = n := ⟨(bars * 768 + beats * 48 + ticks / 5).toNat, by omega⟩
    have hlt : n < 256 ^ 4 := by
      have : (n : Int) < 4294967296 := by omega
      norm_num
      omega
    have hb := intBuild_nat hlt
    refine ⟨leBytes 4 n, (n : Int) / 768, (n : Int) % 768 / 48, (n : Int) % 768 % 48 * 5, ?_, ?_, ?_, ?_, ?_, ?_, ?_⟩
    · show intBuild 4 false (musicalEncode bars beats ticks) = _
      rw [hn, hn', hb]
    · simp
    · simp only [leafParse]
      rw [intParse_intBuild hb]
      rfl
    · unfold timeTicks; omega
    · omega
    · omega
    · omega
  · unfold timeTicks at hbig
    have hn : 2 ^ 32 ≤ musicalEncode bars beats ticks := by
      unfold musicalEncode
      by_cases ht : ticks < 5 * 2 ^ 32
      · rw [ticks_floor h3 ht]
        omega
      · have := ticks_large (n := ticks) (by omega)
        omega
    have hm : intFits 4 false (musicalEncode bars beats ticks) = false := by
      generalize musicalEncode bars beats ticks = m at hn
      simp only [intFits]
      simp
      omega
    show ∃ e, intBuild 4 false (musicalEncode bars beats ticks) = .error e
    unfold intBuild
    rw [hm]
    exact ⟨_, rfl⟩

/-- One bar and nine ticks are stored as one bar and five ticks. -/
example : timeTicks 1 0 9 < 5 * 2 ^ 32 ∧ timeTicks 1 0 9 / 5 * 5 = timeTicks 1 0 5 := by decide

end PyFLP
