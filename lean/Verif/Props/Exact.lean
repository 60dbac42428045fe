import Verif.Props.Patterns
import Verif.Props.Arrangements
import Verif.Props.Rack
/-!
# What collections yield, for every project (C48, C51, C56, C72)
-/

namespace PyFLP

open Spec Heap

namespace Spec

/-- The values of the `New` events of patterns, without repetitions. -/
def newNumbers (l : List Entry) : List Value := ((l.filter fun e => e.2.id == 65).map fun e => e.2.value).eraseDups

end Spec

theorem mem_newNumbers {l : List Entry} {n : Value} : n ∈ newNumbers l ↔ ∃ e ∈ l, e.2.id = 65 ∧ e.2.value = n := by
  unfold newNumbers
  rw [List.mem_eraseDups, List.mem_map]
  constructor
  · rintro ⟨e, he, rfl⟩
    obtain ⟨h1, h2⟩ := List.mem_filter.1 he
    exact ⟨e, h1, by simpa using h2, rfl⟩
  · rintro ⟨e, h1, h2, rfl⟩
    exact ⟨e, List.mem_filter.2 ⟨h1, by simpa using h2⟩, rfl⟩

theorem eraseDups_head {α : Type} [BEq α] [LawfulBEq α] (l : List α) : l.eraseDups.head? = l.head? := by
  cases l with
  | nil => rfl
  | cons a l => rw [List.eraseDups_cons]; rfl

theorem new_pattern {l : List Entry} {n : Value} (h : n ∈ newNumbers l) : n ∈ patternNumbers l := by
  obtain ⟨e, he, hid, rfl⟩ := mem_newNumbers.1 h
  obtain ⟨pre, post, rfl⟩ := List.append_of_mem he
  unfold patternNumbers
  rw [List.mem_eraseDups, List.mem_map]
  exact ⟨(e.2.value, e), mem_patternEvents.2 ⟨isPatternEvent_new hid, pre, post, rfl, (patternNumber_new hid).symm⟩, rfl⟩

theorem patternNumber_zero {upto : List Entry} (h : ∀ x ∈ upto, x.2.id ≠ 65) : patternNumber upto = .lv (.int 0) := by
  unfold patternNumber
  have : upto.filter (fun e => e.2.id == 65) = [] := by
    rw [List.filter_eq_nil_iff]
    intro x hx
    simpa using h x hx
  rw [this]
  rfl

theorem numbered_append (before l m : List Entry) : numbered before (l ++ m) = numbered before l ++ numbered (before ++ l) m := by
  induction l generalizing before with
  | nil => simp [numbered]
  | cons e l ih => simp [numbered, ih]

theorem numbered_zero {before l : List Entry} (h : ∀ x ∈ before ++ l, x.2.id ≠ 65) :
    ∀ x ∈ numbered before l, x.1 = .lv (.int 0) := by
  intro x hx
  obtain ⟨pre, post, h1, h2⟩ := mem_numbered.1 hx
  rw [h2]
  apply patternNumber_zero
  intro y hy
  apply h
  rw [h1]
  simp only [List.mem_append, List.mem_cons, List.not_mem_nil, or_false] at hy ⊢
  rcases hy with (hy | hy) | hy
  · exact .inl hy
  · exact .inr (.inl hy)
  · exact .inr (.inr (.inl hy))

/-- A pattern without a `New` event has the number 0 and is the first one. -/
theorem unnumbered_first {l : List Entry} {n : Value} (h : n ∈ patternNumbers l) (hn : n ∉ newNumbers l) :
    n = .lv (.int 0) ∧ (patternNumbers l).head? = some n := by
  unfold patternNumbers at h ⊢
  rw [List.mem_eraseDups, List.mem_map] at h
  obtain ⟨x, hx, rfl⟩ := h
  obtain ⟨h1, pre, post, h2, h3⟩ := mem_patternEvents.1 hx
  have hno : ∀ y ∈ pre ++ [x.2], y.2.id ≠ 65 := by
    intro y hy hid
    obtain ⟨p, z, q, g1, g2, g3⟩ := patternNumber_from ⟨y, hy, hid⟩
    apply hn
    refine mem_newNumbers.2 ⟨z, ?_, g2, by rw [h3, g3]⟩
    have : z ∈ pre ++ [x.2] := by rw [g1]; simp
    rw [h2]
    simp only [List.mem_append, List.mem_cons, List.not_mem_nil, or_false] at this ⊢
    rcases this with h | h
    · exact .inl h
    · exact .inr (.inl h)
  have h0 : x.1 = .lv (.int 0) := by rw [h3]; exact patternNumber_zero hno
  refine ⟨h0, ?_⟩
  rw [eraseDups_head, List.head?_map]
  unfold patternEvents
  have hl : l = (pre ++ [x.2]) ++ post := by rw [h2]; simp
  rw [hl, numbered_append, List.filter_append, List.head?_append]
  have hin : x ∈ (numbered [] (pre ++ [x.2])).filter fun y => isPatternEvent y.2 := by
    refine List.mem_filter.2 ⟨mem_numbered.2 ⟨pre, [], by simp, ?_⟩, h1⟩
    simpa using h3
  cases hf : (numbered [] (pre ++ [x.2])).filter fun y => isPatternEvent y.2 with
  | nil => rw [hf] at hin; cases hin
  | cons y ys =>
    have hy : y ∈ (numbered [] (pre ++ [x.2])).filter fun y => isPatternEvent y.2 := by rw [hf]; simp
    have := numbered_zero (before := []) (l := pre ++ [x.2]) (by simpa using hno) y (List.mem_filter.1 hy).1
    simp [this, h0]

theorem patternIid_exact {w : World} {L : Nat → Prop} (r : WReach w L) {u : Nat} (hu : L u) {l : List Entry} {n : Value}
    (he : w.entries u = patternOf l n) :
    w.patternIid u = if n ∈ newNumbers l then .ok n else .error .keyError := by
  unfold World.patternIid
  rcases first_entry r hu 65 with ⟨pre, ref, post, h1, h2, h3, _⟩ | ⟨h1, h2⟩
  · rw [h1]
    have : (ref, w.ev ref) ∈ patternOf l n := by rw [← he, h2]; simp
    obtain ⟨g1, g2⟩ := (patternOf_new h3).1 this
    rw [if_pos (mem_newNumbers.2 ⟨_, g1, h3, g2⟩)]
    exact congrArg Except.ok g2
  · rw [h1, if_neg]
    intro hn
    obtain ⟨e, he1, he2, he3⟩ := mem_newNumbers.1 hn
    exact absurd he2 (h2 e (by rw [he]; exact (patternOf_new he2).2 ⟨he1, he3⟩))

theorem iids_exact {w : World} {L : Nat → Prop} (r : WReach w L) {t : Nat} (ht : L t) (hne : shown w.heap 0 ≠ []) :
    (w.iterPatterns t).2.map (w.iterPatterns t).1.patternIid =
      (patternNumbers (w.entries t)).map fun n => if n ∈ newNumbers (w.entries t) then .ok n else .error .keyError := by
  obtain ⟨h1, h2, _⟩ := iterPatterns_spec r ht hne
  have hlen : (w.iterPatterns t).2.length = (patternNumbers (w.entries t)).length := by
    have := congrArg List.length h2
    simpa using this
  apply List.ext_getElem
  · simpa using hlen
  · intro i i1 i2
    have hi : i < (w.iterPatterns t).2.length := by simpa using i1
    have hi2 : i < (patternNumbers (w.entries t)).length := by simpa using i2
    rw [List.getElem_map, List.getElem_map]
    refine patternIid_exact h1 (.inr (List.getElem_mem hi)) ?_
    exact getElem_of_map_eq h2 (List.getElem?_eq_getElem hi) (List.getElem?_eq_getElem hi2)

theorem lenPatterns_exact {w : World} {L : Nat → Prop} (r : WReach w L) {t : Nat} (ht : L t) :
    w.lenPatterns t = if newNumbers (w.entries t) = [] then .error .noModelsFound else .ok (newNumbers (w.entries t)).length := by
  have hv : (w.heap.get t [65]).map (fun ref => (w.ev ref).value) =
      ((w.entries t).filter fun e => e.2.id == 65).map fun e => e.2.value := by
    rw [get_entries r ht, List.map_map]
    have : ((w.entries t).filter fun e => decide (e.2.id = 65)) = (w.entries t).filter fun e => e.2.id == 65 := by
      apply List.filter_congr
      intro e _
      rw [Bool.eq_iff_iff]
      simp
    rw [this]
    apply List.map_congr_left
    intro e he
    obtain ⟨a, _, rfl⟩ := List.mem_map.1 (List.mem_filter.1 he).1
    rfl
  unfold World.lenPatterns
  rw [hv]
  by_cases hc : ∃ e ∈ w.entries t, e.2.id = 65
  · rw [if_pos ((contains_entries r ht 65).2 hc), if_neg]
    · rfl
    · intro hnil
      obtain ⟨e, he, hid⟩ := hc
      have : e.2.value ∈ newNumbers (w.entries t) := mem_newNumbers.2 ⟨e, he, hid, rfl⟩
      rw [hnil] at this
      cases this
  · rw [if_neg (fun h => hc ((contains_entries r ht 65).1 h)), if_pos]
    rw [List.eq_nil_iff_forall_not_mem]
    intro n hn
    obtain ⟨e, he, hid, _⟩ := mem_newNumbers.1 hn
    exact hc ⟨e, he, hid⟩

/-- C48, for every project and state: `len()` is the number of different values of `New` events and raises `NoModelsFound` if
there is no such event.  Iterating yields a pattern for every one of these values, and before them a pattern 0 if events
come before the first `New` event; reading its `iid` raises `KeyError` unless a `New` event has the number 0. -/
theorem C48_exact {w : World} {L : Nat → Prop} (r : WReach w L) {t : Nat} (ht : L t) (hne : shown w.heap 0 ≠ []) :
    let l := w.entries t
    let us := (w.iterPatterns t).2
    (w.lenPatterns t = if newNumbers l = [] then .error .noModelsFound else .ok (newNumbers l).length) ∧
    (us.map (w.iterPatterns t).1.patternIid = (patternNumbers l).map fun n => if n ∈ newNumbers l then .ok n else .error .keyError) ∧
    (∀ n ∈ newNumbers l, n ∈ patternNumbers l) ∧
    (∀ n ∈ patternNumbers l, n ∉ newNumbers l → n = .lv (.int 0) ∧ (patternNumbers l).head? = some n) ∧
    (patternNumbers l).Nodup ∧ (newNumbers l).Nodup :=
  ⟨lenPatterns_exact r ht, iids_exact r ht hne, fun _ h => new_pattern h, fun _ h hn => unnumbered_first h hn,
    eraseDups_nodup _, eraseDups_nodup _⟩

theorem findIid_exact {w : World} (v : Value) {l : List Entry} : ∀ {us : List Nat} {ns : List Value}, (∀ n ∈ ns, n ∈ newNumbers l) →
    us.map w.patternIid = (ns.map fun n => if n ∈ newNumbers l then .ok n else .error .keyError) →
    w.findIid v us = .ok ((us.zip ns).find? (fun x => decide (x.2 = v)) |>.map Prod.fst) := by
  intro us ns hall h
  apply findIid_eq
  rw [h]
  apply List.map_congr_left
  intro n hn
  rw [if_pos (hall n hn)]

/-- C51, for every project and state: without a selected pattern `current` is `None`.  If the first pattern has no `New`
event, `current` raises `KeyError`; otherwise it is the pattern with the selected number, and `None` if there is none. -/
theorem C51_exact {w : World} {L : Nat → Prop} (r : WReach w L) {t : Nat} (ht : L t) (hne : shown w.heap 0 ≠ []) :
    let l := w.entries t
    match valueOf (w.events t) 67 with
    | none => (w.currentPattern t).2 = .ok none
    | some n =>
      if ∃ k, (patternNumbers l).head? = some k ∧ k ∉ newNumbers l then (w.currentPattern t).2 = .error .keyError
      else if n ∈ patternNumbers l then
        ∃ u, (w.currentPattern t).2 = .ok (some u) ∧ (w.currentPattern t).1.entries u = patternOf l n
      else (w.currentPattern t).2 = .ok none := by
  dsimp only
  have hcont := World.contains_eq r ht 67
  rcases World.first_value r ht 67 with ⟨ref, f1, f2, f3, f4⟩ | ⟨f1, f2⟩
  · rw [f3]
    dsimp only
    have hc : w.contains t 67 = true := by rw [hcont, f3]; rfl
    have hcur : w.currentPattern t = ((w.iterPatterns t).1, (w.iterPatterns t).1.findIid (w.ev ref).value (w.iterPatterns t).2) := by
      unfold World.currentPattern
      rw [if_pos hc, f1]
    rw [hcur]
    dsimp only
    obtain ⟨i1, i2, _⟩ := iterPatterns_spec r ht hne
    have hi := iids_exact r ht hne
    split
    · next hk =>
      obtain ⟨k, hk1, hk2⟩ := hk
      cases hp : patternNumbers (w.entries t) with
      | nil => rw [hp] at hk1; cases hk1
      | cons m ns =>
        rw [hp] at hk1 hi
        cases hk1
        cases hu : (w.iterPatterns t).2 with
        | nil => rw [hu] at hi; cases hi
        | cons u us =>
          rw [hu, List.map_cons, List.map_cons, if_neg hk2] at hi
          rw [World.findIid, (List.cons.inj hi).1]
    · next hk =>
      have hall : ∀ n ∈ patternNumbers (w.entries t), n ∈ newNumbers (w.entries t) := by
        intro n hn
        apply Classical.byContradiction
        intro hnn
        exact hk ⟨n, (unnumbered_first hn hnn).2, hnn⟩
      rw [findIid_exact _ hall hi]
      have hlen : (w.iterPatterns t).2.length = (patternNumbers (w.entries t)).length := by
        have := congrArg List.length i2
        simpa using this
      split
      · next hm =>
        obtain ⟨i, hi, hin⟩ := List.getElem_of_mem hm
        have hi' : i < (w.iterPatterns t).2.length := by omega
        cases hf : ((w.iterPatterns t).2.zip (patternNumbers (w.entries t))).find?
            (fun x => decide (x.2 = (w.ev ref).value)) with
        | none =>
          have := List.find?_eq_none.1 hf ((w.iterPatterns t).2[i], (patternNumbers (w.entries t))[i]) (by
            rw [List.mem_iff_getElem?]
            exact ⟨i, by simp [List.getElem?_zip_eq_some, hi, hi']⟩)
          simp [hin] at this
        | some x =>
          have hx1 := List.find?_some hf
          have hx2 := List.mem_of_find?_eq_some hf
          obtain ⟨j, hj⟩ := List.mem_iff_getElem?.1 hx2
          rw [List.getElem?_zip_eq_some] at hj
          refine ⟨x.1, rfl, ?_⟩
          rw [getElem_of_map_eq i2 hj.1 hj.2]
          simp only [decide_eq_true_eq] at hx1
          rw [hx1]
      · next hm =>
        cases hf : ((w.iterPatterns t).2.zip (patternNumbers (w.entries t))).find?
            (fun x => decide (x.2 = (w.ev ref).value)) with
        | none => rfl
        | some x =>
          have hx1 := List.find?_some hf
          have hx2 := List.mem_of_find?_eq_some hf
          simp only [decide_eq_true_eq] at hx1
          exact absurd (hx1 ▸ (List.of_mem_zip hx2).2) hm
  · rw [f2]
    dsimp only
    have hc : ¬ w.contains t 67 = true := by rw [hcont, f2]; simp
    unfold World.currentPattern
    rw [if_neg hc]

open Demo in
/-- The hypotheses of `C48_exact` and `C51_exact` can be met by a project that has events before the first `New` event. -/
example : WReach earlySelectedWorld.1 (fun u => u = 0 ∨ u = earlySelectedWorld.2) ∧ shown earlySelectedWorld.1.heap 0 ≠ [] ∧
    patternNumbers (earlySelectedWorld.1.entries earlySelectedWorld.2) = [.lv (.int 0), .lv (.int 1)] ∧
    newNumbers (earlySelectedWorld.1.entries earlySelectedWorld.2) = [.lv (.int 1)] :=
  ⟨pickView_reach (.parsed Demo.earlySelected) rfl (by decide +kernel) patternsStep false, by decide +kernel, by decide +kernel,
    by decide +kernel⟩


/-! ### Arrangements (C56) -/

namespace Spec

/-- A list cut before every element that ends a part; whether it does may depend on the elements before it. -/
def cutBefore (ends : List Entry → Entry → Bool) (before : List Entry) : List Entry → List (List Entry)
  | [] => [[]]
  | e :: l =>
    match cutBefore ends (before ++ [e]) l with
    | s :: ss => if ends before e then [] :: (e :: s) :: ss else (e :: s) :: ss
    | [] => []

/-- What ends an arrangement: `Current` events, and `New` events but the first one. -/
def endsArrangement (before : List Entry) (e : Entry) : Bool :=
  e.2.id == 100 || (e.2.id == 99 && before.any fun x => x.2.id == 99)

end Spec

theorem cutBefore_cons (ends : List Entry → Entry → Bool) (l : List Entry) : ∀ before,
    ∃ s ss, cutBefore ends before l = s :: ss := by
  induction l with
  | nil => intro _; exact ⟨[], [], rfl⟩
  | cons e l ih =>
    intro before
    obtain ⟨s, ss, h⟩ := ih (before ++ [e])
    rw [cutBefore, h]
    dsimp only
    split
    · exact ⟨_, _, rfl⟩
    · exact ⟨_, _, rfl⟩

/-- Nothing is lost or moved by cutting. -/
theorem cutBefore_flatten (ends : List Entry → Entry → Bool) (l : List Entry) : ∀ before,
    (cutBefore ends before l).flatten = l := by
  induction l with
  | nil => intro _; rfl
  | cons e l ih =>
    intro before
    obtain ⟨s, ss, h⟩ := cutBefore_cons ends l (before ++ [e])
    have := ih (before ++ [e])
    rw [h] at this
    rw [cutBefore, h]
    dsimp only
    split
    · simpa using this
    · simpa using this

theorem arrangementStep_eq (before : List Entry) (e : Entry) :
    arrangementStep (before.any fun x => x.2.id == 99) e.2.id =
      (if endsArrangement before e then some false else if isArrangementEvent e then some true else none,
        (before ++ [e]).any fun x => x.2.id == 99) := by
  unfold arrangementStep endsArrangement isArrangementEvent
  rw [arrangementID_has, List.any_append]
  by_cases h1 : e.2.id = 99
  · cases h2 : before.any fun x => x.2.id == 99 <;> simp [h1]
  · by_cases h2 : e.2.id = 100
    · simp [h2]
    · simp [h1, h2]
      split <;> rfl

theorem ends_shown {before : List Entry} {e : Entry} (h : endsArrangement before e = true) :
    (isArrangementEvent e || e.2.id == 100) = true := by
  unfold endsArrangement at h
  unfold isArrangementEvent
  simp only [Bool.or_eq_true, Bool.and_eq_true, beq_iff_eq, decide_eq_true_eq] at h ⊢
  rcases h with h | ⟨h, _⟩
  · exact .inr h
  · exact .inl (by rw [h]; decide)

theorem cut_exact (l : List Entry) : ∀ (before el : List Entry) (n : Nat) (s : List Entry) (ss : List (List Entry)),
    cutBefore endsArrangement before l = s :: ss →
    cutBy arrangementStep (fun e : Entry => e.2.id) (before.any fun x => x.2.id == 99) l el (n : Int) =
      (((el ++ s.filter fun e => isArrangementEvent e || e.2.id == 100) ::
        ss.map fun p => p.filter fun e => isArrangementEvent e || e.2.id == 100).dropLast).take n := by
  induction l with
  | nil =>
    intro before el n s ss h
    cases h
    simp [cutBy]
  | cons e l ih =>
    intro before el n s ss h
    obtain ⟨s', ss', h'⟩ := cutBefore_cons endsArrangement l (before ++ [e])
    rw [cutBefore, h'] at h
    dsimp only at h
    rw [cutBy]
    cases n with
    | zero => simp
    | succ n =>
      rw [if_neg (by omega), arrangementStep_eq]
      dsimp only
      cases he : endsArrangement before e with
      | true =>
        rw [he, if_pos rfl] at h
        cases h
        have hq := ends_shown he
        simp only [if_true]
        have := ih (before ++ [e]) [e] n s' ss' h'
        rw [show ((n + 1 : Nat) : Int) - 1 = (n : Int) by omega, this]
        rw [List.filter_nil, List.append_nil, List.map_cons, List.filter_cons, if_pos hq]
        rfl
      | false =>
        rw [he, if_neg (by decide)] at h
        cases h
        have h100 : e.2.id ≠ 100 := by
          intro hc
          unfold endsArrangement at he
          simp [hc] at he
        simp only [if_false, Bool.false_eq_true]
        cases ha : isArrangementEvent e with
        | true =>
          simp only [if_true]
          rw [ih (before ++ [e]) (el ++ [e]) (n + 1) _ _ h', List.filter_cons, if_pos (by simp [ha])]
          simp
        | false =>
          simp only [if_false, Bool.false_eq_true]
          rw [ih (before ++ [e]) el (n + 1) _ _ h', List.filter_cons, if_neg (by simp [ha, h100])]

theorem cutBefore_length (l : List Entry) : ∀ before,
    (cutBefore endsArrangement before l).length =
      1 + (l.filter fun e => decide (e.2.id = 100)).length + ((l.filter fun e => decide (e.2.id = 99)).length -
        if before.any fun x => x.2.id == 99 then 0 else 1) := by
  induction l with
  | nil => intro before; simp [cutBefore]
  | cons e l ih =>
    intro before
    obtain ⟨s, ss, h⟩ := cutBefore_cons endsArrangement l (before ++ [e])
    have hl := ih (before ++ [e])
    rw [h] at hl
    rw [cutBefore, h, List.filter_cons, List.filter_cons]
    rw [List.any_append] at hl
    dsimp only
    unfold endsArrangement
    by_cases h1 : e.2.id = 99
    · cases h2 : before.any fun x => x.2.id == 99
      · simp [h1, h2] at hl ⊢; omega
      · simp [h1, h2] at hl ⊢; omega
    · by_cases h3 : e.2.id = 100
      · cases h2 : before.any fun x => x.2.id == 99
        · simp [h3, h2] at hl ⊢; omega
        · simp [h3, h2] at hl ⊢; omega
      · cases h2 : before.any fun x => x.2.id == 99
        · simp [h1, h3, h2] at hl ⊢; omega
        · simp [h1, h3, h2] at hl ⊢; omega

/-- C56, for every project and state.  Without a `New` event iterating raises `NoModelsFound`.  Otherwise cut the events before
every `Current` event and before every `New` event but the first one: with `n` `New` events, the arrangements are the first
`n` parts, without the very last one; each shows the arrangement, time marker and track events of its part, and the
`Current` event if it begins with one.  So there are `n` of them if there is a `Current` event, and `n - 1` otherwise. -/
theorem C56_exact {w : World} {L : Nat → Prop} (r : WReach w L) {t : Nat} (ht : L t) (hne : shown w.heap 0 ≠ []) :
    let l := w.entries t
    let n := (l.filter fun e => decide (e.2.id = 99)).length
    if n = 0 then w.iterArrangements t = (w, .error .noModelsFound)
    else ∃ w' us, w.iterArrangements t = (w', .ok us) ∧
      us.map w'.entries = (((cutBefore endsArrangement [] l).dropLast).take n).map
        (fun p => p.filter fun e => isArrangementEvent e || e.2.id == 100) ∧
      (us.length = if ∃ e ∈ l, e.2.id = 100 then n else n - 1) ∧
      WReach w' (fun u => L u ∨ u ∈ us) ∧ w'.project = w.project := by
  dsimp only
  have hc := count_entries r ht 99
  have hcont := contains_entries r ht 99
  split
  · next h0 =>
    unfold World.iterArrangements World.lenArrangements
    rw [if_neg]
    intro h
    obtain ⟨e, he, hid⟩ := hcont.1 h
    have : e ∈ (w.entries t).filter fun e => decide (e.2.id = 99) := List.mem_filter.2 ⟨he, by simpa using hid⟩
    rw [List.length_eq_zero_iff.1 h0] at this
    cases this
  · next h0 =>
    obtain ⟨h1, h2, h3, _⟩ := subViews_spec r ht hne arrangementStep false ((w.count t 99 : Nat) : Int)
    have hin : w.contains t 99 = true := by
      apply hcont.2
      cases hf : (w.entries t).filter fun e => decide (e.2.id = 99) with
      | nil => rw [hf] at h0; exact absurd rfl h0
      | cons e es =>
        have : e ∈ (w.entries t).filter fun e => decide (e.2.id = 99) := by rw [hf]; simp
        exact ⟨e, (List.mem_filter.1 this).1, by simpa using (List.mem_filter.1 this).2⟩
    have hit : w.iterArrangements t = ((w.subViews t arrangementStep false ((w.count t 99 : Nat) : Int)).1,
        .ok (w.subViews t arrangementStep false ((w.count t 99 : Nat) : Int)).2) := by
      unfold World.iterArrangements World.lenArrangements
      rw [if_pos hin]
    obtain ⟨s, ss, hs⟩ := cutBefore_cons endsArrangement (w.entries t) []
    have hcut := cut_exact (w.entries t) [] [] (w.count t 99) s ss hs
    rw [List.any_nil] at hcut
    rw [hcut] at h2
    have hviews : (w.subViews t arrangementStep false ((w.count t 99 : Nat) : Int)).2.map
        (w.subViews t arrangementStep false ((w.count t 99 : Nat) : Int)).1.entries =
        (((cutBefore endsArrangement [] (w.entries t)).dropLast).take ((w.entries t).filter fun e => decide (e.2.id = 99)).length).map
          (fun p => p.filter fun e => isArrangementEvent e || e.2.id == 100) := by
      rw [h2, hs, hc, List.nil_append, List.map_take, ← List.map_cons, List.map_dropLast]
    refine ⟨_, _, hit, hviews, ?_, h1, h3⟩
    have hlen := congrArg List.length hviews
    rw [List.length_map, List.length_map, List.length_take, List.length_dropLast, cutBefore_length, List.any_nil] at hlen
    simp only [Bool.false_eq_true, if_false] at hlen
    change _ = min ((w.entries t).filter fun e => decide (e.2.id = 99)).length
      (1 + ((w.entries t).filter fun e => decide (e.2.id = 100)).length +
        (((w.entries t).filter fun e => decide (e.2.id = 99)).length - 1) - 1) at hlen
    rw [hlen]
    split
    · next hcur =>
      obtain ⟨e, he, hid⟩ := hcur
      have : e ∈ (w.entries t).filter fun e => decide (e.2.id = 100) := List.mem_filter.2 ⟨he, by simpa using hid⟩
      have := List.length_pos_of_mem this
      omega
    · next hcur =>
      have : ((w.entries t).filter fun e => decide (e.2.id = 100)).length = 0 := by
        rw [List.length_eq_zero_iff, List.filter_eq_nil_iff]
        intro e he hh
        exact hcur ⟨e, he, by simpa using hh⟩
      omega


open Demo in
/-- Two arrangements with a `Current` event, and one without: its events are lost. -/
example : WReach albumWorld.1 (fun u => u = 0 ∨ u = albumWorld.2) ∧ shown albumWorld.1.heap 0 ≠ [] ∧
    ((cutBefore endsArrangement [] (albumWorld.1.entries albumWorld.2)).length, (cutBefore endsArrangement []
      (lostWorld.1.entries lostWorld.2)).length) = (3, 2) ∧
    (albumWorld.1.iterArrangements albumWorld.2).2 = .ok [2, 3] ∧ shown lostWorld.1.heap 0 ≠ [] := by
  refine ⟨album_reach, by decide +kernel, by decide +kernel, by decide +kernel, by decide +kernel⟩

/-! ### The channel rack (C72) -/

namespace Spec

/-- What begins the events of another channel: `New` events but the first one. -/
def beginsChannel (before : List Entry) (e : Entry) : Bool := e.2.id == 64 && before.any fun x => x.2.id == 64

/-- What becomes of a part of the rack: a channel with its `iid`, class and display group, or an exception.  `groups` are the
events of the display groups; a negative number counts from the last one. -/
def channelResult (groups : List Entry) (part : List Entry) : Except Exc (Value × ChClass × Entry) :=
  match valueOf (part.map Prod.snd) 64, valueOf (part.map Prod.snd) 21, valueOf (part.map Prod.snd) 145 with
  | some iid, some _, some (.lv (.int n)) =>
    match (if 0 ≤ n then groups[n.toNat]? else if -n ≤ groups.length then groups[groups.length - (-n).toNat]? else none) with
    | some g => .ok (iid, classOf (part.map Prod.snd), g)
    | none => .error .indexError
  | some _, some _, some _ => .error .typeError
  | _, _, _ => .error .keyError

end Spec

theorem div_exact (ids : List Nat) (l : List Entry) : ∀ (before el : List Entry) (s : List Entry) (ss : List (List Entry)),
    cutBefore beginsChannel before l = s :: ss →
    divBy (fun e : Entry => e.2.id) 64 ids l el (!before.any fun x => x.2.id == 64) =
      (el ++ s.filter fun e => decide (e.2.id ∈ ids)) :: ss.map fun p => p.filter fun e => decide (e.2.id ∈ ids) := by
  induction l with
  | nil =>
    intro before el s ss h
    cases h
    simp [divBy]
  | cons e l ih =>
    intro before el s ss h
    obtain ⟨s', ss', h'⟩ := cutBefore_cons beginsChannel l (before ++ [e])
    rw [cutBefore, h'] at h
    dsimp only at h
    rw [divBy]
    cases he : beginsChannel before e with
    | true =>
      rw [he, if_pos rfl] at h
      cases h
      have h1 : e.2.id = 64 := by unfold beginsChannel at he; simp at he; exact he.1
      have h2 : (before.any fun x => x.2.id == 64) = true := by
        unfold beginsChannel at he
        rw [Bool.and_eq_true] at he
        exact he.2
      have h3 := ih (before ++ [e]) (if e.2.id ∈ ids then [e] else []) s' ss' h'
      rw [List.any_append, h2] at h3
      rw [if_pos ⟨h1, by rw [h2]; rfl⟩, List.filter_nil, List.append_nil, List.map_cons]
      simp only [Bool.true_or, Bool.not_true] at h3
      rw [h3, List.filter_cons]
      by_cases hm : e.2.id ∈ ids <;> simp [hm]
    | false =>
      rw [he, if_neg (by decide)] at h
      cases h
      have hn : ¬ (e.2.id = 64 ∧ (!before.any fun x => x.2.id == 64) = false) := by
        rintro ⟨h1, h2⟩
        unfold beginsChannel at he
        rw [h1] at he
        simp only [Bool.not_eq_false'] at h2
        rw [h2] at he
        simp at he
      rw [if_neg hn]
      have h3 := ih (before ++ [e]) (if e.2.id ∈ ids then el ++ [e] else el) _ _ h'
      rw [List.any_append] at h3
      have e1 : (!((before.any fun x => x.2.id == 64) || [e].any fun x => x.2.id == 64)) =
          ((!before.any fun x => x.2.id == 64) && e.2.id != 64) := by
        simp [bne]
      rw [e1] at h3
      rw [h3, List.filter_cons]
      by_cases hm : e.2.id ∈ ids <;> simp [hm]

theorem valueOf_filter {id : Nat} (hid : (channelID.has id || pluginID.has id) = true) (l : List Entry) :
    valueOf ((l.filter isChannelEvent).map Prod.snd) id = valueOf (l.map Prod.snd) id := by
  unfold valueOf
  congr 1
  induction l with
  | nil => rfl
  | cons e l ih =>
    rw [List.filter_cons]
    by_cases hc : isChannelEvent e = true
    · rw [if_pos hc, List.map_cons, List.map_cons, List.find?_cons, List.find?_cons, ih]
    · rw [if_neg hc, List.map_cons, List.find?_cons]
      have : (e.2.id == id) = false := by
        rw [beq_eq_false_iff_ne]
        intro he
        unfold isChannelEvent at hc
        rw [he] at hc
        exact hc hid
      rw [this]
      exact ih

theorem channelOf_exact {w : World} {L : Nat → Prop} (r : WReach w L) {u : Nat} (hu : L u) {gs : List Nat}
    {groups : List Entry} (hg : gs.map w.entries = groups.map fun e => [e]) {b : List Entry}
    (hb : w.entries u = b.filter isChannelEvent) (htext : ∀ v, valueOf (b.map Prod.snd) 201 = some v → ∃ s, v = .str s) :
    match channelResult groups b with
    | .ok (iid, cls, g) => ∃ v, w.channelOf gs u = .ok ⟨u, cls, v, iid⟩ ∧ w.entries v = [g]
    | .error x => w.channelOf gs u = .error x := by
  have val : ∀ id, (channelID.has id || pluginID.has id) = true → valueOf (w.events u) id = valueOf (b.map Prod.snd) id := by
    intro id hid
    rw [← World.entries_events, hb, valueOf_filter hid]
  have v64 := val 64 (by decide)
  have v21 := val 21 (by decide)
  have v145 := val 145 (by decide)
  have v196 := val 196 (by decide)
  have v201 := val 201 (by decide)
  have hgl : gs.length = groups.length := by
    have := congrArg List.length hg
    simpa using this
  have hgi : ∀ (k : Nat), match groups[k]? with
      | some g => ∃ v, gs[k]? = some v ∧ w.entries v = [g]
      | none => gs[k]? = none := by
    intro k
    cases hk : groups[k]? with
    | none =>
      dsimp only
      rw [List.getElem?_eq_none_iff] at hk ⊢
      omega
    | some g =>
      dsimp only
      obtain ⟨hn1, hn2⟩ := List.getElem?_eq_some_iff.1 hk
      refine ⟨gs[k]'(by omega), List.getElem?_eq_getElem _, ?_⟩
      have := congrArg (fun l => l[k]?) hg
      simp only [List.getElem?_map, hk, List.getElem?_eq_getElem (show k < gs.length by omega), Option.map_some] at this
      exact Option.some.inj this
  unfold channelResult World.channelOf
  rw [firstVal_spec r hu, firstVal_spec r hu, firstVal_spec r hu, firstVal_spec r hu, v64, v21, v145,
    World.contains_eq r hu, World.contains_eq r hu]
  cases e64 : valueOf (b.map Prod.snd) 64 with
  | none => rfl
  | some iid =>
  cases e21 : valueOf (b.map Prod.snd) 21 with
  | none => rfl
  | some typ =>
  cases e145 : valueOf (b.map Prod.snd) 145 with
  | none => rfl
  | some gv =>
  dsimp only
  have htr : ∀ v, valueOf (w.events u) 201 = some v → (v.truthy = false ↔ v = .str []) := by
    intro v hv
    rw [v201] at hv
    obtain ⟨s, rfl⟩ := htext v hv
    unfold Value.truthy
    cases s <;> simp
  by_cases hint : ∃ n, gv = .lv (.int n)
  · obtain ⟨n, rfl⟩ := hint
    dsimp only
    have key : ∀ o : Option Entry, (match o with
        | some g => ∃ v, pyIndex gs n = some v ∧ w.entries v = [g]
        | none => pyIndex gs n = none) →
        match (match o with
          | some g => Except.ok (iid, classOf (b.map Prod.snd), g)
          | none => .error .indexError : Except Exc (Value × ChClass × Entry)) with
        | .ok (iid', cls, g) => ∃ v, (match pyIndex gs n with
            | none => Except.error Exc.indexError
            | some g' => .ok ⟨u, if ((valueOf (w.events u) 196).isSome && (valueOf (w.events u) 201).isSome) = true then
                match (match valueOf (w.events u) 201 with | some v => (.ok v : Py Value) | none => .error .keyError) with
                | .ok v => if (!v.truthy && decide (classOfType typ = .instrument)) = true then ChClass.sampler
                  else classOfType typ
                | .error _ => classOfType typ
              else classOfType typ, g', iid⟩ : Except Exc Chan) = .ok ⟨u, cls, v, iid'⟩ ∧ w.entries v = [g]
        | .error x => (match pyIndex gs n with
            | none => Except.error Exc.indexError
            | some g' => .ok ⟨u, if ((valueOf (w.events u) 196).isSome && (valueOf (w.events u) 201).isSome) = true then
                match (match valueOf (w.events u) 201 with | some v => (.ok v : Py Value) | none => .error .keyError) with
                | .ok v => if (!v.truthy && decide (classOfType typ = .instrument)) = true then ChClass.sampler
                  else classOfType typ
                | .error _ => classOfType typ
              else classOfType typ, g', iid⟩ : Except Exc Chan) = .error x := by
      intro o ho
      cases o with
      | none =>
        dsimp only at ho ⊢
        rw [ho]
      | some g =>
        dsimp only at ho ⊢
        obtain ⟨v, h1, h2⟩ := ho
        refine ⟨v, ?_, h2⟩
        rw [h1]
        dsimp only
        congr 2
        unfold classOf
        rw [e21, ← v196, ← v201]
        exact class_eq typ _ _ htr
    refine key _ ?_
    by_cases hn : 0 ≤ n
    · rw [if_pos hn]
      have := hgi n.toNat
      unfold pyIndex
      rw [if_pos hn]
      exact this
    · rw [if_neg hn]
      unfold pyIndex
      rw [if_neg hn]
      by_cases hm : -n ≤ groups.length
      · have := hgi (groups.length - (-n).toNat)
        rw [if_pos hm, if_pos (by rw [hgl]; omega), hgl,
          show (n + (groups.length : Int)).toNat = groups.length - (-n).toNat by omega]
        exact this
      · rw [if_neg hm, if_neg (by rw [hgl]; omega)]
  · have e1 : ∀ n, gv ≠ .lv (.int n) := fun n hn => hint ⟨n, hn⟩
    split
    · next h =>
      split at h
      · next h1 h2 h3 => exact absurd (Option.some.inj h3) (e1 _)
      · cases h
      · cases h
    · next h =>
      split at h
      · next h1 h2 h3 => exact absurd (Option.some.inj h3) (e1 _)
      · cases h
        split
        · next n _ => exact absurd rfl (e1 n)
        · rfl
      · next hno => exact absurd rfl (hno _ _ _ rfl rfl)

/-- What iterating the parts yields: the channels up to the first part that gives none, and its exception. -/
theorem rackLoop_exact {w : World} {L : Nat → Prop} (r : WReach w L) {gs : List Nat} {groups : List Entry}
    (hg : gs.map w.entries = groups.map fun e => [e]) (us : List Nat) : ∀ (parts : List (List Entry)),
    us.map w.entries = parts.map (fun b => b.filter isChannelEvent) → (∀ u ∈ us, L u) →
    (∀ b ∈ parts, ∀ v, valueOf (b.map Prod.snd) 201 = some v → ∃ s, v = .str s) →
    (w.rackLoop gs us).1.length ≤ parts.length ∧
    (∀ (k : Nat) (c : Chan), (w.rackLoop gs us).1[k]? = some c → ∃ b g, parts[k]? = some b ∧
      channelResult groups b = .ok (c.iid, c.cls, g) ∧ w.entries c.group = [g] ∧
      w.entries c.tree = b.filter isChannelEvent ∧ us[k]? = some c.tree) ∧
    match (w.rackLoop gs us).2 with
    | none => (w.rackLoop gs us).1.length = parts.length
    | some x => ∃ b, parts[(w.rackLoop gs us).1.length]? = some b ∧ channelResult groups b = .error x := by
  induction us with
  | nil =>
    intro parts h1 _ _
    cases parts with
    | nil => exact ⟨Nat.le_refl _, fun k c h => by simp [World.rackLoop] at h, rfl⟩
    | cons b parts => simp at h1
  | cons u us ih =>
    intro parts h1 h2 h3
    cases parts with
    | nil => simp at h1
    | cons b parts =>
      rw [List.map_cons, List.map_cons] at h1
      obtain ⟨e1, e2⟩ := List.cons.inj h1
      have hc := channelOf_exact r (h2 u (by simp)) hg e1 (h3 b (by simp))
      obtain ⟨i1, i2, i3⟩ := ih parts e2 (fun u hu => h2 u (by simp [hu])) (fun b hb => h3 b (by simp [hb]))
      unfold World.rackLoop
      cases hr : channelResult groups b with
      | error x =>
        rw [hr] at hc
        dsimp only at hc
        rw [hc]
        exact ⟨Nat.zero_le _, fun k c h => by simp at h, b, rfl, hr⟩
      | ok q =>
        obtain ⟨iid, cls, g⟩ := q
        rw [hr] at hc
        dsimp only at hc
        obtain ⟨v, c1, c2⟩ := hc
        rw [c1]
        dsimp only
        refine ⟨by simpa using i1, ?_, ?_⟩
        · intro k c hk
          cases k with
          | zero =>
            cases hk
            exact ⟨b, g, rfl, hr, c2, e1, rfl⟩
          | succ k =>
            simp only [List.getElem?_cons_succ] at hk ⊢
            exact i2 k c hk
        · cases h4 : (w.rackLoop gs us).2 with
          | none =>
            rw [h4] at i3
            dsimp only at i3 ⊢
            simp [i3]
          | some x =>
            rw [h4] at i3
            dsimp only at i3 ⊢
            simpa using i3

/-- C72 for every rack: `iter()` gives the channels of the parts that end before each `New` event but the first one.  A part
without a `New`, `Type` or `GroupNum` event, or whose group number is out of range, ends it with an exception; `len()` is the number
of `New` events. -/
theorem C72_exact {w : World} {L : Nat → Prop} (r : WReach w L) {t : Nat} (ht : L t) (hne : shown w.heap 0 ≠ [])
    (htext : ∀ e ∈ w.entries t, e.2.id = 201 → ∃ s, e.2.value = .str s) {groups : List Entry} {parts : List (List Entry)}
    (hgr : groups = (w.entries t).filter fun e => decide (e.2.id = 231))
    (hparts : parts = cutBefore beginsChannel [] (w.entries t)) :
    w.lenRack t = (if (w.entries t).any fun e => e.2.id == 64 then
      .ok ((w.entries t).filter fun e => decide (e.2.id = 64)).length else .error .noModelsFound) ∧
    ∃ w' cs err, w.iterRack t = (w', cs, err) ∧ w'.project = w.project ∧
      (∃ L', (∀ u, L u → L' u) ∧ (∀ c ∈ cs, L' c.tree) ∧ WReach w' L') ∧ cs.length ≤ parts.length ∧
      (∀ (k : Nat) (c : Chan), cs[k]? = some c → ∃ b g, parts[k]? = some b ∧
        channelResult groups b = .ok (c.iid, c.cls, g) ∧ w'.entries c.group = [g] ∧
        w'.entries c.tree = b.filter isChannelEvent) ∧
      (match err with
      | none => cs.length = parts.length
      | some x => ∃ b, parts[cs.length]? = some b ∧ channelResult groups b = .error x) := by
  obtain ⟨w', gs, us, h1, h2, h3, h4, h5⟩ := rack_views r ht hne
  have hfil : (fun a : Entry => decide (a.2.id ∈ World.rackIds)) = isChannelEvent := funext rackIds_has
  have hus : us.map w'.entries = parts.map (fun b => b.filter isChannelEvent) := by
    obtain ⟨s, ss, hs⟩ := cutBefore_cons beginsChannel (w.entries t) []
    rw [h4, hparts, hs]
    have := div_exact World.rackIds (w.entries t) [] [] s ss hs
    rw [hfil] at this
    exact this
  have hflat : parts.flatten = w.entries t := by
    rw [hparts]
    exact cutBefore_flatten _ _ _
  have htext' : ∀ b ∈ parts, ∀ v, valueOf (b.map Prod.snd) 201 = some v → ∃ s, v = .str s := by
    intro b hb v hv
    unfold valueOf at hv
    rw [Option.map_eq_some_iff] at hv
    obtain ⟨e, he, rfl⟩ := hv
    have h6 := List.mem_of_find?_eq_some he
    have h7 := List.find?_some he
    rw [List.mem_map] at h6
    obtain ⟨y, hy, rfl⟩ := h6
    exact htext y (by rw [← hflat]; exact List.mem_flatten.2 ⟨b, hb, hy⟩) (by simpa using h7)
  rw [← hgr] at h3
  obtain ⟨i1, i2, i3⟩ := rackLoop_exact h2 h3 us parts hus (fun u hu => .inr hu) htext'
  refine ⟨?_, w', (w'.rackLoop gs us).1, (w'.rackLoop gs us).2, h1, h5, ⟨_, ?_, ?_, h2⟩, i1, ?_, i3⟩
  · unfold World.lenRack
    rw [← count_entries r ht 64]
    have hc := contains_entries r ht 64
    have ha : (w.contains t 64 = true) ↔ ((w.entries t).any fun e => e.2.id == 64) = true := by
      rw [hc, List.any_eq_true]
      constructor
      · rintro ⟨e, h6, h7⟩
        exact ⟨e, h6, by simpa using h7⟩
      · rintro ⟨e, h6, h7⟩
        exact ⟨e, h6, by simpa using h7⟩
    by_cases hh : w.contains t 64 = true
    · rw [if_pos hh, if_pos (ha.1 hh)]
    · rw [if_neg hh, if_neg (fun h6 => hh (ha.2 h6))]
  · intro u hu
    exact .inl (.inl hu)
  · intro c hc
    obtain ⟨k, hk⟩ := List.mem_iff_getElem?.1 hc
    obtain ⟨_, _, _, _, _, _, h6⟩ := i2 k c hk
    exact .inr (List.mem_of_getElem? h6)
  · intro k c hk
    obtain ⟨b, g, h6, h7, h8, h9, _⟩ := i2 k c hk
    exact ⟨b, g, h6, h7, h8, h9⟩

namespace Demo

/-- A channel whose events begin before its `New` event, in the last of two groups counted from the end, and one without a group. -/
def earlyRack : Project := ⟨0, 2, 96, [
  ⟨199, .ascii, .str (PStr.lit "20.8.4"), 7⟩, ⟨231, .unicode, .str (PStr.lit "All"), 8⟩,
  ⟨231, .unicode, .str (PStr.lit "Drums"), 12⟩, ⟨21, .u8, .lv (.int 4), 1⟩,
  ⟨64, .u16, .lv (.int 0), 2⟩, ⟨145, .i32, .lv (.int (-1)), 4⟩,
  ⟨64, .u16, .lv (.int 1), 2⟩, ⟨21, .u8, .lv (.int 3), 1⟩,
  ⟨64, .u16, .lv (.int 2), 2⟩, ⟨21, .u8, .lv (.int 4), 1⟩, ⟨145, .i32, .lv (.int 0), 4⟩]⟩

theorem earlyRack_reach : WReach (rackOf earlyRack).1 (fun u => u = 0 ∨ u = (rackOf earlyRack).2) :=
  pickView_reach (.parsed earlyRack) rfl (by decide +kernel) channelsStep ()

end Demo

open Demo in
/-- The first part has the events before its `New` event and the last display group; iteration ends with `KeyError` at the second
part, which has no group number, although `len()` is three. -/
example : shown (rackOf earlyRack).1.heap 0 ≠ [] ∧ (∀ e ∈ (rackOf earlyRack).1.entries (rackOf earlyRack).2, e.2.id ≠ 201) ∧
    ((cutBefore beginsChannel [] ((rackOf earlyRack).1.entries (rackOf earlyRack).2)).map fun p => p.map fun e => e.2.id) =
      [[231, 231, 21, 64, 145], [64, 21], [64, 21, 145]] ∧
    (((rackOf earlyRack).1.iterRack (rackOf earlyRack).2).2.1.map fun c => (c.iid, c.cls)) = [(.lv (.int 0), .instrument)] ∧
    (((rackOf earlyRack).1.iterRack (rackOf earlyRack).2).2.1.map fun c =>
      (((rackOf earlyRack).1.iterRack (rackOf earlyRack).2).1.events c.group).map Event.value) = [[.str (PStr.lit "Drums")]] ∧
    ((rackOf earlyRack).1.iterRack (rackOf earlyRack).2).2.2 = some .keyError ∧ (rackOf earlyRack).1.lenRack (rackOf earlyRack).2 = .ok 3 := by
  refine ⟨by decide +kernel, by decide +kernel, by decide +kernel, by decide +kernel, by decide +kernel, by decide +kernel,
    by decide +kernel⟩

end PyFLP
