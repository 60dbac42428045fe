import Verif.Models
import Verif.ProjectLemmas
/-!
# Lemmas about collections
-/

namespace PyFLP

open Spec Heap

theorem World.entries_eq (w : World) (t : Nat) :
    w.entries t = (shown w.heap t).map fun x => (x.1, w.ev x.1) := by
  simp [World.entries, World.entry, shown]

theorem World.entries_events (w : World) (t : Nat) : (w.entries t).map Prod.snd = w.events t := by
  simp [World.entries, World.entry, World.events, World.refs]

theorem World.entries_refs (w : World) (t : Nat) : (w.entries t).map Prod.fst = w.refs t := by
  simp [World.entries, World.entry, World.refs]

/-- What the views created from lists of entries show; everything else stays. -/
theorem listViews_spec {t : Nat} (els : List (List Nat)) {w : World} {L : Nat → Prop} (r : WReach w L) (ht : L t)
    (hne : shown w.heap 0 ≠ []) (hs : ∀ el ∈ els, el.Sublist (w.heap.lst t)) :
    let w' := (w.listViews t els).1
    let us := (w.listViews t els).2
    WReach w' (fun u => L u ∨ u ∈ us) ∧ us.map w'.entries = els.map (fun el => el.map w.entry) ∧
      w'.project = w.project ∧ w'.store = w.store ∧ us = (List.range els.length).map (w.heap.trees.length + ·) ∧
      ∀ u, u < w.heap.trees.length → shown w'.heap u = shown w.heap u := by
  induction els generalizing w L with
  | nil => exact ⟨by simpa [World.listViews] using r, rfl, rfl, rfl, rfl, fun _ _ => rfl⟩
  | cons el els ih =>
    have hr := (wreach_inv r).1
    obtain ⟨g, _⟩ := reach_good hr
    have hel : (w.heap.lst t).filter (fun a => decide (a ∈ el)) = el :=
      filter_mem_sublist (g.sorted ht).nodup (hs el (by simp))
    obtain ⟨y1, y2, y3, y4, y5, y6⟩ :=
      yieldViews_raw [(w.heap.lst t).filter fun a => decide (a ∈ el)] w.heap (g.lt t ht)
    have hsub : w.heap.yieldViews t [(w.heap.lst t).filter fun a => decide (a ∈ el)] =
        ((w.heap.subtree t fun a => decide (a ∈ el)).1, [(w.heap.subtree t fun a => decide (a ∈ el)).2]) := rfl
    rw [hsub] at y1 y2 y3 y4 y5 y6
    dsimp only at y1 y2 y3 y4 y5
    generalize hv : w.heap.subtree t (fun a => decide (a ∈ el)) = v at *
    have hw1 := WReach.view r ht hne (.subtree fun a => decide (a ∈ el))
    simp only [view, hv] at hw1
    have hlst : ∀ u, u < w.heap.trees.length → v.1.lst u = w.heap.lst u := fun u hu => (y5 u hu).1
    have hcell : ∀ a, v.1.cell a = w.heap.cell a := fun a => by unfold Heap.cell; rw [y2]
    have hsh : ∀ u, u < w.heap.trees.length → shown v.1 u = shown w.heap u := by
      intro u hu
      unfold shown
      rw [hlst u hu]
      simp only [hcell]
    have h0 := g.lt 0 g.vρ
    have i := ih hw1 (.inl ht) (by dsimp only; rw [hsh 0 h0]; exact hne)
      (by intro e he; dsimp only; rw [hlst t (g.lt t ht)]; exact hs e (by simp [he]))
    dsimp only at i
    have e1 : w.listViews t (el :: els) =
        (({ w with heap := v.1 } : World).listViews t els |>.1, v.2 ::
          (({ w with heap := v.1 } : World).listViews t els).2) := by
      rw [World.listViews, hv]
    rw [e1]
    dsimp only
    obtain ⟨i1, i2, i3, i4, i5, i6⟩ := i
    have hv2 : v.2 = w.heap.trees.length := by
      have := y1
      simpa using this
    have hent : ∀ a, ({ w with heap := v.1 } : World).entry a = w.entry a := by
      intro a; simp [World.entry, hcell]; rfl
    have hlen : v.1.trees.length = w.heap.trees.length + 1 := by simpa using y3
    refine ⟨?_, ?_, ?_, i4, ?_, ?_⟩
    · simpa only [List.mem_singleton, List.mem_cons, or_assoc, List.not_mem_nil, false_or] using i1
    · rw [List.map_cons, List.map_cons]
      congr 1
      · rw [World.entries_eq, i6 v.2 (by rw [hv2, hlen]; omega)]
        have hl : v.1.lst v.2 = el := by
          have := (y4 0 (by simp)).1
          rw [Nat.add_zero, List.getElem_cons_zero, hel] at this
          rw [hv2, this, sortCells_sorted ((g.sorted ht).sub (hs el (by simp)))]
        unfold shown
        rw [hl, List.map_map]
        apply List.map_congr_left
        intro a _
        have : ∀ x, (({ w with heap := v.1 } : World).listViews t els).1.ev x = w.ev x := by
          intro x; unfold World.ev; rw [i4]
        simp [World.entry, hcell, this]
      · rw [i2]
        apply List.map_congr_left
        intro el' _
        apply List.map_congr_left
        intro a _
        exact hent a
    · rw [i3]
      unfold World.project
      rw [World.events_eq, World.events_eq]
      dsimp only
      rw [hsh 0 h0]
      rfl
    · rw [i5, hv2, hlen, List.length_cons, List.range_succ_eq_map, List.map_cons, List.map_map, Nat.add_zero]
      congr 1
      apply List.map_congr_left
      intro a _
      simp; omega
    · intro u hu
      rw [i6 u (by rw [hlen]; omega), hsh u hu]

/-! ### Subscripts -/

theorem getItem_int {α : Type} (i : Int) (l : List (α × Option Value)) (idx : Int) :
    getItem (.int i) l idx =
      if idx ≤ i then (match l[(i - idx).toNat]? with
        | some m => .ok m.1
        | none => .error .modelNotFound)
      else .error .modelNotFound := by
  induction l generalizing idx with
  | nil => simp [getItem]
  | cons m l ih =>
    obtain ⟨m, name⟩ := m
    rw [getItem]
    by_cases h : idx = i
    · subst h
      simp
    · simp only [h, decide_false, Bool.or_self, Bool.false_eq_true, if_false]
      rw [ih]
      by_cases h2 : idx ≤ i
      · rw [if_pos (by omega), if_pos h2]
        rw [show (i - idx).toNat = (i - (idx + 1)).toNat + 1 by omega, List.getElem?_cons_succ]
      · rw [if_neg (by omega), if_neg h2]

theorem getItem_str {α : Type} (s : PStr) (l : List (α × Option Value)) (idx : Int) :
    getItem (.str s) l idx =
      match l.find? fun m => decide (m.2 = some (.str s)) with
      | some m => .ok m.1
      | none => .error .modelNotFound := by
  induction l generalizing idx with
  | nil => rfl
  | cons m l ih =>
    obtain ⟨m, name⟩ := m
    rw [getItem, List.find?_cons]
    by_cases h : name = some (.str s)
    · simp [h]
    · simp only [h, decide_false, Bool.or_self, Bool.false_eq_true, if_false]
      exact ih _

theorem getSlice_some {α : Type} (a b : Int) (l : List (α × Option Value)) (idx : Int) :
    getSlice (some a) (some b) l idx =
      .ok (((l.map Prod.fst).drop (a - idx).toNat).take ((b - idx).toNat - (a - idx).toNat)) := by
  induction l generalizing idx with
  | nil => simp [getSlice]
  | cons m l ih =>
    obtain ⟨m, name⟩ := m
    rw [getSlice, ih]
    dsimp only
    congr 1
    rw [List.map_cons]
    by_cases h1 : a ≤ idx
    · have e1 : (a - idx).toNat = 0 := by omega
      have e2 : (a - (idx + 1)).toNat = 0 := by omega
      rw [e1, e2]
      by_cases h2 : idx < b
      · rw [if_pos ⟨h1, h2⟩, show (b - idx).toNat - 0 = ((b - (idx + 1)).toNat - 0) + 1 by omega]
        simp
      · rw [if_neg (fun h => h2 h.2)]
        have e3 : (b - idx).toNat = 0 := by omega
        have e4 : (b - (idx + 1)).toNat = 0 := by omega
        simp [e3, e4]
    · rw [if_neg (fun h => h1 h.1)]
      have e1 : (a - idx).toNat = (a - (idx + 1)).toNat + 1 := by omega
      rw [e1, List.drop_succ_cons]
      congr 1
      omega

/-! ### Patterns -/

namespace Spec

/-- An event object with its content. -/
abbrev Entry := Nat × Event

/-- The number of the pattern an event belongs to, given the events up to it and itself: the
value of the last `New` event (65), zero if there is none. -/
def patternNumber (upto : List Entry) : Value :=
  match (upto.filter fun e => e.2.id == 65).getLast? with
  | some e => e.2.value
  | none => .lv (.int 0)

/-- Events that belong to patterns: those of patterns and of time markers. -/
def isPatternEvent (e : Entry) : Bool := e.2.id ∈ [26, 65, 150, 193, 160, 161, 162, 164, 223, 224, 33, 34, 148, 205]

/-- Every event with the number of its pattern. -/
def numbered (before : List Entry) : List Entry → List (Value × Entry)
  | [] => []
  | e :: es => (patternNumber (before ++ [e]), e) :: numbered (before ++ [e]) es

/-- The pattern events with the numbers of their patterns. -/
def patternEvents (l : List Entry) : List (Value × Entry) := (numbered [] l).filter fun x => isPatternEvent x.2

/-- The numbers of the patterns, in the order in which they appear. -/
def patternNumbers (l : List Entry) : List Value := ((patternEvents l).map Prod.fst).eraseDups

/-- The events of one pattern. -/
def patternOf (l : List Entry) (n : Value) : List Entry :=
  ((patternEvents l).filter fun x => decide (x.1 = n)).map Prod.snd

end Spec

/-- Grouping by keys as a specification. -/
def grouped {α : Type} (kl : List (Value × α)) : List (Value × List α) :=
  ((kl.map Prod.fst).eraseDups).map fun k => (k, (kl.filter fun x => decide (x.1 = k)).map Prod.snd)

theorem dictPush_map {α : Type} (key : Value) (a : α) (f : Value → List α) (ks : List Value) (hn : ks.Nodup)
    (hk : key ∈ ks) :
    dictPush key a (ks.map fun k => (k, f k)) = ks.map fun k => (k, if k = key then f k ++ [a] else f k) := by
  induction ks with
  | nil => cases hk
  | cons k ks ih =>
    rw [List.nodup_cons] at hn
    rw [List.map_cons, dictPush, List.map_cons]
    by_cases h : k = key
    · subst h
      rw [if_pos rfl, if_pos rfl]
      congr 1
      apply List.map_congr_left
      intro k' hk'
      rw [if_neg (fun (e : k' = k) => hn.1 (e ▸ hk'))]
    · rw [if_neg h, if_neg h, ih hn.2]
      rcases List.mem_cons.1 hk with e | e
      · exact absurd e.symm h
      · exact e

theorem dictPush_new {α : Type} (key : Value) (a : α) (d : List (Value × List α)) (h : ∀ x ∈ d, x.1 ≠ key) :
    dictPush key a d = d ++ [(key, [a])] := by
  induction d with
  | nil => rfl
  | cons x d ih =>
    obtain ⟨k, l⟩ := x
    rw [dictPush, if_neg (h (k, l) (by simp)), ih (fun x hx => h x (by simp [hx]))]
    rfl

theorem eraseDups_nodup {α : Type} [BEq α] [LawfulBEq α] (l : List α) : l.eraseDups.Nodup := by
  generalize hn : l.length = n
  induction n using Nat.strongRecOn generalizing l with
  | ind n ih =>
    cases l with
    | nil => simp
    | cons a l =>
      rw [List.eraseDups_cons, List.nodup_cons]
      refine ⟨?_, ih _ ?_ _ rfl⟩
      · intro h
        have := List.mem_filter.1 (List.mem_eraseDups.1 h)
        simp at this
      · have := List.length_filter_le (fun b => !b == a) l
        simp only [List.length_cons] at hn
        omega

theorem grouped_snoc {α : Type} (kl : List (Value × α)) (key : Value) (a : α) :
    dictPush key a (grouped kl) = grouped (kl ++ [(key, a)]) := by
  unfold grouped
  by_cases h : key ∈ kl.map Prod.fst
  · rw [dictPush_map _ _ _ _ (eraseDups_nodup _) (by simpa using h)]
    have : ((kl ++ [(key, a)]).map Prod.fst).eraseDups = (kl.map Prod.fst).eraseDups := by
      rw [List.map_append, List.eraseDups_append]
      have h' : ([(key, a)].map Prod.fst).removeAll (kl.map Prod.fst) = [] := by
        simp only [List.map_cons, List.map_nil]
        rw [List.cons_removeAll]
        rw [if_neg (by simpa using h)]
        rfl
      rw [h']; simp
    rw [this]
    apply List.map_congr_left
    intro k _
    by_cases e : k = key
    · subst e; simp
    · have : ¬ key = k := fun e' => e e'.symm
      simp [e, this]
  · rw [dictPush_new _ _ _ (by
      intro x hx
      obtain ⟨k, hk, rfl⟩ := List.mem_map.1 hx
      rintro rfl
      exact h (List.mem_eraseDups.1 hk))]
    have : ((kl ++ [(key, a)]).map Prod.fst).eraseDups = (kl.map Prod.fst).eraseDups ++ [key] := by
      rw [List.map_append, List.eraseDups_append]
      have h' : ([(key, a)].map Prod.fst).removeAll (kl.map Prod.fst) = [key] := by
        simp only [List.map_cons, List.map_nil]
        rw [List.cons_removeAll]
        rw [if_pos (by simpa using h)]
        rfl
      rw [h']; rfl
    rw [this, List.map_append]
    congr 1
    · apply List.map_congr_left
      intro k hk
      have : ¬ key = k := fun e => h (e ▸ List.mem_eraseDups.1 hk)
      simp [this]
    · have : kl.filter (fun x => decide (x.1 = key)) = [] := by
        rw [List.filter_eq_nil_iff]
        intro x hx
        have : x.1 ≠ key := fun e => h (e ▸ List.mem_map.2 ⟨x, hx, rfl⟩)
        simpa using this
      simp [this]

/-- The keys and events the loop of `Patterns.__iter__` stores. -/
def keyed {α : Type} (ev : α → Event) : Value → List α → List (Value × α)
  | _, [] => []
  | cur, a :: l =>
    let cur := if (ev a).id = 65 then (ev a).value else cur
    if patternID.has (ev a).id || timeMarkerID.has (ev a).id then (cur, a) :: keyed ev cur l else keyed ev cur l

theorem patternLoop_grouped {α : Type} (ev : α → Event) (l : List α) (cur : Value) (kl : List (Value × α)) :
    patternLoop ev cur (grouped kl) l = grouped (kl ++ keyed ev cur l) := by
  induction l generalizing cur kl with
  | nil => simp [patternLoop, keyed]
  | cons a l ih =>
    rw [patternLoop, keyed]
    generalize (if (ev a).id = 65 then (ev a).value else cur) = c
    split
    · rw [grouped_snoc, ih, List.append_assoc]
      rfl
    · rw [ih]

theorem keyed_map {α : Type} (ev : α → Entry) (l : List α) (cur : Value) :
    (keyed (fun a => (ev a).2) cur l).map (fun x => (x.1, ev x.2)) = keyed Prod.snd cur (l.map ev) := by
  induction l generalizing cur with
  | nil => rfl
  | cons a l ih =>
    rw [List.map_cons, keyed, keyed]
    split <;> simp [ih]

theorem keyed_sublist {α : Type} (ev : α → Event) (l : List α) (cur : Value) :
    ((keyed ev cur l).map Prod.snd).Sublist l := by
  induction l generalizing cur with
  | nil => exact .slnil
  | cons a l ih =>
    rw [keyed]
    generalize (if (ev a).id = 65 then (ev a).value else cur) = c
    split
    · exact (ih _).cons_cons a
    · exact (ih _).cons a

theorem isPatternEvent_has (e : Entry) : (patternID.has e.2.id || timeMarkerID.has e.2.id) = isPatternEvent e := by
  generalize hn : e.2.id = n
  simp only [isPatternEvent, hn, patternID, timeMarkerID, IdEnum.has, List.any_cons, List.any_nil]
  rw [Bool.eq_iff_iff]
  simp [or_assoc, @eq_comm Nat _ n]

theorem keyed_numbered (l before : List Entry) :
    keyed Prod.snd (patternNumber before) l = (numbered before l).filter fun x => isPatternEvent x.2 := by
  induction l generalizing before with
  | nil => rfl
  | cons e l ih =>
    have hcur : (if e.2.id = 65 then e.2.value else patternNumber before) = patternNumber (before ++ [e]) := by
      unfold patternNumber
      by_cases h : e.2.id = 65
      · simp [h]
      · simp [h]
    rw [keyed, numbered]
    rw [hcur, ih, List.filter_cons, isPatternEvent_has]

/-- What iterating over `project.patterns` groups together. -/
theorem patternLoop_spec (w : World) (t : Nat) :
    (patternLoop (fun a => (w.entry a).2) (.lv (.int 0)) [] (w.heap.lst t)).map
        (fun x => (x.1, x.2.map w.entry)) =
      (patternNumbers (w.entries t)).map (fun n => (n, patternOf (w.entries t) n)) := by
  have h0 : ([] : List (Value × List Nat)) = grouped [] := rfl
  rw [h0, patternLoop_grouped, List.nil_append]
  have hk : (keyed (fun a => (w.entry a).2) (.lv (.int 0)) (w.heap.lst t)).map (fun x => (x.1, w.entry x.2)) =
      patternEvents (w.entries t) := by
    rw [keyed_map]
    exact keyed_numbered (w.entries t) []
  unfold grouped patternNumbers patternOf
  rw [← hk]
  simp only [List.map_map, List.filter_map]
  have hf : ∀ kl : List (Value × Nat), kl.map (Prod.fst ∘ fun x => (x.1, w.entry x.2)) = kl.map Prod.fst :=
    fun kl => List.map_congr_left fun _ _ => rfl
  rw [hf]
  apply List.map_congr_left
  intro k _
  simp only [Function.comp_def, List.map_map]

theorem patternLoop_sublist (w : World) (t : Nat) :
    ∀ el ∈ (patternLoop (fun a => (w.entry a).2) (.lv (.int 0)) [] (w.heap.lst t)).map Prod.snd,
      el.Sublist (w.heap.lst t) := by
  intro el hel
  have h0 : ([] : List (Value × List Nat)) = grouped [] := rfl
  rw [h0, patternLoop_grouped, List.nil_append] at hel
  obtain ⟨x, hx, rfl⟩ := List.mem_map.1 hel
  obtain ⟨k, _, rfl⟩ := List.mem_map.1 hx
  exact (List.filter_sublist.map _).trans (keyed_sublist _ _ _)

end PyFLP
