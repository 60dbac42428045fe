import Verif.ModelsLemmas
/-!
# Patterns and their time markers (C47 – C52)

`project.patterns` is a view `t` of the project; the theorems hold for every view.
-/

namespace PyFLP

open Spec Heap

/-! ### C47 -/

theorem group_perm {α : Type} (kl : List (Value × α)) (ks : List Value) (hn : ks.Nodup)
    (hk : ∀ x ∈ kl, x.1 ∈ ks) : (ks.flatMap fun k => kl.filter fun x => decide (x.1 = k)).Perm kl := by
  induction ks generalizing kl with
  | nil =>
    cases kl with
    | nil => simp
    | cons x kl => exact absurd (hk x (by simp)) (by simp)
  | cons k ks ih =>
    rw [List.nodup_cons] at hn
    rw [List.flatMap_cons]
    have h1 := List.filter_append_perm (fun x : Value × α => decide (x.1 = k)) kl
    refine List.Perm.trans ?_ h1
    refine List.Perm.append_left _ ?_
    have h2 := ih (kl.filter fun x => !decide (x.1 = k)) hn.2 (by
      intro x hx
      obtain ⟨hx1, hx2⟩ := List.mem_filter.1 hx
      rcases List.mem_cons.1 (hk x hx1) with e | e
      · simp [e] at hx2
      · exact e)
    refine List.Perm.trans (List.Perm.of_eq ?_) h2
    unfold List.flatMap
    congr 1
    apply List.map_congr_left
    intro k' e
    rw [List.filter_filter]
    apply List.filter_congr
    intro x _
    by_cases e2 : x.1 = k'
    · have : k' ≠ k := fun e3 => hn.1 (e3 ▸ e)
      simp [e2, this]
    · simp [e2]

theorem numbered_snd (before l : List Entry) : (numbered before l).map Prod.snd = l := by
  induction l generalizing before with
  | nil => rfl
  | cons e l ih => rw [numbered, List.map_cons, ih]

theorem patternEvents_snd (l : List Entry) : (patternEvents l).map Prod.snd = l.filter isPatternEvent := by
  unfold patternEvents
  have h := List.filter_map (p := isPatternEvent) (f := (Prod.snd : Value × Entry → Entry)) (l := numbered [] l)
  rw [numbered_snd] at h
  rw [h]
  rfl

theorem mem_numbered {before l : List Entry} {x : Value × Entry} :
    x ∈ numbered before l ↔ ∃ pre post, l = pre ++ x.2 :: post ∧ x.1 = patternNumber (before ++ pre ++ [x.2]) := by
  induction l generalizing before with
  | nil => simp [numbered]
  | cons e l ih =>
    rw [numbered, List.mem_cons, ih]
    constructor
    · rintro (rfl | ⟨pre, post, rfl, h⟩)
      · exact ⟨[], l, rfl, by simp⟩
      · exact ⟨e :: pre, post, rfl, by simpa using h⟩
    · rintro ⟨pre, post, h1, h2⟩
      cases pre with
      | nil =>
        left
        simp only [List.nil_append, List.cons.injEq, List.append_nil] at h1 h2
        obtain ⟨rfl, rfl⟩ := h1
        exact Prod.ext h2 rfl
      | cons a pre =>
        right
        simp only [List.cons_append, List.cons.injEq] at h1
        obtain ⟨rfl, rfl⟩ := h1
        exact ⟨pre, post, rfl, by simpa using h2⟩

theorem iterPatterns_spec {w : World} {L : Nat → Prop} (r : WReach w L) {t : Nat} (ht : L t)
    (hne : shown w.heap 0 ≠ []) :
    let w' := (w.iterPatterns t).1
    let us := (w.iterPatterns t).2
    WReach w' (fun u => L u ∨ u ∈ us) ∧
      us.map w'.entries = (patternNumbers (w.entries t)).map (patternOf (w.entries t)) ∧
      w'.project = w.project ∧ w'.store = w.store ∧
      us = (List.range (patternNumbers (w.entries t)).length).map (w.heap.trees.length + ·) ∧
      ∀ u, u < w.heap.trees.length → shown w'.heap u = shown w.heap u := by
  obtain ⟨h1, h2, h3, h4, h5, h6⟩ := listViews_spec _ r ht hne (patternLoop_sublist w t)
  have hs := patternLoop_spec w t
  have hlen := congrArg List.length hs
  simp only [List.length_map] at hlen
  refine ⟨h1, h2.trans ?_, h3, h4, ?_, h6⟩
  · have := congrArg (List.map Prod.snd) hs
    simpa [List.map_map, Function.comp_def] using this
  · rw [← hlen]
    simpa [World.iterPatterns] using h5

/-- C47. Iterating over patterns yields one pattern for every pattern number that occurs, in
the order of their first events.  Each shows exactly the pattern and time marker events with
its number, in their order; the number of an event is the value of the last `New` event up to
it.  The project does not change. -/
theorem C47_patterns {w : World} {L : Nat → Prop} (r : WReach w L) {t : Nat} (ht : L t)
    (hne : shown w.heap 0 ≠ []) :
    let w' := (w.iterPatterns t).1
    let us := (w.iterPatterns t).2
    WReach w' (fun u => L u ∨ u ∈ us) ∧
      us.map w'.entries = (patternNumbers (w.entries t)).map (patternOf (w.entries t)) ∧
      w'.project = w.project := by
  obtain ⟨h1, h2, h3, _⟩ := iterPatterns_spec r ht hne
  exact ⟨h1, h2, h3⟩

/-- C47. No event is lost or shown twice: the patterns together show every pattern and time
marker event of the tree exactly once. -/
theorem C47_partition {w : World} {L : Nat → Prop} (r : WReach w L) {t : Nat} (ht : L t)
    (hne : shown w.heap 0 ≠ []) :
    ((w.iterPatterns t).2.flatMap (w.iterPatterns t).1.entries).Perm ((w.entries t).filter isPatternEvent) := by
  obtain ⟨_, h2, _⟩ := iterPatterns_spec r ht hne
  have hp := group_perm (patternEvents (w.entries t)) (patternNumbers (w.entries t)) (eraseDups_nodup _)
    (fun x hx => List.mem_eraseDups.2 (List.mem_map.2 ⟨x, hx, rfl⟩))
  have hp2 := hp.map Prod.snd
  rw [patternEvents_snd] at hp2
  refine List.Perm.trans (List.Perm.of_eq ?_) hp2
  unfold List.flatMap
  rw [h2, List.map_flatten, List.map_map]
  rfl

namespace Demo

/-- Two patterns: `New` occurs twice for each, names and notes are apart. -/
def tune : Project := ⟨0, 1, 96, [
  ⟨199, .ascii, .str (PStr.lit "20.8.4"), 7⟩,
  ⟨65, .u16, .lv (.int 1), 2⟩, ⟨224, .list .notes, .items [], 0⟩,
  ⟨65, .u16, .lv (.int 2), 2⟩, ⟨223, .list .controller, .items [], 0⟩,
  ⟨67, .u16, .lv (.int 2), 2⟩,
  ⟨65, .u16, .lv (.int 1), 2⟩, ⟨193, .unicode, .str (PStr.lit "A"), 4⟩,
  ⟨65, .u16, .lv (.int 2), 2⟩, ⟨193, .unicode, .str (PStr.lit "B"), 4⟩, ⟨150, .color, .color 1 2 3 0, 4⟩,
  ⟨64, .u16, .lv (.int 0), 2⟩]⟩

def tuneWorld : World × Nat := (World.ofProject tune).patterns

theorem tune_reach : WReach tuneWorld.1 (fun u => u = 0 ∨ u = tuneWorld.2) :=
  pickView_reach (.parsed tune) rfl (by decide +kernel) patternsStep false

/-- The patterns 1 and 2, with the events of each from two places. -/
example : WReach tuneWorld.1 (fun u => u = 0 ∨ u = tuneWorld.2) ∧ shown tuneWorld.1.heap 0 ≠ [] ∧
    patternNumbers (tuneWorld.1.entries tuneWorld.2) = [.lv (.int 1), .lv (.int 2)] ∧
    ((tuneWorld.1.iterPatterns tuneWorld.2).2.map fun u =>
      ((tuneWorld.1.iterPatterns tuneWorld.2).1.events u).map Event.id) =
      [[65, 224, 65, 193], [65, 223, 65, 193, 150]] :=
  ⟨tune_reach, by decide +kernel, by decide +kernel, by decide +kernel⟩

end Demo

/-! ### C48 -/

namespace Spec

/-- Every pattern or time marker event comes after a `New` event (or is one). -/
def StartsWithNew (l : List Entry) : Prop :=
  ∀ pre e post, l = pre ++ e :: post → isPatternEvent e = true → ∃ x ∈ pre ++ [e], x.2.id = 65

end Spec

/-- The last element that passes. -/
theorem getLast_filter {α : Type} {p : α → Bool} {l : List α} {x : α} (h : (l.filter p).getLast? = some x) :
    ∃ pre post, l = pre ++ x :: post ∧ p x = true ∧ ∀ y ∈ post, p y = false := by
  induction l with
  | nil => cases h
  | cons a l ih =>
    cases hl : (l.filter p).getLast? with
    | some y =>
      have : ((a :: l).filter p).getLast? = some y := by
        rw [List.filter_cons]
        split
        · rw [List.getLast?_cons, hl]; rfl
        · exact hl
      rw [this] at h
      cases h
      obtain ⟨pre, post, rfl, h2, h3⟩ := ih hl
      exact ⟨a :: pre, post, rfl, h2, h3⟩
    | none =>
      have hnil : l.filter p = [] := by simpa using hl
      rw [List.filter_cons, hnil] at h
      split at h
      · next hp =>
        simp only [List.getLast?_singleton, Option.some.injEq] at h
        subst h
        refine ⟨[], l, rfl, hp, fun y hy => ?_⟩
        have := List.filter_eq_nil_iff.1 hnil y hy
        simpa using this
      · simp at h

theorem patternNumber_new {upto : List Entry} {e : Entry} (h : e.2.id = 65) :
    patternNumber (upto ++ [e]) = e.2.value := by
  unfold patternNumber
  simp [h]

/-- A number comes from a `New` event. -/
theorem patternNumber_from {upto : List Entry} (h : ∃ x ∈ upto, x.2.id = 65) :
    ∃ pre x post, upto = pre ++ x :: post ∧ x.2.id = 65 ∧ patternNumber upto = x.2.value := by
  unfold patternNumber
  cases hl : (upto.filter fun e => e.2.id == 65).getLast? with
  | none =>
    obtain ⟨x, hx, hid⟩ := h
    have hnil : upto.filter (fun e => e.2.id == 65) = [] := by simpa using hl
    exact absurd hid (by simpa using List.filter_eq_nil_iff.1 hnil x hx)
  | some x =>
    obtain ⟨pre, post, h1, h2, _⟩ := getLast_filter hl
    exact ⟨pre, x, post, h1, by simpa using h2, rfl⟩

theorem isPatternEvent_new {e : Entry} (h : e.2.id = 65) : isPatternEvent e = true := by
  simp [isPatternEvent, h]

/-- The pattern events with their numbers. -/
theorem mem_patternEvents {l : List Entry} {x : Value × Entry} :
    x ∈ patternEvents l ↔ isPatternEvent x.2 = true ∧
      ∃ pre post, l = pre ++ x.2 :: post ∧ x.1 = patternNumber (pre ++ [x.2]) := by
  unfold patternEvents
  rw [List.mem_filter, mem_numbered]
  simp only [List.nil_append]
  exact and_comm

/-- The numbers of patterns are the values of the `New` events. -/
theorem mem_patternNumbers {l : List Entry} (hs : StartsWithNew l) {n : Value} :
    n ∈ patternNumbers l ↔ ∃ e ∈ l, e.2.id = 65 ∧ e.2.value = n := by
  unfold patternNumbers
  rw [List.mem_eraseDups, List.mem_map]
  constructor
  · rintro ⟨x, hx, rfl⟩
    obtain ⟨h1, pre, post, h2, h3⟩ := mem_patternEvents.1 hx
    obtain ⟨p, y, q, g1, g2, g3⟩ := patternNumber_from (hs pre x.2 post h2 h1)
    refine ⟨y, ?_, g2, by rw [h3, g3]⟩
    have : y ∈ pre ++ [x.2] := by rw [g1]; simp
    rw [h2]
    simp only [List.mem_append, List.mem_cons, List.not_mem_nil, or_false] at this ⊢
    rcases this with h | h
    · exact .inl h
    · exact .inr (.inl h)
  · rintro ⟨e, he, hid, rfl⟩
    obtain ⟨pre, post, rfl⟩ := List.append_of_mem he
    exact ⟨(e.2.value, e), mem_patternEvents.2 ⟨isPatternEvent_new hid, pre, post, rfl, (patternNumber_new hid).symm⟩, rfl⟩

/-- The `New` events of a pattern have its number. -/
theorem patternOf_new {l : List Entry} {n : Value} {e : Entry} (hid : e.2.id = 65) :
    e ∈ patternOf l n ↔ e ∈ l ∧ e.2.value = n := by
  unfold patternOf
  rw [List.mem_map]
  constructor
  · rintro ⟨x, hx, rfl⟩
    obtain ⟨hx1, hx2⟩ := List.mem_filter.1 hx
    obtain ⟨_, pre, post, h2, h3⟩ := mem_patternEvents.1 hx1
    refine ⟨by rw [h2]; simp, ?_⟩
    rw [patternNumber_new hid] at h3
    rw [← h3]
    simpa using hx2
  · rintro ⟨he, rfl⟩
    obtain ⟨pre, post, rfl⟩ := List.append_of_mem he
    exact ⟨(e.2.value, e), List.mem_filter.2 ⟨mem_patternEvents.2
      ⟨isPatternEvent_new hid, pre, post, rfl, (patternNumber_new hid).symm⟩, by simp⟩, rfl⟩

theorem first_entry {w : World} {L : Nat → Prop} (r : WReach w L) {u : Nat} (hu : L u) (id : Nat) :
    (∃ pre ref post, w.heap.first u id = .ok ref ∧ w.entries u = pre ++ (ref, w.ev ref) :: post ∧ (w.ev ref).id = id ∧
      ∀ e ∈ pre, e.2.id ≠ id) ∨
    (w.heap.first u id = .error .keyError ∧ ∀ e ∈ w.entries u, e.2.id ≠ id) := by
  have hev := events_shown r hu
  rcases first_spec w.heap u id with ⟨pre, post, ref, h1, h2, h3⟩ | ⟨h1, h2⟩
  · left
    refine ⟨pre.map fun x => (x.1, w.ev x.1), ref, post.map fun x => (x.1, w.ev x.1), h1, ?_, ?_, ?_⟩
    · rw [World.entries_eq, h2]; simp
    · exact (hev (ref, id) (by rw [h2]; simp)).2
    · intro e he
      obtain ⟨x, hx, rfl⟩ := List.mem_map.1 he
      rw [(hev x (by rw [h2]; simp [hx])).2]
      exact h3 x hx
  · right
    refine ⟨h1, fun e he => ?_⟩
    rw [World.entries_eq] at he
    obtain ⟨x, hx, rfl⟩ := List.mem_map.1 he
    rw [(hev x hx).2]
    exact h2 x hx

theorem get_entries {w : World} {L : Nat → Prop} (r : WReach w L) {u : Nat} (hu : L u) (id : Nat) :
    w.heap.get u [id] = ((w.entries u).filter fun e => decide (e.2.id = id)).map Prod.fst := by
  unfold Heap.get World.entries
  rw [List.filter_map, List.map_map]
  have : (w.heap.lst u).filter (fun a => decide (w.heap.idOf a ∈ [id])) =
      (w.heap.lst u).filter ((fun e : Entry => decide (e.2.id = id)) ∘ w.entry) := by
    apply List.filter_congr
    intro a ha
    have := (events_shown r hu ((w.heap.cell a).ref, (w.heap.cell a).id) (List.mem_map.2 ⟨a, ha, rfl⟩)).2
    dsimp only at this
    simp only [Function.comp_def, World.entry, this, Heap.idOf]
    simp
  rw [this]
  rfl

theorem contains_entries {w : World} {L : Nat → Prop} (r : WReach w L) {u : Nat} (hu : L u) (id : Nat) :
    w.contains u id = true ↔ ∃ e ∈ w.entries u, e.2.id = id := by
  rw [contains_iff, mem_events r hu, ← World.entries_events]
  constructor
  · rintro ⟨e, he, h⟩
    obtain ⟨x, hx, rfl⟩ := List.mem_map.1 he
    exact ⟨x, hx, h⟩
  · rintro ⟨x, hx, h⟩
    exact ⟨x.2, List.mem_map.2 ⟨x, hx, rfl⟩, h⟩

theorem patternIid_spec {w : World} {L : Nat → Prop} (r : WReach w L) {u : Nat} (hu : L u) {l : List Entry} {n : Value}
    (hs : StartsWithNew l) (hn : n ∈ patternNumbers l) (he : w.entries u = patternOf l n) :
    w.patternIid u = .ok n := by
  unfold World.patternIid
  rcases first_entry r hu 65 with ⟨pre, ref, post, h1, h2, h3, _⟩ | ⟨h1, h2⟩
  · rw [h1]
    have : (ref, w.ev ref) ∈ patternOf l n := by rw [← he, h2]; simp
    exact congrArg Except.ok ((patternOf_new h3).1 this).2
  · obtain ⟨e, he1, he2, he3⟩ := (mem_patternNumbers hs).1 hn
    exact absurd he2 (h2 e (by rw [he]; exact (patternOf_new he2).2 ⟨he1, he3⟩))

theorem nodup_length {α : Type} [BEq α] [LawfulBEq α] {l m : List α} (hl : l.Nodup) (hm : m.Nodup)
    (h : ∀ x, x ∈ l ↔ x ∈ m) : l.length = m.length := by
  have key : ∀ (n : Nat) (l m : List α), l.length = n → l.Nodup → (∀ x ∈ l, x ∈ m) → l.length ≤ m.length := by
    intro n
    induction n with
    | zero => intro l m hn _ _; omega
    | succ n ih =>
      intro l m hn hl h
      cases l with
      | nil => simp at hn
      | cons a l =>
        rw [List.nodup_cons] at hl
        have ha := h a (by simp)
        have := ih l (m.erase a) (by simpa using hn) hl.2 (fun x hx =>
          (List.mem_erase_of_ne (fun (e : x = a) => hl.1 (e ▸ hx))).2 (h x (by simp [hx])))
        rw [List.length_erase_of_mem ha] at this
        have := List.length_pos_of_mem ha
        simp only [List.length_cons]
        omega
  have h1 := key _ l m rfl hl (fun x hx => (h x).1 hx)
  have h2 := key _ m l rfl hm (fun x hx => (h x).2 hx)
  omega

/-- C48 where every pattern event comes after a `New` event, and there is one: `len()` is the
number of patterns iteration yields, and the `iid`s of these are their numbers, all different.
Missing: events before the first `New` event, where this fails. -/
theorem C48_len_iid_partial {w : World} {L : Nat → Prop} (r : WReach w L) {t : Nat} (ht : L t)
    (hne : shown w.heap 0 ≠ []) (hs : StartsWithNew (w.entries t)) (hnew : ∃ e ∈ w.entries t, e.2.id = 65) :
    let w' := (w.iterPatterns t).1
    let us := (w.iterPatterns t).2
    w.lenPatterns t = .ok us.length ∧ us.map w'.patternIid = (patternNumbers (w.entries t)).map .ok ∧
      (patternNumbers (w.entries t)).Nodup := by
  obtain ⟨h1, h2, _⟩ := iterPatterns_spec r ht hne
  dsimp only
  have hlen : (w.iterPatterns t).2.length = (patternNumbers (w.entries t)).length := by
    have := congrArg List.length h2
    simpa using this
  refine ⟨?_, ?_, eraseDups_nodup _⟩
  · unfold World.lenPatterns
    rw [if_pos ((contains_entries r ht 65).2 hnew), hlen]
    congr 1
    apply nodup_length (eraseDups_nodup _) (eraseDups_nodup _)
    intro n
    rw [List.mem_eraseDups, ← patternNumbers, mem_patternNumbers hs, get_entries r ht, List.map_map, List.mem_map]
    constructor
    · rintro ⟨e, he, rfl⟩
      obtain ⟨g1, g2⟩ := List.mem_filter.1 he
      have hev : w.ev e.1 = e.2 := by
        obtain ⟨a, _, rfl⟩ := List.mem_map.1 g1; rfl
      exact ⟨e, g1, by simpa using g2, by simp [hev]⟩
    · rintro ⟨e, g1, g2, rfl⟩
      have hev : w.ev e.1 = e.2 := by
        obtain ⟨a, _, rfl⟩ := List.mem_map.1 g1; rfl
      exact ⟨e, List.mem_filter.2 ⟨g1, by simpa using g2⟩, by simp [hev]⟩
  · apply List.ext_getElem
    · simpa using hlen
    · intro i i1 i2
      have hi : i < (w.iterPatterns t).2.length := by simpa using i1
      have hi2 : i < (patternNumbers (w.entries t)).length := by simpa using i2
      rw [List.getElem_map, List.getElem_map]
      refine patternIid_spec h1 (.inr (List.getElem_mem hi)) hs (List.getElem_mem hi2) ?_
      have e1 : ((w.iterPatterns t).2.map (w.iterPatterns t).1.entries)[i]? = some ((w.iterPatterns t).1.entries (w.iterPatterns t).2[i]) := by
        simp [hi]
      have e2 : ((patternNumbers (w.entries t)).map (patternOf (w.entries t)))[i]? =
          some (patternOf (w.entries t) (patternNumbers (w.entries t))[i]) := by
        simp [hi2]
      rw [h2, e2] at e1
      exact (Option.some.inj e1).symm

theorem Demo.tune_starts : StartsWithNew (tuneWorld.1.entries tuneWorld.2) := by
  intro pre e post h _
  have h0 : tuneWorld.1.entries tuneWorld.2 = (1, ⟨65, .u16, .lv (.int 1), 2⟩) :: (tuneWorld.1.entries tuneWorld.2).tail := by
    decide +kernel
  rw [h0] at h
  refine ⟨(1, ⟨65, .u16, .lv (.int 1), 2⟩), ?_, rfl⟩
  cases pre with
  | nil => rw [← (List.cons.inj h).1]; simp
  | cons a pre => rw [← (List.cons.inj h).1]; simp

open Demo in
example : WReach tuneWorld.1 (fun u => u = 0 ∨ u = tuneWorld.2) ∧ shown tuneWorld.1.heap 0 ≠ [] ∧
    StartsWithNew (tuneWorld.1.entries tuneWorld.2) ∧ (∃ e ∈ tuneWorld.1.entries tuneWorld.2, e.2.id = 65) ∧
    tuneWorld.1.lenPatterns tuneWorld.2 = .ok 2 :=
  ⟨tune_reach, by decide +kernel, tune_starts, ⟨(1, ⟨65, .u16, .lv (.int 1), 2⟩), by decide +kernel, rfl⟩, by decide +kernel⟩

namespace Demo

/-- A time marker event before the first `New` event. -/
def early : Project := ⟨0, 1, 96, [⟨148, .u32, .lv (.int 96), 4⟩, ⟨65, .u16, .lv (.int 1), 2⟩]⟩

def earlyWorld : World × Nat := (World.ofProject early).patterns

end Demo

/-- C48 is false with an event before the first `New` event: two patterns are yielded, `len()`
is 1, and the first pattern has no `iid`. -/
theorem C48_len_iid_refuted : ∃ (w : World) (t : Nat) (L : Nat → Prop), WReach w L ∧ L t ∧ shown w.heap 0 ≠ [] ∧
    w.lenPatterns t = .ok 1 ∧ (w.iterPatterns t).2.length = 2 ∧
    (w.iterPatterns t).2.map (w.iterPatterns t).1.patternIid = [.error .keyError, .ok (.lv (.int 1))] :=
  ⟨Demo.earlyWorld.1, Demo.earlyWorld.2, _,
    pickView_reach (.parsed Demo.early) rfl (by decide +kernel) patternsStep false, .inr rfl,
    by decide +kernel, by decide +kernel, by decide +kernel, by decide +kernel⟩

/-! ### C49 -/

theorem setEvs_spec (v : Value) (rs : List Nat) {w : World} {L : Nat → Prop} (r : WReach w L) (hlt : ∀ x ∈ rs, x < w.store.length) :
    let w' := rs.foldl (fun w ref => w.setEv ref { w.ev ref with value := v }) w
    WReach w' L ∧ w'.heap = w.heap ∧ w'.format = w.format ∧ w'.channelCount = w.channelCount ∧ w'.ppq = w.ppq ∧
      ∀ x, w'.ev x = if x ∈ rs then { w.ev x with value := v } else w.ev x := by
  induction rs generalizing w with
  | nil => exact ⟨r, rfl, rfl, rfl, rfl, fun x => by simp⟩
  | cons a rs ih =>
    obtain ⟨i1, i2, i3, i4, i5, i6⟩ := ih (.assign r a v) (by
      intro x hx
      simpa [World.setEv] using hlt x (by simp [hx]))
    refine ⟨i1, i2, i3, i4, i5, fun x => ?_⟩
    rw [List.foldl_cons, i6, World.ev_setEv]
    have ha := hlt a (by simp)
    by_cases h1 : x = a
    · subst h1
      by_cases h2 : x ∈ rs
      · simp [h2, ha]
      · simp [h2, ha]
    · simp [h1]

theorem entries_congr {w w' : World} (hh : w'.heap = w.heap) (t : Nat) :
    w'.entries t = (w.entries t).map fun e => (e.1, w'.ev e.1) := by
  simp [World.entries, World.entry, hh]

theorem entry_ev {w : World} {t : Nat} {e : Entry} (h : e ∈ w.entries t) : w.ev e.1 = e.2 := by
  obtain ⟨a, _, rfl⟩ := List.mem_map.1 h; rfl

theorem entry_lt {w : World} {L : Nat → Prop} (r : WReach w L) {t : Nat} (ht : L t) {e : Entry} (h : e ∈ w.entries t) :
    e.1 < w.store.length := by
  rw [World.entries_eq] at h
  obtain ⟨x, hx, rfl⟩ := List.mem_map.1 h
  exact (events_shown r ht x hx).1

namespace Spec

/-- The event after giving its pattern another number. -/
def renumber (n v : Value) (e : Entry) : Entry :=
  if e.2.id = 65 ∧ e.2.value = n then (e.1, { e.2 with value := v }) else e

end Spec

theorem renumber_id (n v : Value) (e : Entry) : (renumber n v e).2.id = e.2.id := by
  unfold renumber; split <;> rfl

theorem renumber_number {n v : Value} {upto : List Entry} (h : ∃ x ∈ upto, x.2.id = 65) :
    patternNumber (upto.map (renumber n v)) = if patternNumber upto = n then v else patternNumber upto := by
  unfold patternNumber
  have hf : ((upto.map (renumber n v)).filter fun e => e.2.id == 65) =
      (upto.filter fun e => e.2.id == 65).map (renumber n v) := by
    rw [List.filter_map]
    simp only [Function.comp_def, renumber_id]
  rw [hf, List.getLast?_map]
  cases hl : (upto.filter fun e => e.2.id == 65).getLast? with
  | none =>
    obtain ⟨x, hx, hid⟩ := h
    have hnil : upto.filter (fun e => e.2.id == 65) = [] := by simpa using hl
    exact absurd hid (by simpa using List.filter_eq_nil_iff.1 hnil x hx)
  | some x =>
    obtain ⟨_, _, _, h2, _⟩ := getLast_filter hl
    have h2 : x.2.id = 65 := by simpa using h2
    simp only [Option.map_some, renumber, h2, true_and]
    split <;> rfl

theorem renumber_events {n v : Value} {l : List Entry} (hs : StartsWithNew l) :
    patternEvents (l.map (renumber n v)) =
      (patternEvents l).map fun x => (if x.1 = n then v else x.1, renumber n v x.2) := by
  have key : ∀ (l before : List Entry), (∀ pre e post, l = pre ++ e :: post → isPatternEvent e = true →
      ∃ x ∈ before ++ pre ++ [e], x.2.id = 65) →
      (numbered (before.map (renumber n v)) (l.map (renumber n v))).filter (fun x => isPatternEvent x.2) =
        ((numbered before l).filter fun x => isPatternEvent x.2).map
          fun x => (if x.1 = n then v else x.1, renumber n v x.2) := by
    intro l
    induction l with
    | nil => intro before _; rfl
    | cons e l ih =>
      intro before hb
      have hp : isPatternEvent (renumber n v e) = isPatternEvent e := by
        unfold isPatternEvent; rw [renumber_id]
      have i := ih (before ++ [e]) (by
        intro pre e' post h1 h2
        have := hb (e :: pre) e' post (by rw [h1]; rfl) h2
        simpa using this)
      rw [List.map_append, List.map_cons, List.map_nil] at i
      rw [List.map_cons, numbered, numbered, List.filter_cons, List.filter_cons]
      simp only [hp]
      split
      · next hpe =>
        have hx := hb [] e l rfl hpe
        rw [List.append_nil] at hx
        rw [i, List.map_cons, ← renumber_number hx, List.map_append]
        rfl
      · exact i
  have := key l [] hs
  simpa [patternEvents] using this

theorem eraseDups_map {l : List Value} {f : Value → Value} (hf : ∀ a ∈ l, ∀ b ∈ l, f a = f b → a = b) :
    (l.map f).eraseDups = l.eraseDups.map f := by
  generalize hn : l.length = n
  induction n using Nat.strongRecOn generalizing l with
  | ind n ih =>
    cases l with
    | nil => simp
    | cons a l =>
      rw [List.map_cons, List.eraseDups_cons, List.eraseDups_cons, List.map_cons, List.filter_map]
      congr 1
      have hfl : l.filter ((fun b => !b == f a) ∘ f) = l.filter fun b => !b == a := by
        apply List.filter_congr
        intro b hb
        have : (f b = f a) ↔ b = a := ⟨fun e => hf b (by simp [hb]) a (by simp) e, fun e => by rw [e]⟩
        simp only [Function.comp_def]
        rw [Bool.eq_iff_iff]
        simp [this]
      rw [hfl]
      refine ih _ ?_ ?_ rfl
      · have := List.length_filter_le (fun b => !b == a) l
        simp only [List.length_cons] at hn
        omega
      · intro x hx y hy
        exact hf x (by simp [(List.mem_filter.1 hx).1]) y (by simp [(List.mem_filter.1 hy).1])

theorem renumber_startsWithNew {n v : Value} {l : List Entry} (hs : StartsWithNew l) : StartsWithNew (l.map (renumber n v)) := by
  intro pre e post h hp
  obtain ⟨p, q, rfl, rfl, h2⟩ := List.map_eq_append_iff.1 h
  obtain ⟨e', q', rfl, rfl, rfl⟩ := List.map_eq_cons_iff.1 h2
  obtain ⟨x, hx, hid⟩ := hs p e' q' rfl (by
    unfold isPatternEvent at hp ⊢
    rwa [renumber_id] at hp)
  refine ⟨renumber n v x, ?_, by rw [renumber_id]; exact hid⟩
  have : renumber n v x ∈ (p ++ [e']).map (renumber n v) := List.mem_map.2 ⟨x, hx, rfl⟩
  simpa using this

theorem renumber_patterns {n v : Value} {l : List Entry} (hs : StartsWithNew l) (hv : v = n ∨ v ∉ patternNumbers l) :
    patternNumbers (l.map (renumber n v)) = (patternNumbers l).map (fun k => if k = n then v else k) ∧
    ∀ k ∈ patternNumbers l, patternOf (l.map (renumber n v)) (if k = n then v else k) =
      if k = n then (patternOf l n).map (renumber n v) else patternOf l k := by
  have hinj : ∀ a ∈ patternNumbers l, ∀ b ∈ patternNumbers l,
      (if a = n then v else a) = (if b = n then v else b) → a = b := by
    intro a ha b hb h
    rcases hv with rfl | hv
    · have hid : ∀ a : Value, (if a = v then v else a) = a := fun a => by split <;> simp_all
      rwa [hid, hid] at h
    · by_cases h1 : a = n <;> by_cases h2 : b = n <;> simp [h1, h2] at h ⊢
      · exact absurd (h ▸ hb) hv
      · exact absurd (h ▸ ha) hv
      · exact h
  constructor
  · unfold patternNumbers at hinj ⊢
    rw [renumber_events hs, List.map_map, ← eraseDups_map, List.map_map]
    · rfl
    · intro a ha b hb
      exact hinj a (List.mem_eraseDups.2 ha) b (List.mem_eraseDups.2 hb)
  · intro k hk
    unfold patternOf
    rw [renumber_events hs, List.filter_map, List.map_map]
    have hf : (patternEvents l).filter ((fun x => decide (x.1 = if k = n then v else k)) ∘
        fun x => (if x.1 = n then v else x.1, renumber n v x.2)) =
        (patternEvents l).filter fun x => decide (x.1 = k) := by
      apply List.filter_congr
      intro x hx
      have hx' : x.1 ∈ patternNumbers l := List.mem_eraseDups.2 (List.mem_map.2 ⟨x, hx, rfl⟩)
      simp only [Function.comp_def]
      rw [decide_eq_decide]
      exact ⟨fun e => hinj _ hx' _ hk e, fun e => by rw [e]⟩
    rw [hf]
    by_cases e : k = n
    · subst e
      rw [if_pos rfl, List.map_map]
      rfl
    · rw [if_neg e]
      apply List.map_congr_left
      intro x hx
      obtain ⟨hx1, hx2⟩ := List.mem_filter.1 hx
      have hx2 : x.1 = k := by simpa using hx2
      show renumber n v x.2 = x.2
      unfold renumber
      rw [if_neg]
      rintro ⟨h1, h2⟩
      obtain ⟨_, pre, post, h3, h4⟩ := mem_patternEvents.1 hx1
      rw [patternNumber_new h1] at h4
      exact e (by rw [← hx2, h4, h2])

theorem getElem_of_map_eq {α β γ : Type} {f : α → γ} {g : β → γ} {l : List α} {m : List β} (h : l.map f = m.map g)
    {i : Nat} {a : α} {b : β} (ha : l[i]? = some a) (hb : m[i]? = some b) : f a = g b := by
  have h1 : (l.map f)[i]? = some (f a) := by simp [ha]
  have h2 : (m.map g)[i]? = some (g b) := by simp [hb]
  rw [h, h2] at h1
  exact (Option.some.inj h1).symm

/-- What `pattern.iid = v` does, whatever `v`. -/
theorem iid_set_core {w : World} {L : Nat → Prop} (r : WReach w L) {t : Nat} (ht : L t)
    (hne : shown w.heap 0 ≠ []) {i u : Nat} {n : Value}
    (hu : (w.iterPatterns t).2[i]? = some u) (hn : (patternNumbers (w.entries t))[i]? = some n) (v : Value) :
    let w2 := (w.iterPatterns t).1.setPatternIid u v
    let events2 := (w.entries 0).map fun e =>
      if e ∈ patternOf (w.entries t) n ∧ e.2.id = 65 then { e.2 with value := v } else e.2
    WReach w2 (fun x => L x ∨ x ∈ (w.iterPatterns t).2) ∧ u ∈ (w.iterPatterns t).2 ∧ n ∈ patternNumbers (w.entries t) ∧
    w2.entries t = (w.entries t).map (renumber n v) ∧
    w2.entries u = (patternOf (w.entries t) n).map (renumber n v) ∧ shown w2.heap 0 ≠ [] ∧
    w2.project = { w.project with events := events2 } := by
  obtain ⟨h1, h2, h3, h4, h5, h6⟩ := iterPatterns_spec r ht hne
  obtain ⟨g, _⟩ := reach_good (wreach_inv r).1
  generalize hw1 : (w.iterPatterns t).1 = w1 at *
  generalize hus : (w.iterPatterns t).2 = us at *
  have hmu : u ∈ us := List.mem_of_getElem? hu
  have hmn : n ∈ patternNumbers (w.entries t) := List.mem_of_getElem? hn
  have hent : w1.entries u = patternOf (w.entries t) n := getElem_of_map_eq h2 hu hn
  have hev1 : ∀ x, w1.ev x = w.ev x := fun x => by unfold World.ev; rw [h4]
  have hold : ∀ s, s < w.heap.trees.length → w1.entries s = w.entries s := by
    intro s hs'
    rw [World.entries_eq, World.entries_eq, h6 s hs']
    simp only [hev1]
  have hrefs := get_entries h1 (.inr hmu : L u ∨ u ∈ us) 65
  rw [hent] at hrefs
  have hlt : ∀ x ∈ w1.heap.get u [65], x < w1.store.length := by
    intro x hx
    rw [hrefs] at hx
    obtain ⟨e, he, rfl⟩ := List.mem_map.1 hx
    exact entry_lt h1 (.inr hmu : L u ∨ u ∈ us) (hent ▸ (List.mem_filter.1 he).1)
  obtain ⟨k1, k2, k3, k4, k5, k6⟩ := setEvs_spec v _ h1 hlt
  intro w2 events2
  change WReach w2 _ at k1
  change w2.heap = _ at k2
  change w2.format = _ at k3
  change w2.channelCount = _ at k4
  change w2.ppq = _ at k5
  change ∀ x, w2.ev x = _ at k6
  -- the objects that change
  have hmem : ∀ e : Entry, w.ev e.1 = e.2 → (e.1 ∈ w1.heap.get u [65] ↔ e ∈ patternOf (w.entries t) n ∧ e.2.id = 65) := by
    intro e he
    rw [hrefs]
    constructor
    · intro h
      obtain ⟨x, hx, hx2⟩ := List.mem_map.1 h
      obtain ⟨g1, g2⟩ := List.mem_filter.1 hx
      have : x = e := by
        apply Prod.ext hx2
        have := entry_ev (hent ▸ g1 : x ∈ w1.entries u)
        rw [← this, hev1, hx2, he]
      subst this
      exact ⟨g1, by simpa using g2⟩
    · rintro ⟨g1, g2⟩
      exact List.mem_map.2 ⟨e, List.mem_filter.2 ⟨g1, by simpa using g2⟩, rfl⟩
  have hev2 : ∀ e : Entry, w.ev e.1 = e.2 → w2.ev e.1 =
      if e ∈ patternOf (w.entries t) n ∧ e.2.id = 65 then { e.2 with value := v } else e.2 := by
    intro e he
    rw [k6, hev1, he]
    by_cases hc : e ∈ patternOf (w.entries t) n ∧ e.2.id = 65
    · rw [if_pos hc, if_pos ((hmem e he).2 hc)]
    · rw [if_neg hc, if_neg (fun h => hc ((hmem e he).1 h))]
  have hw2t : w2.entries t = (w.entries t).map (renumber n v) := by
    rw [entries_congr k2, hold t (g.lt t ht)]
    apply List.map_congr_left
    intro e he
    rw [hev2 e (entry_ev he)]
    unfold renumber
    by_cases hc : e.2.id = 65 ∧ e.2.value = n
    · rw [if_pos hc, if_pos ⟨(patternOf_new hc.1).2 ⟨he, hc.2⟩, hc.1⟩]
    · rw [if_neg hc, if_neg (fun h => hc ⟨h.2, ((patternOf_new h.2).1 h.1).2⟩)]
  have hw2u : w2.entries u = (patternOf (w.entries t) n).map (renumber n v) := by
    rw [entries_congr k2, hent]
    apply List.map_congr_left
    intro e he
    have he' : w.ev e.1 = e.2 := by rw [← hev1]; exact entry_ev (hent ▸ he : e ∈ w1.entries u)
    rw [hev2 e he']
    unfold renumber
    by_cases hc : e.2.id = 65
    · rw [if_pos ⟨he, hc⟩, if_pos ⟨hc, ((patternOf_new hc).1 he).2⟩]
    · rw [if_neg (fun h => hc h.2), if_neg (fun h => hc h.1)]
  have hne2 : shown w2.heap 0 ≠ [] := by rw [k2, h6 0 (g.lt 0 g.vρ)]; exact hne
  refine ⟨k1, hmu, hmn, hw2t, hw2u, hne2, ?_⟩
  · have e3 : w1.format = w.format ∧ w1.channelCount = w.channelCount ∧ w1.ppq = w.ppq := by
      have := h3
      simp only [World.project, Project.mk.injEq] at this
      exact ⟨this.1, this.2.1, this.2.2.1⟩
    unfold World.project
    rw [k3, k4, k5, e3.1, e3.2.1, e3.2.2]
    congr 1
    rw [← World.entries_events, entries_congr k2, hold 0 (g.lt 0 g.vρ), List.map_map]
    apply List.map_congr_left
    intro e he
    exact hev2 e (entry_ev he)

/-- C49. `pattern.iid = v`, for a number `v` no other pattern has: exactly the `New` events of
this pattern change, to `v`.  Iterating again yields the same patterns in the same order; the
other ones are unchanged. -/
theorem C49_iid_set {w : World} {L : Nat → Prop} (r : WReach w L) {t : Nat} (ht : L t)
    (hne : shown w.heap 0 ≠ []) (hs : StartsWithNew (w.entries t)) {i u : Nat} {n : Value}
    (hu : (w.iterPatterns t).2[i]? = some u) (hn : (patternNumbers (w.entries t))[i]? = some n)
    (v : Value) (hv : v = n ∨ v ∉ patternNumbers (w.entries t)) :
    let w2 := (w.iterPatterns t).1.setPatternIid u v
    let events2 := (w.entries 0).map fun e =>
      if e ∈ patternOf (w.entries t) n ∧ e.2.id = 65 then { e.2 with value := v } else e.2
    w2.patternIid u = .ok v ∧ w2.project = { w.project with events := events2 } ∧
    (w2.iterPatterns t).2.map (w2.iterPatterns t).1.entries =
      (patternNumbers (w.entries t)).map (fun k =>
        if k = n then (patternOf (w.entries t) n).map (renumber n v) else patternOf (w.entries t) k) ∧
    (w2.iterPatterns t).2.map (w2.iterPatterns t).1.patternIid =
      (patternNumbers (w.entries t)).map (fun k => .ok (if k = n then v else k)) := by
  obtain ⟨k1, hmu, hmn, hw2t, hw2u, hne2, hp⟩ := iid_set_core r ht hne hu hn v
  intro w2 events2
  have hs2 : StartsWithNew (w2.entries t) := by rw [hw2t]; exact renumber_startsWithNew hs
  obtain ⟨p1, p2⟩ := renumber_patterns hs hv
  have L2t : L t ∨ t ∈ (w.iterPatterns t).2 := .inl ht
  refine ⟨?_, hp, ?_, ?_⟩
  · refine patternIid_spec k1 (.inr hmu) hs2 (n := v) ?_ ?_
    · rw [hw2t, p1]
      exact List.mem_map.2 ⟨n, hmn, by simp⟩
    · rw [hw2u, hw2t]
      have := p2 n hmn
      simp only [if_true] at this
      exact this.symm
  · obtain ⟨_, q2, _⟩ := iterPatterns_spec k1 L2t hne2
    rw [q2, hw2t, p1, List.map_map]
    apply List.map_congr_left
    intro k hk
    exact p2 k hk
  · have hnew : ∃ e ∈ w2.entries t, e.2.id = 65 := by
      obtain ⟨e, he, hid, _⟩ := (mem_patternNumbers hs).1 hmn
      exact ⟨renumber n v e, by rw [hw2t]; exact List.mem_map.2 ⟨e, he, rfl⟩, by rw [renumber_id]; exact hid⟩
    obtain ⟨_, q2, _⟩ := C48_len_iid_partial k1 L2t hne2 hs2 hnew
    rw [q2, hw2t, p1, List.map_map]
    rfl

open Demo in
/-- Renaming pattern 1 to 5. -/
example : WReach tuneWorld.1 (fun u => u = 0 ∨ u = tuneWorld.2) ∧ shown tuneWorld.1.heap 0 ≠ [] ∧
    StartsWithNew (tuneWorld.1.entries tuneWorld.2) ∧ (tuneWorld.1.iterPatterns tuneWorld.2).2[0]? = some 2 ∧
    (patternNumbers (tuneWorld.1.entries tuneWorld.2))[0]? = some (.lv (.int 1)) ∧
    Value.lv (.int 5) ∉ patternNumbers (tuneWorld.1.entries tuneWorld.2) ∧
    ((tuneWorld.1.iterPatterns tuneWorld.2).1.setPatternIid 2 (.lv (.int 5))).project.events.map Event.value =
      (tune.events.map Event.value).zipIdx.map fun x => if x.2 = 1 ∨ x.2 = 6 then .lv (.int 5) else x.1 :=
  ⟨tune_reach, by decide +kernel, tune_starts, by decide +kernel, by decide +kernel, by decide +kernel,
    by decide +kernel⟩

/-- C49 needs a new number: with the number of another pattern the two are merged. -/
theorem C49_collision_refuted : ∃ (w : World) (t u : Nat) (L : Nat → Prop), WReach w L ∧ L t ∧
    shown w.heap 0 ≠ [] ∧ StartsWithNew (w.entries t) ∧ (w.iterPatterns t).2[0]? = some u ∧
    (w.iterPatterns t).2.length = 2 ∧
    ((((w.iterPatterns t).1.setPatternIid u (.lv (.int 2))).iterPatterns t).2).length = 1 :=
  ⟨Demo.tuneWorld.1, Demo.tuneWorld.2, 2, _, Demo.tune_reach, .inr rfl, by decide +kernel, Demo.tune_starts,
    by decide +kernel, by decide +kernel, by decide +kernel⟩

theorem filter_eraseDups {l : List Value} {p : Value → Bool} : l.eraseDups.filter p = (l.filter p).eraseDups := by
  generalize hn : l.length = n
  induction n using Nat.strongRecOn generalizing l with
  | ind n ih =>
    cases l with
    | nil => simp
    | cons a l =>
      have hlt : (l.filter fun b => !b == a).length < n := by
        have := List.length_filter_le (fun b => !b == a) l
        simp only [List.length_cons] at hn
        omega
      rw [List.eraseDups_cons, List.filter_cons, List.filter_cons, ih _ hlt rfl]
      split
      · rw [List.eraseDups_cons, List.filter_filter, List.filter_filter]
        simp only [Bool.and_comm]
      · next h =>
        rw [List.filter_filter]
        congr 1
        apply List.filter_congr
        intro b _
        by_cases hb : b = a
        · subst hb; simp [h]
        · simp [hb]

theorem eraseDups_map_eraseDups {l : List Value} {f : Value → Value} :
    (l.eraseDups.map f).eraseDups = (l.map f).eraseDups := by
  generalize hn : l.length = n
  induction n using Nat.strongRecOn generalizing l with
  | ind n ih =>
    cases l with
    | nil => simp
    | cons a l =>
      rw [List.eraseDups_cons, List.map_cons, List.eraseDups_cons, List.map_cons, List.eraseDups_cons]
      congr 1
      rw [List.filter_map, List.filter_map, filter_eraseDups, List.filter_filter]
      have hf : (l.filter fun b => ((fun b => !b == f a) ∘ f) b && !b == a) = l.filter ((fun b => !b == f a) ∘ f) := by
        apply List.filter_congr
        intro b _
        by_cases hb : b = a
        · subst hb; simp
        · simp [hb]
      rw [hf]
      refine ih _ ?_ rfl
      have := List.length_filter_le ((fun b => !b == f a) ∘ f) l
      simp only [List.length_cons] at hn
      omega

namespace Spec

/-- The events of two patterns together, in their order. -/
def patternOfEither (l : List Entry) (n v : Value) : List Entry :=
  ((patternEvents l).filter fun x => decide (x.1 = n ∨ x.1 = v)).map Prod.snd

end Spec

/-- C49 for every number `v`: exactly the `New` events of this pattern change, to `v`.  Iterating again yields the patterns in
the order of their first events; those with other numbers are unchanged, and the one with the number `v` has the events of
this pattern and of the pattern that had the number, if there was one, in the order of the file. -/
theorem C49_exact {w : World} {L : Nat → Prop} (r : WReach w L) {t : Nat} (ht : L t)
    (hne : shown w.heap 0 ≠ []) (hs : StartsWithNew (w.entries t)) {i u : Nat} {n : Value}
    (hu : (w.iterPatterns t).2[i]? = some u) (hn : (patternNumbers (w.entries t))[i]? = some n) (v : Value) :
    let w2 := (w.iterPatterns t).1.setPatternIid u v
    let events2 := (w.entries 0).map fun e =>
      if e ∈ patternOf (w.entries t) n ∧ e.2.id = 65 then { e.2 with value := v } else e.2
    let numbers2 := ((patternNumbers (w.entries t)).map fun k => if k = n then v else k).eraseDups
    w2.project = { w.project with events := events2 } ∧
    w2.entries u = (patternOf (w.entries t) n).map (renumber n v) ∧
    (w2.iterPatterns t).2.map (w2.iterPatterns t).1.patternIid = numbers2.map .ok ∧
    (w2.iterPatterns t).2.map (w2.iterPatterns t).1.entries = numbers2.map fun k =>
      if k = v then (patternOfEither (w.entries t) n v).map (renumber n v) else patternOf (w.entries t) k := by
  obtain ⟨k1, hmu, hmn, hw2t, hw2u, hne2, hp⟩ := iid_set_core r ht hne hu hn v
  intro w2 events2 numbers2
  have hs2 : StartsWithNew (w2.entries t) := by rw [hw2t]; exact renumber_startsWithNew hs
  have L2t : L t ∨ t ∈ (w.iterPatterns t).2 := .inl ht
  have hnum : patternNumbers (w2.entries t) = numbers2 := by
    show _ = List.eraseDups _
    rw [hw2t]
    unfold patternNumbers
    rw [renumber_events hs, List.map_map, eraseDups_map_eraseDups, List.map_map]
    rfl
  refine ⟨hp, hw2u, ?_, ?_⟩
  · have hnew : ∃ e ∈ w2.entries t, e.2.id = 65 := by
      obtain ⟨e, he, hid, _⟩ := (mem_patternNumbers hs).1 hmn
      exact ⟨renumber n v e, by rw [hw2t]; exact List.mem_map.2 ⟨e, he, rfl⟩, by rw [renumber_id]; exact hid⟩
    obtain ⟨_, q2, _⟩ := C48_len_iid_partial k1 L2t hne2 hs2 hnew
    rw [q2, hnum]
  · obtain ⟨_, q2, _⟩ := iterPatterns_spec k1 L2t hne2
    rw [q2, hnum]
    apply List.map_congr_left
    intro k hk
    rw [hw2t]
    unfold patternOf
    rw [renumber_events hs, List.filter_map, List.map_map]
    by_cases hkv : k = v
    · subst hkv
      rw [if_pos rfl]
      unfold patternOfEither
      rw [List.map_map]
      have hf : (patternEvents (w.entries t)).filter ((fun x => decide (x.1 = k)) ∘
          fun x => (if x.1 = n then k else x.1, renumber n k x.2)) =
          (patternEvents (w.entries t)).filter fun x => decide (x.1 = n ∨ x.1 = k) := ?_
      · rw [hf]; rfl
      apply List.filter_congr
      intro x _
      simp only [Function.comp_def]
      rw [decide_eq_decide]
      by_cases hx : x.1 = n <;> simp [hx]
    · rw [if_neg hkv]
      have hkn : k ≠ n := by
        rintro rfl
        obtain ⟨a, ha, hak⟩ := List.mem_map.1 (List.mem_eraseDups.1 hk)
        split at hak
        · exact hkv hak.symm
        · next h => exact h hak
      have hf : (patternEvents (w.entries t)).filter ((fun x => decide (x.1 = k)) ∘
          fun x => (if x.1 = n then v else x.1, renumber n v x.2)) =
          (patternEvents (w.entries t)).filter fun x => decide (x.1 = k) := by
        apply List.filter_congr
        intro x _
        simp only [Function.comp_def]
        rw [decide_eq_decide]
        by_cases hx : x.1 = n
        · rw [if_pos hx, hx]
          exact ⟨fun h => absurd h.symm hkv, fun h => absurd h.symm hkn⟩
        · simp [hx]
      rw [hf]
      apply List.map_congr_left
      intro x hx
      obtain ⟨hx1, hx2⟩ := List.mem_filter.1 hx
      have hx2 : x.1 = k := by simpa using hx2
      show renumber n v x.2 = x.2
      unfold renumber
      rw [if_neg]
      rintro ⟨h1, h2⟩
      obtain ⟨_, pre, post, h3, h4⟩ := mem_patternEvents.1 hx1
      rw [patternNumber_new h1] at h4
      exact hkn (by rw [← hx2, h4, h2])

open Demo in
/-- Giving pattern 1 the number of pattern 2: one pattern with the events of both is left. -/
example : ((patternNumbers (tuneWorld.1.entries tuneWorld.2)).map fun k =>
      if k = .lv (.int 1) then .lv (.int 2) else k).eraseDups = [.lv (.int 2)] ∧
    (patternOf (tuneWorld.1.entries tuneWorld.2) (.lv (.int 1))).map Prod.fst ++
      (patternOf (tuneWorld.1.entries tuneWorld.2) (.lv (.int 2))).map Prod.fst = [1, 2, 6, 7] ++ [3, 4, 8, 9, 10] ∧
    (patternOfEither (tuneWorld.1.entries tuneWorld.2) (.lv (.int 1)) (.lv (.int 2))).map Prod.fst =
      [1, 2, 3, 4, 6, 7, 8, 9, 10] := by decide +kernel

/-! ### C50 -/

namespace Spec

/-- `l[start:stop]` of a Python list: `None` stands for the ends, negative numbers count from
the end. -/
def pySlice {α : Type} (l : List α) (start stop : Option Int) : List α :=
  let clip (x : Int) : Nat := (if x < 0 then x + l.length else x).toNat
  let a := match start with
    | none => 0
    | some x => clip x
  let b := match stop with
    | none => l.length
    | some x => clip x
  (l.drop a).take (b - a)

end Spec

theorem patternName_spec {w : World} {L : Nat → Prop} (r : WReach w L) {u : Nat} (hu : L u) :
    w.patternName u = valueOf (w.events u) 193 := by
  unfold World.patternName Descr.read
  rcases getEvent_spec r hu [193] with ⟨k, ref, h1, h2, h3, h4⟩ | ⟨h0, h1, h2⟩ | ⟨h0, _⟩ | ⟨h0, _⟩
  · rw [show (eventProp [193]).ids = [193] from rfl, h1]
    dsimp only [eventProp]
    rcases h4 with ⟨h4, _⟩ | ⟨a, b, p, q, g1, g2, g3, g4, g5⟩
    · cases h4
    · have hid : (w.ev ref).id = 193 := by
        have : (w.ev ref).id ∈ [193] := by rw [g1]; simp
        simpa using this
      unfold valueOf
      have hp : p.find? (fun e => e.id == 193) = none := by
        rw [List.find?_eq_none]
        intro x hx
        have := g4 x hx
        rw [hid] at this
        simpa using this
      rw [g3, List.find?_append, hp, List.find?_cons, hid]
      rfl
  · rw [show (eventProp [193]).ids = [193] from rfl, h1]
    dsimp only [eventProp]
    unfold valueOf
    have hp : (w.events u).find? (fun e => e.id == 193) = none := by
      rw [List.find?_eq_none]
      intro x hx
      simpa using h2 x hx
    rw [hp]
    rfl
  · cases h0
  · cases h0

/-- C50. `patterns[i]` is the pattern at position `i` of the iteration, and `ModelNotFound` is
raised for every other number, negative ones included. -/
theorem C50_index (w : World) (t : Nat) (i : Int) :
    w.getPattern t (.int i) = ((w.iterPatterns t).1,
      if i < 0 then .error .modelNotFound
      else match (w.iterPatterns t).2[i.toNat]? with
        | some u => .ok u
        | none => .error .modelNotFound) := by
  unfold World.getPattern
  dsimp only
  rw [getItem_int]
  congr 1
  by_cases h : i < 0
  · rw [if_neg (by omega), if_pos h]
  · rw [if_pos (by omega), if_neg h, Int.sub_zero, List.getElem?_map]
    cases (w.iterPatterns t).2[i.toNat]? <;> rfl

/-- C50. `patterns[name]` is the first pattern of the iteration with this name; `ModelNotFound`
is raised if there is none. -/
theorem C50_name {w : World} {L : Nat → Prop} (r : WReach w L) {t : Nat} (ht : L t)
    (hne : shown w.heap 0 ≠ []) (s : PStr) :
    let w' := (w.iterPatterns t).1
    let named : Nat → Bool := fun u => valueOf (w'.events u) 193 == some (.str s)
    w.getPattern t (.str s) = (w', match (w.iterPatterns t).2.find? named with
      | some u => .ok u
      | none => .error .modelNotFound) := by
  obtain ⟨h1, _⟩ := iterPatterns_spec r ht hne
  unfold World.getPattern
  dsimp only
  rw [getItem_str, List.find?_map]
  congr 1
  have : ∀ (l : List Nat), (∀ u ∈ l, u ∈ (w.iterPatterns t).2) →
      l.find? ((fun m : Nat × Option Value => decide (m.2 = some (.str s))) ∘
        fun u => (u, (w.iterPatterns t).1.patternName u)) =
      l.find? (fun u => valueOf ((w.iterPatterns t).1.events u) 193 == some (.str s)) := by
    intro l hl
    induction l with
    | nil => rfl
    | cons u l ih =>
      rw [List.find?_cons, List.find?_cons, ih (fun u hu => hl u (by simp [hu]))]
      have : ((fun m : Nat × Option Value => decide (m.2 = some (.str s))) ∘
          fun u => (u, (w.iterPatterns t).1.patternName u)) u =
          (valueOf ((w.iterPatterns t).1.events u) 193 == some (.str s)) := by
        simp only [Function.comp_def]
        rw [patternName_spec h1 (.inr (hl u (by simp)))]
        rw [Bool.eq_iff_iff]
        simp
      rw [this]
  rw [this _ (fun u hu => hu)]
  cases (w.iterPatterns t).2.find? _ <;> rfl

open Demo in
example : (tuneWorld.1.getPattern tuneWorld.2 (.int 1)).2 = .ok 3 ∧
    (tuneWorld.1.getPattern tuneWorld.2 (.int (-1))).2 = .error .modelNotFound ∧
    (tuneWorld.1.getPattern tuneWorld.2 (.str (PStr.lit "B"))).2 = .ok 3 ∧
    (tuneWorld.1.getPattern tuneWorld.2 (.str (PStr.lit "C"))).2 = .error .modelNotFound :=
  ⟨by decide +kernel, by decide +kernel, by decide +kernel, by decide +kernel⟩

/-- C50 for slices with two bounds that are not negative: the same as for a list.  Missing:
other slices, where this fails. -/
theorem C50_slice_partial (w : World) (t : Nat) {a b : Int} (ha : 0 ≤ a) (hb : 0 ≤ b) :
    w.slicePatterns t (some a) (some b) =
      ((w.iterPatterns t).1, .ok (pySlice (w.iterPatterns t).2 (some a) (some b))) := by
  unfold World.slicePatterns pySlice
  dsimp only
  rw [getSlice_some, List.map_map]
  have hid : ∀ l : List Nat, l.map (Prod.fst ∘ fun u => (u, (w.iterPatterns t).1.patternName u)) = l :=
    fun l => (List.map_congr_left fun _ _ => rfl).trans (List.map_id l)
  rw [hid, if_neg (by omega), if_neg (by omega), Int.sub_zero, Int.sub_zero]

open Demo in
example : (0 : Int) ≤ 1 ∧ (0 : Int) ≤ 7 ∧ (tuneWorld.1.slicePatterns tuneWorld.2 (some 1) (some 7)).2 = .ok [3] :=
  ⟨by decide, by decide, by decide +kernel⟩

/-- C50 is false for slices in general: `patterns[:1]` raises `TypeError` whenever there is a
pattern, and negative bounds do not count from the end. -/
theorem C50_slice_refuted :
    (∀ (w : World) (t : Nat) (stop : Option Int), (w.iterPatterns t).2 ≠ [] →
      (w.slicePatterns t none stop).2 = .error .typeError) ∧
    ∃ (w : World) (t : Nat) (L : Nat → Prop), WReach w L ∧ L t ∧ (w.iterPatterns t).2 = [2, 3] ∧
      (w.slicePatterns t (some (-1)) (some 2)).2 = .ok [2, 3] ∧ pySlice [2, 3] (some (-1)) (some 2) = [3] := by
  constructor
  · intro w t stop h
    unfold World.slicePatterns
    dsimp only
    cases hu : (w.iterPatterns t).2 with
    | nil => exact absurd hu h
    | cons u us => rfl
  · exact ⟨Demo.tuneWorld.1, Demo.tuneWorld.2, _, Demo.tune_reach, .inr rfl, by decide +kernel, by decide +kernel,
      by decide⟩

/-! ### C51 -/

theorem findIid_eq {w : World} (v : Value) {us : List Nat} {ns : List Value} (h : us.map w.patternIid = ns.map .ok) :
    w.findIid v us = .ok ((us.zip ns).find? (fun x => decide (x.2 = v)) |>.map Prod.fst) := by
  induction us generalizing ns with
  | nil => rfl
  | cons u us ih =>
    cases ns with
    | nil => cases h
    | cons n ns =>
      simp only [List.map_cons, List.cons.injEq] at h
      rw [World.findIid, h.1]
      dsimp only
      rw [List.zip_cons_cons, List.find?_cons]
      by_cases e : n = v
      · simp [e]
      · simp only [e, if_false, decide_false]
        exact ih h.2

/-- C51 where every pattern event comes after a `New` event: `current` is `None` if no pattern
has the number stored with the project; otherwise it is the pattern with this number.
Missing: events before the first `New` event, where this fails. -/
theorem C51_current_partial {w : World} {L : Nat → Prop} (r : WReach w L) {t : Nat} (ht : L t)
    (hne : shown w.heap 0 ≠ []) (hs : StartsWithNew (w.entries t)) :
    let w' := (w.currentPattern t).1
    match valueOf (w.events t) 67 with
    | none => (w.currentPattern t).2 = .ok none
    | some n =>
      if n ∈ patternNumbers (w.entries t) then
        ∃ u, (w.currentPattern t).2 = .ok (some u) ∧ w'.entries u = patternOf (w.entries t) n
      else (w.currentPattern t).2 = .ok none := by
  have hval : valueOf (w.events t) 67 = match w.heap.first t 67 with
      | .ok ref => some (w.ev ref).value
      | .error _ => none := by
    unfold valueOf
    rw [← World.entries_events]
    rcases first_entry r ht 67 with ⟨pre, ref, post, h1, h2, h3, h4⟩ | ⟨h1, h2⟩
    · rw [h1, h2]
      have : (pre.map Prod.snd).find? (fun e : Event => e.id == 67) = none := by
        rw [List.find?_eq_none]
        intro x hx
        obtain ⟨y, hy, rfl⟩ := List.mem_map.1 hx
        simpa using h4 y hy
      rw [List.map_append, List.find?_append, this, List.map_cons, List.find?_cons, h3]
      rfl
    · rw [h1]
      have : ((w.entries t).map Prod.snd).find? (fun e : Event => e.id == 67) = none := by
        rw [List.find?_eq_none]
        intro x hx
        obtain ⟨y, hy, rfl⟩ := List.mem_map.1 hx
        simpa using h2 y hy
      rw [this]
      rfl
  dsimp only
  rw [hval]
  unfold World.currentPattern
  by_cases hc : w.contains t 67 = true
  · rw [if_pos hc]
    rcases first_entry r ht 67 with ⟨pre, ref, post, h1, h2, h3, h4⟩ | ⟨h1, h2⟩
    · rw [h1]
      dsimp only
      obtain ⟨i1, i2, _⟩ := iterPatterns_spec r ht hne
      by_cases hnew : ∃ e ∈ w.entries t, e.2.id = 65
      · obtain ⟨_, q2, q3⟩ := C48_len_iid_partial r ht hne hs hnew
        rw [findIid_eq _ q2]
        have hlen : (w.iterPatterns t).2.length = (patternNumbers (w.entries t)).length := by
          have := congrArg List.length i2
          simpa using this
        split
        · next hm =>
          obtain ⟨i, hi, hin⟩ := List.getElem_of_mem hm
          have hi' : i < (w.iterPatterns t).2.length := by omega
          cases hf : ((w.iterPatterns t).2.zip (patternNumbers (w.entries t))).find?
              (fun x => decide (x.2 = (w.ev ref).value)) with
          | none =>
            have := List.find?_eq_none.1 hf ((w.iterPatterns t).2[i], (patternNumbers (w.entries t))[i]) (by
              rw [List.mem_iff_getElem?]
              exact ⟨i, by simp [List.getElem?_zip_eq_some, hi, hi']⟩)
            simp [hin] at this
          | some x =>
            have hx1 := List.find?_some hf
            have hx2 := List.mem_of_find?_eq_some hf
            obtain ⟨j, hj⟩ := List.mem_iff_getElem?.1 hx2
            rw [List.getElem?_zip_eq_some] at hj
            refine ⟨x.1, rfl, ?_⟩
            rw [getElem_of_map_eq i2 hj.1 hj.2]
            simp only [decide_eq_true_eq] at hx1
            rw [hx1]
        · next hm =>
          cases hf : ((w.iterPatterns t).2.zip (patternNumbers (w.entries t))).find?
              (fun x => decide (x.2 = (w.ev ref).value)) with
          | none => rfl
          | some x =>
            have hx1 := List.find?_some hf
            have hx2 := List.mem_of_find?_eq_some hf
            simp only [decide_eq_true_eq] at hx1
            exact absurd (hx1 ▸ (List.of_mem_zip hx2).2) hm
      · have hnil : patternNumbers (w.entries t) = [] := by
          rw [List.eq_nil_iff_forall_not_mem]
          intro n hn
          obtain ⟨e, he, hid, _⟩ := (mem_patternNumbers hs).1 hn
          exact hnew ⟨e, he, hid⟩
        rw [hnil, if_neg (by simp)]
        rw [hnil, List.map_nil, List.map_eq_nil_iff] at i2
        rw [i2]
        rfl
    · obtain ⟨e, he, hid⟩ := (contains_entries r ht 67).1 hc
      exact absurd hid (h2 e he)
  · rw [if_neg hc]
    rcases first_entry r ht 67 with ⟨pre, ref, post, h1, h2, h3, h4⟩ | ⟨h1, h2⟩
    · exact absurd ((contains_entries r ht 67).2 ⟨(ref, w.ev ref), by rw [h2]; simp, h3⟩) hc
    · rw [h1]

open Demo in
example : WReach tuneWorld.1 (fun u => u = 0 ∨ u = tuneWorld.2) ∧ shown tuneWorld.1.heap 0 ≠ [] ∧
    StartsWithNew (tuneWorld.1.entries tuneWorld.2) ∧
    valueOf (tuneWorld.1.events tuneWorld.2) 67 = some (.lv (.int 2)) ∧
    (tuneWorld.1.currentPattern tuneWorld.2).2 = .ok (some 3) :=
  ⟨tune_reach, by decide +kernel, tune_starts, by decide +kernel, by decide +kernel⟩

namespace Demo

/-- As `early`, with a selected pattern. -/
def earlySelected : Project := ⟨0, 1, 96, early.events ++ [⟨67, .u16, .lv (.int 1), 2⟩]⟩

def earlySelectedWorld : World × Nat := (World.ofProject earlySelected).patterns

end Demo

/-- C51 is false with an event before the first `New` event: `current` raises `KeyError`
although the selected pattern exists. -/
theorem C51_current_refuted : ∃ (w : World) (t : Nat) (L : Nat → Prop), WReach w L ∧ L t ∧
    valueOf (w.events t) 67 = some (.lv (.int 1)) ∧ Value.lv (.int 1) ∈ patternNumbers (w.entries t) ∧
    (w.currentPattern t).2 = .error .keyError :=
  ⟨Demo.earlySelectedWorld.1, Demo.earlySelectedWorld.2, _,
    pickView_reach (.parsed Demo.earlySelected) rfl (by decide +kernel) patternsStep false, .inr rfl,
    by decide +kernel, by decide +kernel, by decide +kernel⟩

/-! ### C52, C53: time markers -/

/-- C52. A time marker's position and type are those the stored number stands for: signatures
have `134217728` (2^27) added to their position.  Both are `None` exactly if there is no
position event. -/
theorem C52_marker {w : World} {L : Nat → Prop} (r : WReach w L) {u : Nat} (hu : L u) :
    (valueOf (w.events u) 148 = none → w.markerPosition u = .ok none ∧ w.markerIsSignature u = .ok none) ∧
    ∀ v : Int, valueOf (w.events u) 148 = some (.lv (.int v)) →
      ∃ (p : Int) (sig : Bool), w.markerPosition u = .ok (some p) ∧ w.markerIsSignature u = .ok (some sig) ∧
        v = p + (if sig then 2 ^ 27 else 0) ∧ (sig = true ↔ 2 ^ 27 ≤ v) := by
  have hc := World.contains_eq r hu 148
  constructor
  · intro h
    have hm : w.markerValue u = .ok none := by
      unfold World.markerValue
      rw [hc, h]; rfl
    unfold World.markerPosition World.markerIsSignature
    rw [hm]
    exact ⟨rfl, rfl⟩
  · intro v h
    have hm : w.markerValue u = .ok (some v) := by
      unfold World.markerValue
      rw [hc, h]
      rcases World.first_value r hu 148 with ⟨ref, h1, _, h3, _⟩ | ⟨_, h2⟩
      · rw [h] at h3
        rw [h1]
        simp only [Option.isSome_some, if_true]
        rw [← Option.some.inj h3]
      · rw [h] at h2; cases h2
    unfold World.markerPosition World.markerIsSignature
    rw [hm]
    refine ⟨_, _, rfl, rfl, ?_, ?_⟩
    · by_cases hv : v < 134217728
      · have : ¬ (134217728 : Int) ≤ v := by omega
        simp [hv, this]
      · have : (134217728 : Int) ≤ v := by omega
        simp [hv, this]
    · rw [decide_eq_true_eq]
      rw [show (2 : Int) ^ 27 = 134217728 from rfl]

open Demo in
example : WReach earlyWorld.1 (fun u => u = 0 ∨ u = earlyWorld.2) ∧
    valueOf (earlyWorld.1.events earlyWorld.2) 148 = some (.lv (.int 96)) :=
  ⟨pickView_reach (.parsed early) rfl (by decide +kernel) patternsStep false, by decide +kernel⟩

namespace Spec

/-- Events of time markers. -/
def isMarkerEvent (e : Entry) : Bool := e.2.id ∈ [33, 34, 148, 205]

end Spec

theorem sublist_eq {α : Type} [DecidableEq α] {l a b : List α} (hn : l.Nodup) (ha : a.Sublist l) (hb : b.Sublist l)
    (h : ∀ x, x ∈ a ↔ x ∈ b) : a = b := by
  rw [← filter_mem_sublist hn ha, ← filter_mem_sublist hn hb]
  apply List.filter_congr
  intro x _
  rw [decide_eq_decide]
  exact h x

theorem flatten_filter_get {α : Type} {p : α → Bool} {bs : List (List α)} (h : ∀ b ∈ bs, ∃ x, b.filter p = [x]) (k : Nat) :
    (bs.flatten.filter p)[k]? = (bs[k]?).bind fun b => (b.filter p).head? := by
  induction bs generalizing k with
  | nil => simp
  | cons b bs ih =>
    obtain ⟨x, hx⟩ := h b (by simp)
    rw [List.flatten_cons, List.filter_append, hx]
    cases k with
    | zero => rw [List.getElem?_cons_zero, Option.bind_some, hx]; rfl
    | succ k =>
      have := ih (fun b hb => h b (by simp [hb])) k
      simpa using this

theorem nodup_of_map {α β : Type} (f : α → β) {l : List α} (h : (l.map f).Nodup) : l.Nodup := by
  induction l with
  | nil => simp
  | cons a l ih =>
    rw [List.map_cons, List.nodup_cons] at h
    exact List.nodup_cons.2 ⟨fun hm => h.1 (List.mem_map.2 ⟨a, hm, rfl⟩), ih h.2⟩

theorem entries_nodup {w : World} {L : Nat → Prop} (r : WReach w L) {t : Nat} (ht : L t) : (w.entries t).Nodup := by
  have := refs_nodup r ht
  rw [← World.entries_refs] at this
  exact nodup_of_map _ this

theorem filter_one {ds : List Nat} (hds : ds.Nodup) {d : Nat} (hd : d ∈ ds) :
    (ds.filter fun i => decide (i = d)).length = 1 := by
  induction ds with
  | nil => cases hd
  | cons a ds ih =>
    rw [List.nodup_cons] at hds
    rcases List.mem_cons.1 hd with rfl | hd
    · have h0 : ds.filter (fun i => decide (i = d)) = [] := by
        rw [List.filter_eq_nil_iff]
        intro i hi hc
        have : i = d := by simpa using hc
        exact hds.1 (this ▸ hi)
      rw [List.filter_cons, if_pos (by simp), h0]
      rfl
    · have h0 : ¬ a = d := fun hc => hds.1 (hc ▸ hd)
      rw [List.filter_cons, if_neg (by simpa using h0), ih hds.2 hd]

/-- `group` on events that come in blocks with the same ids. -/
theorem group_blocks {w : World} {L : Nat → Prop} (r : WReach w L) {u : Nat} (hu : L u) (ids ds : List Nat)
    (hids : ids.Nodup) (hds : ds.Nodup) (hsub : ∀ d ∈ ds, d ∈ ids) (hne : ds ≠ []) (blocks : List (List Entry))
    (hl : (w.entries u).filter (fun e => decide (e.2.id ∈ ids)) = blocks.flatten)
    (hb : ∀ b ∈ blocks, (b.map fun e => e.2.id).Perm ds) :
    (w.heap.group u ids).2.map (({ w with heap := (w.heap.group u ids).1 } : World).entries) = blocks := by
  have hr := (wreach_inv r).1
  obtain ⟨c1, c2, c3⟩ := C28_group hr hu ids hids
  dsimp only at c1 c2 c3
  have hs := C29_views_are_selections hr hu (.group ids hids)
  dsimp only [view] at hs
  generalize hvs : (w.heap.group u ids).2 = vs at *
  generalize hh : (w.heap.group u ids).1 = h' at *
  have hocc : ∀ id ∈ ids, (w.entries u).filter (fun e => decide (e.2.id = id)) =
      blocks.flatten.filter fun e => decide (e.2.id = id) := by
    intro id hid
    rw [← hl, List.filter_filter]
    apply List.filter_congr
    intro e _
    by_cases he : e.2.id = id
    · simp [he, hid]
    · simp [he]
  let f : Ev → Entry := fun x => (x.1, w.ev x.1)
  have hev := events_shown r hu
  have hoccf : ∀ id, ((shown w.heap u).filter fun e => decide (e.2 = id)).map f =
      (w.entries u).filter fun e => decide (e.2.id = id) := by
    intro id
    rw [World.entries_eq, List.filter_map]
    congr 1
    apply List.filter_congr
    intro x hx
    simp only [Function.comp_def, (hev x hx).2]
  have hone : ∀ d ∈ ds, ∀ b ∈ blocks, ∃ x, b.filter (fun e => decide (e.2.id = d)) = [x] := by
    intro d hd b hbm
    have hcount : ((b.map fun e => e.2.id).filter fun i => decide (i = d)).length = 1 := by
      rw [((hb b hbm).filter _).length_eq]
      exact filter_one hds hd
    rw [List.filter_map, List.length_map] at hcount
    exact List.length_eq_one_iff.1 hcount
  have hlen : ∀ d ∈ ds, ((shown w.heap u).filter fun e => decide (e.2 = d)).length = blocks.length := by
    intro d hd
    rw [← List.length_map (f := f), hoccf, hocc d (hsub d hd), List.filter_flatten, List.length_flatten, List.map_map]
    have : blocks.map (List.length ∘ List.filter fun e => decide (e.2.id = d)) = blocks.map fun _ => 1 := by
      apply List.map_congr_left
      intro b hbm
      obtain ⟨x, hx⟩ := hone d hd b hbm
      simp [hx]
    rw [this]
    clear this hl hb hone hocc
    induction blocks with
    | nil => rfl
    | cons b bs ih => rw [List.map_cons, List.sum_cons, ih, List.length_cons]; omega
  have hzero : ∀ d ∈ ids, d ∉ ds → (shown w.heap u).filter (fun e => decide (e.2 = d)) = [] := by
    intro d hd hnd
    rw [← List.map_eq_nil_iff (f := f), hoccf, hocc d hd, List.filter_eq_nil_iff]
    intro e he hc
    obtain ⟨b, hbm, heb⟩ := List.mem_flatten.1 he
    have : e.2.id ∈ ds := (hb b hbm).mem_iff.1 (List.mem_map.2 ⟨e, heb, rfl⟩)
    rw [of_decide_eq_true hc] at this
    exact hnd this
  have hvlen : vs.length = blocks.length := by
    obtain ⟨d, hd⟩ := List.exists_mem_of_ne_nil ds hne
    have h1 := c1 d (hsub d hd)
    rw [hlen d hd, List.length_map] at h1
    rcases c2 with c2 | ⟨id, hid, c2⟩
    · rw [List.map_eq_nil_iff] at c2
      rw [c2] at h1 ⊢
      have h2 : blocks.length ≤ 0 := h1
      simp only [List.length_nil]; omega
    · rw [List.length_map] at c2
      by_cases hm : id ∈ ds
      · rw [← c2, hlen id hm]
      · rw [hzero id hid hm] at c2
        have h2 : vs.length = 0 := c2.symm
        omega
  have hent : ∀ v, ({ w with heap := h' } : World).entries v = (shown h' v).map f := fun v => World.entries_eq _ v
  apply List.ext_getElem
  · simpa using hvlen
  · intro k k1 k2
    have hk : k < vs.length := by simpa using k1
    rw [List.getElem_map, hent]
    have hbk : blocks[k] ∈ blocks := List.getElem_mem k2
    have hnod := entries_nodup r hu
    apply sublist_eq hnod
    · rw [World.entries_eq]
      exact ((hs vs[k] (List.getElem_mem hk)).1).map f
    · have h1 : blocks[k].Sublist blocks.flatten := List.sublist_flatten_of_mem hbk
      rw [← hl] at h1
      exact h1.trans List.filter_sublist
    · intro e
      have hmem := c3 k (shown h' vs[k]) (by simp [hk])
      have hget : ∀ d ∈ ds, (((shown w.heap u).filter fun e => decide (e.2 = d)).map f)[k]? =
          (blocks[k].filter fun e => decide (e.2.id = d)).head? := by
        intro d hd
        rw [hoccf, hocc d (hsub d hd), flatten_filter_get (hone d hd)]
        simp [k2]
      constructor
      · intro he
        obtain ⟨x, hx, rfl⟩ := List.mem_map.1 he
        obtain ⟨id, hid, hg⟩ := (hmem x).1 hx
        by_cases hm : id ∈ ds
        · have := hget id hm
          rw [List.getElem?_map, hg] at this
          have h2 := List.mem_of_mem_head? this.symm
          exact (List.mem_filter.1 h2).1
        · rw [hzero id hid hm] at hg
          simp at hg
      · intro he
        have hd : e.2.id ∈ ds := (hb _ hbk).mem_iff.1 (List.mem_map.2 ⟨e, he, rfl⟩)
        obtain ⟨x, hx⟩ := hone _ hd _ hbk
        have hex : e = x := by
          have : e ∈ blocks[k].filter (fun e' => decide (e'.2.id = e.2.id)) := List.mem_filter.2 ⟨he, by simp⟩
          rw [hx] at this
          simpa using this
        have := hget _ hd
        rw [hx, ← hex, List.getElem?_map] at this
        cases hg : ((shown w.heap u).filter fun e' => decide (e'.2 = e.2.id))[k]? with
        | none => rw [hg] at this; cases this
        | some y =>
          rw [hg] at this
          simp only [Option.map_some, List.head?_cons, Option.some.injEq] at this
          exact List.mem_map.2 ⟨y, (hmem y).2 ⟨e.2.id, hsub _ hd, hg⟩, this⟩

/-- C53 where all time markers have events with the same ids: the markers are the blocks in
which their events come.  Missing: markers with and without name or signature mixed, where
this fails. -/
theorem C53_markers_partial {w : World} {L : Nat → Prop} (r : WReach w L) {u : Nat} (hu : L u)
    (hne : shown w.heap 0 ≠ []) (blocks : List (List Entry)) (ds : List Nat)
    (hl : (w.entries u).filter isMarkerEvent = blocks.flatten) (hds : ds.Nodup) (hds' : ds ≠ [])
    (hb : ∀ b ∈ blocks, (b.map fun e => e.2.id).Perm ds) :
    let w' := (w.timeMarkers u).1
    let vs := (w.timeMarkers u).2
    vs.map w'.entries = blocks ∧ WReach w' (fun v => L v ∨ v ∈ vs) ∧ w'.project = w.project := by
  obtain ⟨g, _⟩ := reach_good (wreach_inv r).1
  refine ⟨?_, WReach.view r hu hne (.group [33, 34, 148, 205] (by decide)), ?_⟩
  · by_cases hbe : blocks = []
    · subst hbe
      have := group_blocks r hu [33, 34, 148, 205] [33] (by decide) (by decide) (by simp) (by simp) [] hl (by simp)
      exact this
    · obtain ⟨b, hbm⟩ := List.exists_mem_of_ne_nil blocks hbe
      refine group_blocks r hu [33, 34, 148, 205] ds (by decide) hds ?_ hds' blocks hl hb
      intro d hd
      obtain ⟨e, he, rfl⟩ := List.mem_map.1 ((hb b hbm).mem_iff.2 hd)
      have : e ∈ blocks.flatten := List.mem_flatten.2 ⟨b, hbm, he⟩
      rw [← hl] at this
      have h2 := (List.mem_filter.1 this).2
      simpa [isMarkerEvent] using h2
  · unfold World.project
    rw [World.events_eq, World.events_eq]
    have : shown (w.timeMarkers u).1.heap 0 = shown w.heap 0 :=
      shown_view (g.lt u hu) (.group [33, 34, 148, 205] (by decide)) (g.lt 0 g.vρ)
    rw [this]
    rfl

namespace Demo

/-- Two named markers. -/
def markers : Project := ⟨0, 1, 96, [⟨65, .u16, .lv (.int 1), 2⟩,
  ⟨148, .u32, .lv (.int 96), 4⟩, ⟨205, .unicode, .str (PStr.lit "a"), 4⟩,
  ⟨148, .u32, .lv (.int 192), 4⟩, ⟨205, .unicode, .str (PStr.lit "b"), 4⟩]⟩

/-- The first marker has no name. -/
def unnamed : Project := ⟨0, 1, 96, [⟨65, .u16, .lv (.int 1), 2⟩,
  ⟨148, .u32, .lv (.int 96), 4⟩,
  ⟨148, .u32, .lv (.int 192), 4⟩, ⟨205, .unicode, .str (PStr.lit "b"), 4⟩]⟩

end Demo

open Demo in
example : WReach (World.ofProject markers) (· = 0) ∧ shown (World.ofProject markers).heap 0 ≠ [] ∧
    ((World.ofProject markers).entries 0).filter isMarkerEvent =
      [[(1, ⟨148, .u32, .lv (.int 96), 4⟩), (2, ⟨205, .unicode, .str (PStr.lit "a"), 4⟩)],
       [(3, ⟨148, .u32, .lv (.int 192), 4⟩), (4, ⟨205, .unicode, .str (PStr.lit "b"), 4⟩)]].flatten ∧
    [148, 205].Nodup :=
  ⟨.parsed _, by decide +kernel, by decide +kernel, by decide⟩

/-- C53 is false: the marker at 96, which has no name, gets the name that follows the marker
at 192. -/
theorem C53_markers_refuted : ∃ (w : World) (L : Nat → Prop), WReach w L ∧ L 0 ∧
    w.events 0 = [⟨65, .u16, .lv (.int 1), 2⟩, ⟨148, .u32, .lv (.int 96), 4⟩, ⟨148, .u32, .lv (.int 192), 4⟩,
      ⟨205, .unicode, .str (PStr.lit "b"), 4⟩] ∧
    ((w.timeMarkers 0).2.map fun v => (valueOf ((w.timeMarkers 0).1.events v) 148, valueOf ((w.timeMarkers 0).1.events v) 205)) =
      [(some (.lv (.int 96)), some (.str (PStr.lit "b"))), (some (.lv (.int 192)), none)] :=
  ⟨World.ofProject Demo.unnamed, (· = 0), .parsed _, rfl, by decide +kernel, by decide +kernel⟩

end PyFLP
