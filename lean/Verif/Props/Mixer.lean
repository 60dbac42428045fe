import Verif.Props.Arrangements
/-!
# Inserts and slots of the mixer (C59 – C62)
-/

namespace PyFLP

open Spec Heap

namespace Spec

/-- Events of inserts other than `Output`: those of the insert, of plugins and of slots. -/
def isInsertEvent (e : Entry) : Bool :=
  decide (e.2.id ∈ [95, 149, 154, 204, 235, 236, 128, 155, 201, 203, 212, 213, 98])

/-- The events of the mixer cut behind every `Output` event: each part of `parts` has the events up to an
`Output` event and this event; `rest` comes behind the last one. -/
structure InsertParts (l : List Entry) (parts : List (List Entry × Entry)) (rest : List Entry) : Prop where
  split : l = parts.flatMap (fun p => p.1 ++ [p.2]) ++ rest
  body : ∀ p ∈ parts, ∀ e ∈ p.1, e.2.id ≠ 147
  output : ∀ p ∈ parts, p.2.2.id = 147
  after : ∀ e ∈ rest, e.2.id ≠ 147

end Spec

/-- Every list of events can be cut like this. -/
theorem insertParts_exists (l : List Entry) : ∃ parts rest, InsertParts l parts rest := by
  induction l with
  | nil => exact ⟨[], [], ⟨rfl, by simp, by simp, by simp⟩⟩
  | cons e l ih =>
    obtain ⟨parts, rest, h⟩ := ih
    by_cases he : e.2.id = 147
    · refine ⟨([], e) :: parts, rest, ⟨by simp [h.split], ?_, ?_, h.after⟩⟩
      · intro p hp
        rcases List.mem_cons.1 hp with rfl | hp
        · simp
        · exact h.body p hp
      · intro p hp
        rcases List.mem_cons.1 hp with rfl | hp
        · exact he
        · exact h.output p hp
    · cases parts with
      | nil =>
        refine ⟨[], e :: rest, ⟨by rw [h.split]; simp, by simp, by simp, ?_⟩⟩
        intro x hx
        rcases List.mem_cons.1 hx with rfl | hx
        · exact he
        · exact h.after x hx
      | cons p parts =>
        refine ⟨(e :: p.1, p.2) :: parts, rest, ⟨by rw [h.split]; simp, ?_, ?_, h.after⟩⟩
        · intro q hq
          rcases List.mem_cons.1 hq with rfl | hq
          · intro x hx
            rcases List.mem_cons.1 hx with rfl | hx
            · exact he
            · exact h.body p (by simp) x hx
          · exact h.body q (by simp [hq])
        · intro q hq
          rcases List.mem_cons.1 hq with rfl | hq
          · exact h.output p (by simp)
          · exact h.output q (by simp [hq])

theorem insertID_has {id : Nat} (h : id ≠ 147) :
    (insertID.has id || pluginID.has id || slotID.has id) =
      decide (id ∈ [95, 149, 154, 204, 235, 236, 128, 155, 201, 203, 212, 213, 98]) := by
  rw [Bool.eq_iff_iff]
  simp only [insertID, pluginID, slotID, IdEnum.has, List.any_cons, List.any_nil, Bool.or_eq_true, beq_iff_eq,
    Bool.or_false, decide_eq_true_eq, List.mem_cons, List.not_mem_nil, or_false]
  constructor <;> intro h <;> omega

theorem insert_skip (tl l : List Entry) (el : List Entry) {rep : Int} (hr : rep ≠ 0) (h : ∀ e ∈ tl, e.2.id ≠ 147) :
    cutBy insertStep (fun e : Entry => e.2.id) () (tl ++ l) el rep =
      cutBy insertStep (fun e : Entry => e.2.id) () l (el ++ tl.filter isInsertEvent) rep := by
  induction tl generalizing el with
  | nil => simp
  | cons e tl ih =>
    have h1 := h e (by simp)
    rw [List.cons_append, cutBy, if_neg hr]
    have hst : insertStep () e.2.id = (if isInsertEvent e then some true else none, ()) := by
      unfold insertStep
      rw [if_neg h1, insertID_has h1]
      unfold isInsertEvent
      split <;> rfl
    rw [hst]
    cases hi : isInsertEvent e with
    | true => simp [hi, ih _ (fun e he => h e (by simp [he]))]
    | false => simp [hi, ih _ (fun e he => h e (by simp [he]))]

theorem insert_rest (rest el : List Entry) (rep : Int) (h : ∀ e ∈ rest, e.2.id ≠ 147) :
    cutBy insertStep (fun e : Entry => e.2.id) () rest el rep = [] := by
  by_cases hr : rep = 0
  · cases rest <;> simp [cutBy, hr]
  · have := insert_skip rest [] el hr h
    rw [List.append_nil] at this
    rw [this]
    rfl

/-- The parts with the `Output` event of the part before in front. -/
def shifted : List Entry → List (List Entry × Entry) → List (List Entry)
  | _, [] => []
  | el, p :: ps => (el ++ p.1.filter isInsertEvent) :: shifted [p.2] ps

theorem shifted_get (ps : List (List Entry × Entry)) : ∀ (el : List Entry) (i : Nat),
    (shifted el ps)[i]? = (ps[i]?).map fun p =>
      (if i = 0 then el else (ps[i - 1]?.map fun q => [q.2]).getD []) ++ p.1.filter isInsertEvent := by
  induction ps with
  | nil => intro el i; simp [shifted]
  | cons p ps ih =>
    intro el i
    cases i with
    | zero => simp [shifted]
    | succ i =>
      rw [shifted, List.getElem?_cons_succ, ih, List.getElem?_cons_succ]
      cases i with
      | zero => simp
      | succ i => simp

theorem insert_parts (parts : List (List Entry × Entry)) (rest : List Entry)
    (hb : ∀ p ∈ parts, ∀ e ∈ p.1, e.2.id ≠ 147) (ho : ∀ p ∈ parts, p.2.2.id = 147) (ha : ∀ e ∈ rest, e.2.id ≠ 147) :
    ∀ (el : List Entry) (rep : Nat),
      cutBy insertStep (fun e : Entry => e.2.id) () (parts.flatMap (fun p => p.1 ++ [p.2]) ++ rest) el rep =
        (shifted el parts).take rep := by
  induction parts with
  | nil =>
    intro el rep
    rw [List.flatMap_nil, List.nil_append, insert_rest _ _ _ ha]
    simp [shifted]
  | cons p parts ih =>
    intro el rep
    cases rep with
    | zero =>
      cases h : (p :: parts).flatMap (fun p => p.1 ++ [p.2]) ++ rest <;> simp [cutBy]
    | succ rep =>
      rw [List.flatMap_cons, List.append_assoc, List.append_assoc, insert_skip _ _ _ (by omega) (hb p (by simp)),
        List.cons_append, List.nil_append, cutBy, if_neg (by omega), ho p (by simp)]
      have hst : insertStep () 147 = (some false, ()) := by decide
      rw [hst]
      dsimp only
      have e : ((rep + 1 : Nat) : Int) - 1 = rep := by omega
      rw [e, ih (fun p hp => hb p (by simp [hp])) (fun p hp => ho p (by simp [hp])), shifted, List.take_succ_cons]

theorem iterInserts_views {w : World} {L : Nat → Prop} (r : WReach w L) {t : Nat} (ht : L t)
    (hne : shown w.heap 0 ≠ []) (v : FLVersion) {parts : List (List Entry × Entry)} {rest : List Entry}
    (h : InsertParts (w.entries t) parts rest) :
    let w' := (w.iterInserts t v).1
    let us := (w.iterInserts t v).2
    us.map w'.entries = (shifted [] parts).take (maxInserts v) ∧ WReach w' (fun u => L u ∨ u ∈ us) ∧
      w'.project = w.project := by
  obtain ⟨h1, h2, h3, _⟩ := subViews_spec r ht hne insertStep () (maxInserts v)
  refine ⟨?_, h1, h3⟩
  refine h2.trans ?_
  rw [h.split]
  exact insert_parts parts rest h.body h.output h.after [] (maxInserts v)

/-! ### C59 -/

theorem shifted_length (ps : List (List Entry × Entry)) : ∀ el, (shifted el ps).length = ps.length := by
  induction ps with
  | nil => intro el; rfl
  | cons p ps ih => intro el; simp [shifted, ih]

theorem insert_at {w : World} {L : Nat → Prop} (r : WReach w L) {t : Nat} (ht : L t)
    (hne : shown w.heap 0 ≠ []) (v : FLVersion) {parts : List (List Entry × Entry)} {rest : List Entry}
    (h : InsertParts (w.entries t) parts rest) {i u : Nat} (hu : (w.iterInserts t v).2[i]? = some u) :
    ∃ p, parts[i]? = some p ∧ (w.iterInserts t v).1.entries u =
      (if i = 0 then [] else (parts[i - 1]?.map fun q => [q.2]).getD []) ++ p.1.filter isInsertEvent := by
  obtain ⟨h1, _⟩ := iterInserts_views r ht hne v h
  have := congrArg (fun l => l[i]?) h1
  rw [List.getElem?_map, hu, Option.map_some] at this
  have hlt : i < maxInserts v := by
    by_cases hc : i < maxInserts v
    · exact hc
    · rw [List.getElem?_eq_none (by rw [List.length_take]; omega)] at this
      cases this
  rw [List.getElem?_take_of_lt hlt, shifted_get] at this
  cases hp : parts[i]? with
  | none => rw [hp] at this; cases this
  | some p =>
    rw [hp] at this
    exact ⟨p, rfl, Option.some.inj this⟩

/-- C59 for the events other than `Output`: iterating over the mixer yields one insert per
`Output` event, as many as the version allows.  The insert at position `i` shows the insert, plugin
and slot events between the `Output` event before and its own, in order.  Missing: the `Output`
events, which are shown by the wrong insert, and the events behind the last one. -/
theorem C59_inserts_partial {w : World} {L : Nat → Prop} (r : WReach w L) {t : Nat} (ht : L t)
    (hne : shown w.heap 0 ≠ []) (v : FLVersion) {parts : List (List Entry × Entry)} {rest : List Entry}
    (h : InsertParts (w.entries t) parts rest) :
    let w' := (w.iterInserts t v).1
    let us := (w.iterInserts t v).2
    us.map (fun u => (w'.entries u).filter fun e => decide (e.2.id ≠ 147)) =
      (parts.map fun p => p.1.filter isInsertEvent).take (maxInserts v) ∧
    WReach w' (fun u => L u ∨ u ∈ us) ∧ w'.project = w.project := by
  obtain ⟨h1, h2, h3⟩ := iterInserts_views r ht hne v h
  refine ⟨?_, h2, h3⟩
  have e : (w.iterInserts t v).2.map (fun u => ((w.iterInserts t v).1.entries u).filter fun e => decide (e.2.id ≠ 147)) =
      ((w.iterInserts t v).2.map (w.iterInserts t v).1.entries).map
        (fun l => l.filter fun e => decide (e.2.id ≠ 147)) := by
    rw [List.map_map]; rfl
  rw [e, h1, List.map_take]
  congr 1
  have hkeep : ∀ l : List Entry, (∀ e ∈ l, e.2.id ≠ 147) →
      (l.filter isInsertEvent).filter (fun e => decide (e.2.id ≠ 147)) = l.filter isInsertEvent := by
    intro l hl
    rw [List.filter_eq_self]
    intro e he
    exact decide_eq_true (hl e (List.mem_filter.1 he).1)
  have gen : ∀ (ps : List (List Entry × Entry)) (el : List Entry), (∀ p ∈ ps, ∀ e ∈ p.1, e.2.id ≠ 147) →
      (∀ p ∈ ps, p.2.2.id = 147) → (∀ e ∈ el, e.2.id = 147) →
      (shifted el ps).map (fun l => l.filter fun e => decide (e.2.id ≠ 147)) =
        ps.map fun p => p.1.filter isInsertEvent := by
    intro ps
    induction ps with
    | nil => intros; rfl
    | cons p ps ih =>
      intro el hb ho hel
      rw [shifted, List.map_cons, List.map_cons, List.filter_append, hkeep p.1 (hb p (by simp)),
        List.filter_eq_nil_iff.2 (fun e he => by simp [hel e he]), List.nil_append,
        ih [p.2] (fun p hp => hb p (by simp [hp])) (fun p hp => ho p (by simp [hp])) (by
          intro e he
          rw [List.mem_singleton] at he
          rw [he]
          exact ho p (by simp))]
  exact gen parts [] h.body h.output (by simp)

/-- C59 is false for `Output` events, in every project: the `output` of the first insert is
`None`, and that of any other one is the value of the `Output` event of the insert before. -/
theorem C59_output_refuted {w : World} {L : Nat → Prop} (r : WReach w L) {t : Nat} (ht : L t)
    (hne : shown w.heap 0 ≠ []) (v : FLVersion) {parts : List (List Entry × Entry)} {rest : List Entry}
    (h : InsertParts (w.entries t) parts rest) {i u : Nat} (hu : (w.iterInserts t v).2[i]? = some u) :
    (w.iterInserts t v).1.insertOutput u =
      if i = 0 then none else parts[i - 1]?.map fun p => p.2.2.value := by
  obtain ⟨p, hp, he⟩ := insert_at r ht hne v h hu
  obtain ⟨_, h2, _⟩ := iterInserts_views r ht hne v h
  unfold World.insertOutput
  rw [prop_spec h2 (.inr (List.mem_of_getElem? hu))]
  unfold valueOf
  rw [← World.entries_events, he]
  have hnone : ((p.1.filter isInsertEvent).map Prod.snd).find? (fun e => e.id == 147) = none := by
    rw [List.find?_eq_none]
    intro e hm
    obtain ⟨x, hx, rfl⟩ := List.mem_map.1 hm
    simpa using h.body p (List.mem_of_getElem? hp) x (List.mem_filter.1 hx).1
  by_cases h0 : i = 0
  · rw [if_pos h0, if_pos h0, List.nil_append, hnone]
    rfl
  · rw [if_neg h0, if_neg h0]
    obtain ⟨hlt, _⟩ := List.getElem?_eq_some_iff.1 hp
    have hq : parts[i - 1]? = some (parts[i - 1]'(by omega)) := List.getElem?_eq_getElem (by omega)
    rw [hq]
    simp only [Option.map_some, Option.getD_some, List.cons_append, List.nil_append, List.map_cons, List.find?_cons]
    rw [h.output _ (List.getElem_mem _)]
    rfl

namespace Demo

/-- Three inserts: two with an output, the last one without. -/
def console : Project := ⟨0, 1, 96, [
  ⟨199, .ascii, .str (PStr.lit "20.8.4"), 7⟩, ⟨64, .u16, .lv (.int 0), 2⟩,
  ⟨204, .unicode, .str (PStr.lit "A"), 4⟩, ⟨98, .u16, .lv (.int 0), 2⟩, ⟨98, .u16, .lv (.int 1), 2⟩,
  ⟨201, .unicode, .str (PStr.lit "X"), 4⟩, ⟨147, .i32, .lv (.int 7), 4⟩,
  ⟨204, .unicode, .str (PStr.lit "B"), 4⟩, ⟨29, .u8, .lv (.int 1), 1⟩, ⟨147, .i32, .lv (.int 8), 4⟩,
  ⟨204, .unicode, .str (PStr.lit "C"), 4⟩]⟩

def consoleWorld : World × Nat := (World.ofProject console).pickView 0 mixerStep false

theorem console_reach : WReach consoleWorld.1 (fun u => u = 0 ∨ u = consoleWorld.2) :=
  pickView_reach (.parsed console) rfl (by decide +kernel) mixerStep false

def consoleEntries : List Entry := consoleWorld.1.entries consoleWorld.2

theorem console_parts : InsertParts (consoleWorld.1.entries consoleWorld.2)
    [(consoleEntries.take 4, consoleEntries.getD 4 default),
      ((consoleEntries.drop 5).take 2, consoleEntries.getD 7 default)] (consoleEntries.drop 8) where
  split := by decide +kernel
  body := by decide +kernel
  output := by decide +kernel
  after := by decide +kernel

end Demo

open Demo in
example : WReach consoleWorld.1 (fun u => u = 0 ∨ u = consoleWorld.2) ∧ shown consoleWorld.1.heap 0 ≠ [] ∧
    maxInserts ⟨20, 8, 4, some 0⟩ = 127 ∧
    ((consoleWorld.1.iterInserts consoleWorld.2 ⟨20, 8, 4, some 0⟩).2.map fun u =>
      ((consoleWorld.1.iterInserts consoleWorld.2 ⟨20, 8, 4, some 0⟩).1.events u).map Event.id) =
      [[204, 98, 98, 201], [147, 204]] ∧
    ((consoleWorld.1.iterInserts consoleWorld.2 ⟨20, 8, 4, some 0⟩).2.map
      (consoleWorld.1.iterInserts consoleWorld.2 ⟨20, 8, 4, some 0⟩).1.insertOutput) = [none, some (.lv (.int 7))] :=
  ⟨console_reach, by decide +kernel, by decide +kernel, by decide +kernel, by decide +kernel⟩

/-- C59 is false for events behind the last `Output` event, in every project: no insert shows
them. -/
theorem C59_rest_refuted {w : World} {L : Nat → Prop} (r : WReach w L) {t : Nat} (ht : L t)
    (hne : shown w.heap 0 ≠ []) (v : FLVersion) {parts : List (List Entry × Entry)} {rest : List Entry}
    (h : InsertParts (w.entries t) parts rest) :
    ∀ u ∈ (w.iterInserts t v).2, ∀ e ∈ (w.iterInserts t v).1.entries u, e ∉ rest := by
  intro u hu e he hr
  obtain ⟨i, hi⟩ := List.getElem?_of_mem hu
  obtain ⟨p, hp, hen⟩ := insert_at r ht hne v h hi
  have hnd : (w.entries t).Nodup := entries_nodup r ht
  rw [h.split] at hnd
  have hdis := (List.nodup_append.1 hnd).2.2
  rw [hen] at he
  refine hdis e ?_ e hr rfl
  rw [List.mem_flatMap]
  rcases List.mem_append.1 he with hm | hm
  · split at hm
    · cases hm
    · cases hq : parts[i - 1]? with
      | none => rw [hq] at hm; cases hm
      | some q =>
        rw [hq] at hm
        simp only [Option.map_some, Option.getD_some, List.mem_singleton] at hm
        exact ⟨q, List.mem_of_getElem? hq, by simp [hm]⟩
  · exact ⟨p, List.mem_of_getElem? hp, by simp [(List.mem_filter.1 hm).1]⟩

/-! ### C60 -/

/-- C60. `mixer[i]` for a number `i ≥ -1` is the insert at position `i + 1` of the iteration, that is,
the one whose `iid` is `i`; `ModelNotFound` is raised if there is none and for smaller numbers. -/
theorem C60_index (w : World) (t : Nat) (v : FLVersion) (i : Int) :
    w.getInsert t v (.int i) = ((w.iterInserts t v).1,
      if i < -1 then .error .modelNotFound
      else match (w.iterInserts t v).2[(i + 1).toNat]? with
        | some u => .ok u
        | none => .error .modelNotFound) := by
  unfold World.getInsert
  dsimp only
  rw [getItem_int]
  congr 1
  by_cases h : i < -1
  · rw [if_neg (by omega), if_pos h]
  · rw [if_pos (by omega), if_neg h, List.getElem?_map, show i - -1 = i + 1 by omega]
    cases (w.iterInserts t v).2[(i + 1).toNat]? <;> rfl

/-- C60. `mixer[name]` is the first insert of the iteration with this name. -/
theorem C60_name {w : World} {L : Nat → Prop} (r : WReach w L) {t : Nat} (ht : L t)
    (hne : shown w.heap 0 ≠ []) (v : FLVersion) (s : PStr) :
    let w' := (w.iterInserts t v).1
    w.getInsert t v (.str s) =
      (w', match (w.iterInserts t v).2.find? fun u => valueOf (w'.events u) 204 == some (.str s) with
        | some u => .ok u
        | none => .error .modelNotFound) := by
  obtain ⟨h1, _⟩ := subViews_spec r ht hne insertStep () (maxInserts v)
  unfold World.getInsert
  dsimp only
  congr 1
  exact find_named s (fun u hu => prop_spec h1 (.inr hu) 204) (-1)

open Demo in
example : (consoleWorld.1.getInsert consoleWorld.2 ⟨20, 8, 4, some 0⟩ (.int 0)).2 = .ok 3 ∧
    (consoleWorld.1.getInsert consoleWorld.2 ⟨20, 8, 4, some 0⟩ (.str (PStr.lit "B"))).2 = .ok 3 ∧
    (consoleWorld.1.getInsert consoleWorld.2 ⟨20, 8, 4, some 0⟩ (.str (PStr.lit "C"))).2 = .error .modelNotFound :=
  ⟨by decide +kernel, by decide +kernel, by decide +kernel⟩

/-! ### C61 -/

namespace Spec

/-- `a.b.c ≤ version`. -/
def fromVersion (a b c : Int) (v : FLVersion) : Prop :=
  a < v.major ∨ (a = v.major ∧ (b < v.minor ∨ (b = v.minor ∧ c ≤ v.patch)))

instance (a b c : Int) (v : FLVersion) : Decidable (fromVersion a b c v) := by unfold fromVersion; infer_instance

/-- The number of inserts FL Studio had, as documented: 5 from 1.6.5 on, 8 from 2.0.1 on, and
so on. -/
def documentedInserts (v : FLVersion) : Nat :=
  if fromVersion 12 9 0 v then 127 else if fromVersion 9 0 0 v then 105 else if fromVersion 4 0 0 v then 64
  else if fromVersion 3 3 0 v then 20 else if fromVersion 3 0 0 v then 18 else if fromVersion 2 0 1 v then 8
  else 5

end Spec

/-- C61. No insert is lost by the limit on the number of inserts: `max_inserts` is never smaller
than the documented number. -/
theorem C61_max_inserts_partial (v : FLVersion) : documentedInserts v ≤ maxInserts v := by
  have key : ∀ k : Int × Int × Int, versionLe3 v k = decide (¬ fromVersion k.1 k.2.1 k.2.2 v) := by
    intro k
    unfold versionLe3 fromVersion
    rw [Bool.eq_iff_iff]
    split
    · simp; omega
    · split
      · simp; omega
      · simp; omega
  unfold documentedInserts maxInserts maxInsertsTable
  simp only [bandOf, key]
  have m : ∀ a b c a' b' c' : Int, (a < a' ∨ (a = a' ∧ (b < b' ∨ (b = b' ∧ c ≤ c')))) →
      fromVersion a' b' c' v → fromVersion a b c v := by
    intro a b c a' b' c' h1 h2
    unfold fromVersion at *
    omega
  have m1 := m 9 0 0 12 9 0 (by omega)
  have m2 := m 4 0 0 9 0 0 (by omega)
  have m3 := m 3 3 0 4 0 0 (by omega)
  have m4 := m 3 0 0 3 3 0 (by omega)
  have m5 := m 2 0 1 3 0 0 (by omega)
  have m6 := m 1 6 5 2 0 1 (by omega)
  by_cases h1 : fromVersion 12 9 0 v
  · simp [h1, m1 h1, m2 (m1 h1), m3 (m2 (m1 h1)), m4 (m3 (m2 (m1 h1))), m5 (m4 (m3 (m2 (m1 h1)))),
      m6 (m5 (m4 (m3 (m2 (m1 h1)))))]
  by_cases h2 : fromVersion 9 0 0 v
  · simp [h1, h2, m2 h2, m3 (m2 h2), m4 (m3 (m2 h2)), m5 (m4 (m3 (m2 h2))), m6 (m5 (m4 (m3 (m2 h2))))]
  by_cases h3 : fromVersion 4 0 0 v
  · simp [h1, h2, h3, m3 h3, m4 (m3 h3), m5 (m4 (m3 h3)), m6 (m5 (m4 (m3 h3)))]
  by_cases h4 : fromVersion 3 3 0 v
  · simp [h1, h2, h3, h4, m4 h4, m5 (m4 h4), m6 (m5 (m4 h4))]
  by_cases h5 : fromVersion 3 0 0 v
  · simp [h1, h2, h3, h4, h5, m5 h5, m6 (m5 h5)]
  by_cases h6 : fromVersion 2 0 1 v
  · simp [h1, h2, h3, h4, h5, h6, m6 h6]
  by_cases h7 : fromVersion 1 6 5 v
  · simp [h1, h2, h3, h4, h5, h6, h7]
  · simp [h1, h2, h3, h4, h5, h6, h7]

/-- C61 is false as an equality: for FL Studio 9 `max_inserts` is 127 instead of 105, for FL Studio 4
it is 105 instead of 64. -/
theorem C61_max_inserts_refuted :
    maxInserts ⟨9, 0, 0, none⟩ = 127 ∧ documentedInserts ⟨9, 0, 0, none⟩ = 105 ∧
    maxInserts ⟨4, 0, 0, none⟩ = 105 ∧ documentedInserts ⟨4, 0, 0, none⟩ = 64 := by decide

/-! ### C62 -/

/-- C62 up to one case: iterating over an insert yields as many slots as `len()` says, except that one
slot is made up if there is none.  All slot and plugin events are shown, once and in order. -/
theorem C62_slots_partial {w : World} {L : Nat → Prop} (r : WReach w L) {u : Nat} (hu : L u) (hne : shown w.heap 0 ≠ []) :
    let w' := (w.slotViews u).1
    let us := (w.slotViews u).2
    us.length = max 1 (w.lenInsert u) ∧
      us.flatMap w'.entries =
        (w.entries u).filter (fun e => decide (e.2.id ∈ [98, 128, 155, 201, 203, 212, 213])) ∧
      WReach w' (fun v => L v ∨ v ∈ us) ∧ w'.project = w.project := by
  obtain ⟨h1, h2, h3, _⟩ := divViews_spec r hu hne 98 [98, 128, 155, 201, 203, 212, 213]
  have hr := (wreach_inv r).1
  obtain ⟨c1, c2, _⟩ := C26_divide hr hu 98 [98, 128, 155, 201, 203, 212, 213]
  rw [List.length_map] at c2
  refine ⟨?_, ?_, h1, h3⟩
  · show (w.heap.divide u 98 [98, 128, 155, 201, 203, 212, 213]).2.length = _
    rw [c2]
    unfold World.lenInsert World.count Heap.get
    rw [List.length_map]
    congr 1
    unfold shown
    rw [List.filter_map, List.length_map]
    congr 1
    apply List.filter_congr
    intro a _
    simp [Heap.idOf]
  · have e : ∀ v, (w.slotViews u).1.entries v =
        (shown (w.heap.divide u 98 [98, 128, 155, 201, 203, 212, 213]).1 v).map fun x => (x.1, w.ev x.1) := by
      intro v
      rw [World.entries_eq]
      rfl
    have e2 : (w.slotViews u).2.flatMap (w.slotViews u).1.entries =
        (((w.heap.divide u 98 [98, 128, 155, 201, 203, 212, 213]).2.map
          (shown (w.heap.divide u 98 [98, 128, 155, 201, 203, 212, 213]).1)).flatten).map fun x => (x.1, w.ev x.1) := by
      rw [List.map_flatten, List.map_map]
      unfold List.flatMap
      congr 1
      exact List.map_congr_left fun v _ => e v
    refine e2.trans ?_
    rw [c1, World.entries_eq, List.filter_map]
    congr 1
    apply List.filter_congr
    intro x hx
    have := (events_shown r hu x hx).2
    simp only [Function.comp_def]
    rw [this]

/-- C62 is false without slot events: `len()` is 0, but iterating yields a slot. -/
theorem C62_slots_refuted {w : World} {L : Nat → Prop} (r : WReach w L) {u : Nat} (hu : L u)
    (hne : shown w.heap 0 ≠ []) (h : ∀ e ∈ w.entries u, e.2.id ≠ 98) :
    w.lenInsert u = 0 ∧ (w.slotViews u).2.length = 1 := by
  have h0 : w.lenInsert u = 0 := by
    unfold World.lenInsert
    rw [count_entries r hu, List.filter_eq_nil_iff.2 (fun e he => by simp [h e he])]
    rfl
  exact ⟨h0, by rw [(C62_slots_partial r hu hne).1, h0]; rfl⟩

open Demo in
example : let w := (consoleWorld.1.iterInserts consoleWorld.2 ⟨20, 8, 4, some 0⟩).1
    w.lenInsert 2 = 2 ∧ ((w.slotViews 2).2.map fun u => ((w.slotViews 2).1.events u).map Event.id) =
      [[98], [98, 201]] ∧ w.lenInsert 3 = 0 ∧ (w.slotViews 3).2.length = 1 :=
  ⟨by decide +kernel, by decide +kernel, by decide +kernel, by decide +kernel⟩

end PyFLP
