import Verif.ViewLemmas
/-!
# What users see of event trees, and which trees they can get

Specifications for the properties of `EventTree`, and the proof that all trees
reachable through the API form good hierarchies.
-/

namespace PyFLP

namespace Spec

/-- An event as an element of a tree: identity of the object and its id. -/
abbrev Ev := Nat × Nat

/-- `list(tree)`: the events a tree shows, in order. -/
def shown (h : Heap) (t : Nat) : List Ev := (h.lst t).map fun a => ((h.cell a).ref, (h.cell a).id)

/-- The position in a list of length `n` that a Python index means. -/
def position (n : Nat) (pos : Int) : Option Nat :=
  if 0 ≤ pos ∧ pos < n then some pos.toNat
  else if pos < 0 ∧ -(n : Int) ≤ pos then some (pos + n).toNat
  else none

/-- Positions of the events with this id. -/
def places (l : List Ev) (id : Nat) : List Nat :=
  (List.range l.length).filter fun i => (l[i]?).map Prod.snd = some id

/-- `pop(id, n)` on a plain list: the event and the remaining list. -/
def plainPop (l : List Ev) (id : Nat) (n : Int) : Py (Ev × List Ev) :=
  if places l id = [] then .error .keyError
  else
    match position (places l id).length n with
    | none => .error .indexError
    | some k =>
      match (places l id)[k]? with
      | none => .error .indexError
      | some i =>
        match l[i]? with
        | none => .error .indexError
        | some e => .ok (e, l.take i ++ l.drop (i + 1))

/-- `insert(pos, e)` on a plain list; `pos` has to be the position of an element
(any position will do for an empty list). -/
def plainInsert (l : List Ev) (pos : Int) (e : Ev) : Py (List Ev) :=
  if l = [] then .ok [e]
  else
    match position l.length pos with
    | none => .error .indexError
    | some i => .ok (l.take i ++ e :: l.drop i)

/-- The ways to create views of a tree. -/
inductive ViewCall : Type 1
  | subtree (select : Nat → Bool)
  | separate (id : Nat)
  | divide (sep : Nat) (ids : List Nat)
  | subtrees (σ : Type) (select : σ → Nat → Option Bool × σ) (s : σ) (rep : Int)
  | group (ids : List Nat) (distinct : ids.Nodup)

/-- Creates the views. -/
def view (h : Heap) (t : Nat) : ViewCall → Heap × List Nat
  | .subtree select => let r := h.subtree t select; (r.1, [r.2])
  | .separate id => h.separate t id
  | .divide sep ids => h.divide t sep ids
  | .subtrees _ select s rep => h.subtrees t select s rep
  | .group ids _ => h.group t ids

/-- The trees of a program that uses the API: it parses a project (every event is
a separate object), creates views of views, removes events through views and
inserts new events through views.  The second component says which views are
still up to date: a view is not if one of its events was removed through another
view that is not below it, or if an event was inserted through it or a view below it
(and it is not the project itself), or if it is a view of such a view. -/
inductive Reach : Heap → (Nat → Prop) → Prop
  | parsed (evs : List Ev) (distinct : (evs.map Prod.fst).Nodup) : Reach (Heap.ofEvents evs) (· = 0)
  | view {h L t} (r : Reach h L) (ht : L t) (hne : shown h 0 ≠ []) (call : ViewCall) :
      Reach (view h t call).1 (fun u => L u ∨ u ∈ (view h t call).2)
  | pop {h L t id n h' x} (r : Reach h L) (ht : L t) (hp : h.pop t id n = (h', .ok x)) :
      Reach h' (fun u => L u ∧ ∀ w ∈ u :: h.ancestors u,
        w ∈ t :: h.ancestors t ∨ x ∉ (shown h w).map Prod.fst)
  | insert {h L t pos ref id h'} (r : Reach h L) (ht : L t) (new : ref ∉ (shown h 0).map Prod.fst)
      (hi : h.insert t pos ref id = (h', .ok ())) :
      Reach h' (fun u => L u ∧ ∀ w ∈ u :: h.ancestors u, w ∈ t :: h.ancestors t → w = 0)

end Spec

open Spec

/-! ### `pop` as seen by users -/

theorem shown_length (h : Heap) (t : Nat) : (shown h t).length = (h.lst t).length := by simp [shown]

theorem places_map (h : Heap) (t id : Nat) :
    (h.lst t).filter (fun a => (h.cell a).id == id) =
      (places (shown h t) id).filterMap fun i => (h.lst t)[i]? := by
  have gen : ∀ (l : List Nat) (p : Nat → Bool),
      l.filter p = ((List.range l.length).filter fun i => ((l[i]?).map p).getD false).filterMap fun i => l[i]? := by
    intro l p
    induction l with
    | nil => rfl
    | cons a l ih =>
      rw [List.length_cons, List.range_succ_eq_map, List.filter_cons]
      have htail : ((List.map Nat.succ (List.range l.length)).filter fun i =>
          (((a :: l)[i]?).map p).getD false).filterMap (fun i => (a :: l)[i]?) = l.filter p := by
        rw [List.filter_map, List.filterMap_map, ih]
        rfl
      rw [List.filter_cons]
      by_cases hp : p a = true
      · rw [if_pos hp, if_pos (by simpa using hp), List.filterMap_cons, htail]
        simp
      · rw [if_neg hp, if_neg (by simpa using hp), htail]
  rw [gen]
  unfold places
  rw [shown_length]
  congr 1
  apply List.filter_congr
  intro i hi
  have hi' : i < (h.lst t).length := by simpa using hi
  simp [shown, hi']
  rfl

theorem pyIndex_position {α : Type} (xs : List α) (pos : Int) :
    pyIndex xs pos = (position xs.length pos).bind fun k => xs[k]? := by
  unfold pyIndex position
  by_cases h1 : 0 ≤ pos
  · by_cases h2 : pos < xs.length
    · simp only [h1, h2, and_self, if_true, Option.bind_some]
    · have h3 : ¬ pos < 0 := by omega
      simp only [h1, h2, h3, and_false, false_and, if_true, if_false, Option.bind_none]
      exact List.getElem?_eq_none (by omega)
  · have h3 : pos < 0 := by omega
    by_cases h2 : 0 ≤ pos + xs.length
    · have h4 : -(xs.length : Int) ≤ pos := by omega
      simp only [h1, h2, h3, h4, false_and, and_self, if_true, if_false, Option.bind_some]
    · have h4 : ¬ -(xs.length : Int) ≤ pos := by omega
      simp only [h1, h2, h4, false_and, and_false, if_false, Option.bind_none]

theorem filterMap_getElem? {α β : Type} (f : α → Option β) (xs : List α) (hf : ∀ x ∈ xs, (f x).isSome)
    (k : Nat) : (xs.filterMap f)[k]? = (xs[k]?).bind f := by
  induction xs generalizing k with
  | nil => simp
  | cons a xs ih =>
    obtain ⟨b, hb⟩ := Option.isSome_iff_exists.1 (hf a (by simp))
    rw [List.filterMap_cons, hb]
    cases k with
    | zero => simp [hb]
    | succ k => simpa using ih (fun x hx => hf x (by simp [hx])) k

theorem filterMap_length {α β : Type} (f : α → Option β) (xs : List α) (hf : ∀ x ∈ xs, (f x).isSome) :
    (xs.filterMap f).length = xs.length := by
  induction xs with
  | nil => rfl
  | cons a xs ih =>
    obtain ⟨b, hb⟩ := Option.isSome_iff_exists.1 (hf a (by simp))
    rw [List.filterMap_cons, hb]
    simp [ih (fun x hx => hf x (by simp [hx]))]

theorem filter_ne_eraseIdx {l : List Nat} (hn : l.Nodup) {i : Nat} (hi : i < l.length) :
    l.filter (· ≠ l[i]) = l.take i ++ l.drop (i + 1) := by
  have e : l = l.take i ++ l[i] :: l.drop (i + 1) := by simp
  have hn' := hn
  rw [e, List.nodup_append] at hn'
  obtain ⟨n1, n2, n3⟩ := hn'
  rw [List.nodup_cons] at n2
  generalize hx : l[i] = x at *
  conv => lhs; rw [e]
  rw [List.filter_append, List.filter_cons]
  rw [List.filter_eq_self.2 (fun y hy => by simpa using n3 y hy x (by simp)),
    List.filter_eq_self.2 (fun y hy => by
      have : y ≠ x := fun e => n2.1 (e ▸ hy)
      simpa using this)]
  simp

theorem shown_congr {h h' : Heap} (s : Heap.SameCells h h') (t : Nat) (l : List Nat) (hl : h'.lst t = l) :
    shown h' t = l.map fun a => ((h.cell a).ref, (h.cell a).id) := by
  unfold shown
  rw [hl]
  exact List.map_congr_left fun a _ => by rw [s.ref, s.id]

/-- `pop` on an up-to-date view, compared with `pop` on a plain list. -/
theorem pop_shown {h : Heap} {ρ : Nat} {V : Nat → Prop} (g : Heap.Good h ρ V) {t : Nat} (ht : V t) (id : Nat)
    (n : Int) :
    (∀ e, plainPop (shown h t) id n = .error e → h.pop t id n = (h, .error e)) ∧
    (∀ ev l', plainPop (shown h t) id n = .ok (ev, l') →
      ∃ h' ie, h.pop t id n = (h', .ok ev.1) ∧ ie ∈ h.lst t ∧ ev = ((h.cell ie).ref, (h.cell ie).id) ∧
        ev.2 = id ∧ shown h' t = l' ∧ Heap.SameCells h h' ∧ Heap.SameShape h h' ∧
        (∀ u, h'.lst u = if u ∈ t :: h.ancestors t then (h.lst u).filter (· ≠ ie) else h.lst u) ∧
        Heap.Good h' ρ (fun u => V u ∧ ∀ w ∈ u :: h.ancestors u, w ∈ t :: h.ancestors t ∨ ie ∉ h.lst w)) := by
  have hpl := places_map h t id
  have hall : ∀ i ∈ places (shown h t) id, ((h.lst t)[i]?).isSome := by
    intro i hi
    have := (List.mem_filter.1 hi).1
    rw [List.mem_range, shown_length] at this
    simp [this]
  have hidx : pyIndex ((h.lst t).filter fun a => (h.cell a).id == id) n =
      ((position (places (shown h t) id).length n).bind fun k => (places (shown h t) id)[k]?).bind
        fun i => (h.lst t)[i]? := by
    rw [hpl, pyIndex_position, filterMap_length _ _ hall]
    cases position (places (shown h t) id).length n with
    | none => rfl
    | some k => simp only [Option.bind_some, filterMap_getElem? _ _ hall]
  have hany : (h.lst t).any (fun a => (h.cell a).id == id) = true ↔ places (shown h t) id ≠ [] := by
    rw [List.any_eq_true, ← List.length_pos_iff, ← filterMap_length _ _ hall, ← hpl, List.length_pos_iff]
    constructor
    · rintro ⟨a, h1, h2⟩ he
      have : a ∈ (h.lst t).filter (fun a => (h.cell a).id == id) := List.mem_filter.2 ⟨h1, h2⟩
      rw [he] at this; cases this
    · intro hne
      obtain ⟨a, ha⟩ := List.exists_mem_of_ne_nil _ hne
      exact ⟨a, (List.mem_filter.1 ha).1, (List.mem_filter.1 ha).2⟩
  by_cases hp : places (shown h t) id = []
  · unfold plainPop
    rw [if_pos hp]
    refine ⟨fun e he => ?_, fun ev l' he => by cases he⟩
    cases he
    unfold Heap.pop
    rw [if_neg (fun e => hany.1 e hp)]
  · have hyes := hany.2 hp
    unfold plainPop
    rw [if_neg hp]
    cases hpos : position (places (shown h t) id).length n with
    | none =>
      dsimp only
      refine ⟨fun e he => ?_, fun ev l' he => by cases he⟩
      cases he
      unfold Heap.pop
      rw [if_pos hyes, hidx, hpos]
      rfl
    | some k =>
      dsimp only
      have hk : k < (places (shown h t) id).length := by
        unfold position at hpos
        split at hpos
        · cases hpos; omega
        · split at hpos
          · cases hpos; omega
          · cases hpos
      rw [List.getElem?_eq_getElem hk]
      dsimp only
      generalize hi : (places (shown h t) id)[k] = i
      have hmem : i ∈ places (shown h t) id := by rw [← hi]; exact List.getElem_mem hk
      have hil : i < (h.lst t).length := by
        have := (List.mem_filter.1 hmem).1
        rwa [List.mem_range, shown_length] at this
      have hgs : (shown h t)[i]? = some ((h.cell (h.lst t)[i]).ref, (h.cell (h.lst t)[i]).id) := by
        simp [shown, hil]
      rw [hgs]
      dsimp only
      refine ⟨(fun e he => by cases he), fun ev l' he => ?_⟩
      injection he with he
      injection he with h1 h2
      subst h1 h2
      have hie : pyIndex ((h.lst t).filter fun a => (h.cell a).id == id) n = some (h.lst t)[i] := by
        rw [hidx, hpos]
        simp [List.getElem?_eq_getElem hk, hi, hil]
      obtain ⟨h', e1, e2, e3, e4, e5, e6, e7⟩ := Heap.pop_good g ht id n hie
      refine ⟨h', (h.lst t)[i], e1, e2, rfl, e3, ?_, e4, e5, e6, e7⟩
      have hl : h'.lst t = (h.lst t).take i ++ (h.lst t).drop (i + 1) := by
        rw [e6, if_pos (by simp), filter_ne_eraseIdx (g.sorted ht).nodup hil]
      rw [shown_congr e4 t _ hl]
      simp [shown, List.map_take, List.map_drop]

/-- Removing one of several distinct events. -/
theorem shown_filter {h h' : Heap} {u ie : Nat} (s : Heap.SameCells h h')
    (hn : ((shown h u).map Prod.fst).Nodup) (hl : h'.lst u = (h.lst u).filter (· ≠ ie)) (hm : ie ∈ h.lst u) :
    shown h' u = (shown h u).filter fun e => e.1 ≠ (h.cell ie).ref := by
  rw [shown_congr s u _ hl]
  unfold shown
  rw [List.filter_map]
  congr 1
  apply List.filter_congr
  intro a ha
  have hinj : (h.cell a).ref = (h.cell ie).ref → a = ie := by
    intro e
    have hn' : ((h.lst u).map fun a => (h.cell a).ref).Nodup := by
      simpa [shown, Function.comp_def] using hn
    rw [List.Nodup, List.pairwise_map] at hn'
    obtain ⟨i, hi, rfl⟩ := List.getElem_of_mem ha
    obtain ⟨j, hj, rfl⟩ := List.getElem_of_mem hm
    rw [List.pairwise_iff_getElem] at hn'
    rcases Nat.lt_trichotomy i j with hij | hij | hij
    · exact absurd e (hn' i j hi hj hij)
    · subst hij; rfl
    · exact absurd e.symm (hn' j i hj hi hij)
  simp only [Function.comp]
  by_cases e : a = ie
  · subst e; simp
  · have : (h.cell a).ref ≠ (h.cell ie).ref := fun e' => e (hinj e')
    simp [e, this]

/-! ### View creation as seen by users -/

/-- The lists of the views, before sorting. -/
def ViewCall.lists (h : Heap) (t : Nat) : ViewCall → List (List Nat)
  | .subtree select => [(h.lst t).filter select]
  | .separate id => ((h.lst t).filter fun a => h.idOf a = id).map fun a => [a]
  | .divide sep ids => divideLoop h.idOf sep ids (h.lst t) [] true
  | .subtrees _ select s rep => subtreesLoop (runSelect select s (h.lst t)) [] rep
  | .group ids _ => groupLists h.idOf (h.lst t) ids

theorem view_eq (h : Heap) (t : Nat) (call : ViewCall) :
    view h t call = h.yieldViews t (ViewCall.lists h t call) := by
  cases call <;> rfl

theorem view_sublist {h : Heap} {t : Nat} (s : h.Sorted (h.lst t)) (call : ViewCall) :
    ∀ el ∈ ViewCall.lists h t call, (h.sortCells el).Sublist (h.lst t) := by
  intro el hel
  have key : el.Sublist (h.lst t) → (h.sortCells el).Sublist (h.lst t) := fun hs => by
    rw [Heap.sortCells_sorted (s.sub hs)]; exact hs
  cases call with
  | subtree select =>
    rw [ViewCall.lists, List.mem_singleton] at hel
    subst hel
    exact key List.filter_sublist
  | separate id =>
    obtain ⟨a, ha, rfl⟩ := List.mem_map.1 hel
    exact key (List.singleton_sublist.2 (List.mem_filter.1 ha).1)
  | divide sep ids => exact key (divideLoop_sublist hel)
  | subtrees σ select st rep =>
    have := subtreesLoop_sublist hel
    rw [runSelect_fst] at this
    exact key this
  | group ids hd =>
    obtain ⟨k, rfl⟩ := groupLists_mem hel
    obtain ⟨m1, m2⟩ := group_members (idOf := h.idOf) (l := h.lst t) hd k
    rw [Heap.sortCells_select s m1 m2]
    exact List.filter_sublist

theorem shown_of {h h' : Heap} {t u : Nat} (hc : h'.cells = h.cells) (hl : h'.lst u = h.lst t) :
    shown h' u = shown h t := by
  unfold shown
  rw [hl]
  exact List.map_congr_left fun a _ => by unfold Heap.cell; rw [hc]

/-- The place in the project of an event inserted through a view. -/
theorem insert_place {h h' : Heap} {L : Nat → Prop} (g : Heap.Good h 0 L) {t : Nat} (ht : L t) {pos : Int} {ref id : Nat}
    (hi : h.insert t pos ref id = (h', .ok ())) : ∃ k : Nat, k ≤ (h.lst 0).length ∧
      (if (h.lst t).isEmpty then some 0 else (pyIndex (h.lst t) pos).map h.r) = some (k : Int) := by
  unfold Heap.insert at hi
  rw [Heap.sortedIndexes_sorted (g.sorted ht), Heap.pyIndex_map] at hi
  by_cases he : (h.lst t).isEmpty = true
  · exact ⟨0, by omega, by rw [if_pos he]; rfl⟩
  · rw [if_neg he] at hi ⊢
    cases hx : pyIndex (h.lst t) pos with
    | none => rw [hx] at hi; simp at hi
    | some a =>
      obtain ⟨k, k1, k2⟩ := List.getElem_of_mem ((g.sub t ht).mem (Heap.pyIndex_mem hx))
      exact ⟨k, Nat.le_of_lt k1, by rw [Option.map_some, ← k2, g.idx k k1]⟩

/-- Reachable trees form a good hierarchy, and the project holds every event once. -/
theorem reach_good {h : Heap} {L : Nat → Prop} (r : Reach h L) :
    Heap.Good h 0 L ∧ ((shown h 0).map Prod.fst).Nodup := by
  induction r with
  | parsed evs distinct =>
    obtain ⟨h1, h2, h3⟩ := Heap.ofEvents_good evs
    refine ⟨h3, ?_⟩
    have hl : (Heap.ofEvents evs).lst 0 = List.range evs.length := by
      unfold Heap.lst Heap.tree; rw [h2]; rfl
    have : (shown (Heap.ofEvents evs) 0).map Prod.fst = evs.map Prod.fst := by
      unfold shown
      rw [hl, List.map_map]
      apply List.ext_getElem
      · simp
      · intro i i1 i2
        have hi : i < evs.length := by simpa using i2
        simp [Heap.cell, h1, List.getD_eq_getElem?_getD, hi]
    rw [this]; exact distinct
  | @view h L t r ht hne call ih =>
    obtain ⟨g, hn⟩ := ih
    have hne' : h.lst 0 ≠ [] := fun e => hne (by unfold shown; rw [e]; rfl)
    have y := Heap.yieldViews_good (ViewCall.lists h t call) g ht hne' (view_sublist (g.sorted ht) call)
    rw [view_eq]
    obtain ⟨y1, y2, y3, y4, y5, y6⟩ := y
    have h0 := g.lt 0 g.vρ
    constructor
    · refine y6.mono (.inl g.vρ) ?_ ?_
      · rintro u (hu | hu)
        · exact .inl hu
        · rw [y1] at hu
          obtain ⟨i, hi, rfl⟩ := List.mem_map.1 hu
          exact .inr ⟨i, List.mem_range.1 hi, rfl⟩
      · rintro u p (hu | hu) hp
        · rw [(y5 u (g.lt u hu)).2] at hp
          by_cases e : u = 0
          · subst e; rw [g.parρ] at hp; cases hp
          · obtain ⟨q, q1, _, q3, _⟩ := g.up u hu e
            rw [q1] at hp; cases hp; exact .inl q3
        · rw [y1] at hu
          obtain ⟨i, hi, rfl⟩ := List.mem_map.1 hu
          rw [(y4 i (List.mem_range.1 hi)).2] at hp
          cases hp
          exact .inl ht
    · rw [shown_of y2 (y5 0 h0).1]; exact hn
  | @pop h L t id n h' x r ht hp ih =>
    obtain ⟨g, hn⟩ := ih
    obtain ⟨p1, p2⟩ := pop_shown g ht id n
    cases hpp : plainPop (shown h t) id n with
    | error e => rw [p1 e hpp] at hp; cases hp
    | ok res =>
      obtain ⟨ev, l'⟩ := res
      obtain ⟨h'', ie, e1, e2, e3, e4, e5, e6, e7, e8, e9⟩ := p2 ev l' hpp
      rw [hp] at e1
      injection e1 with e1 e1'
      subst e1
      injection e1' with e1'
      obtain ⟨c1, c2, c3⟩ := g.chain_facts t ht
      have hsub : ((shown h' 0).map Prod.fst).Sublist ((shown h 0).map Prod.fst) := by
        rw [shown_congr e6 0 _ (e8 0), if_pos c1]
        unfold shown
        exact (List.filter_sublist.map _).map _
      refine ⟨?_, hn.sublist hsub⟩
      refine e9.mono ?_ ?_ ?_
      · refine ⟨g.vρ, fun w hw => ?_⟩
        rw [Heap.ancestors_none g.parρ] at hw
        simp at hw; subst hw; exact .inl c1
      · rintro u ⟨hu, hw⟩
        refine ⟨hu, fun w hwm => (hw w hwm).imp_right fun hx hm => hx ?_⟩
        rw [e1', e3]
        exact List.mem_map.2 ⟨_, List.mem_map.2 ⟨ie, hm, rfl⟩, rfl⟩
      · rintro u p ⟨hu, hw⟩ hpar
        rw [e7.parent] at hpar
        by_cases e : u = 0
        · subst e; rw [g.parρ] at hpar; cases hpar
        · obtain ⟨q, q1, q2, q3, _⟩ := g.up u hu e
          rw [q1] at hpar; cases hpar
          refine ⟨q3, fun w hwm => hw w ?_⟩
          rw [Heap.ancestors_some g q3 q1 q2]
          exact List.mem_cons_of_mem _ hwm
  | @insert h L t pos ref id h' r ht new hi ih =>
    obtain ⟨g, hn⟩ := ih
    obtain ⟨k, hkl, hx⟩ := insert_place g ht hi
    obtain ⟨h'', n, e1, e2, e3, e4, e5, e6, e7, e8⟩ := Heap.insert_any_good g ht pos ref id hkl hx
    rw [hi] at e1
    injection e1 with e1 _
    subst e1
    refine ⟨e8, ?_⟩
    have hsh : (shown h' 0).map Prod.fst =
        ((shown h 0).map Prod.fst).take k ++ ref :: ((shown h 0).map Prod.fst).drop k := by
      unfold shown
      rw [e7]
      simp only [List.map_append, List.map_cons, List.map_map, List.map_take, List.map_drop, e4]
      have hc : ∀ a ∈ h.lst 0, (h'.cell a).ref = (h.cell a).ref := fun a ha => (e5 a (g.inCells a ha)).1
      have : (h.lst 0).map (Prod.fst ∘ fun a => ((h'.cell a).ref, (h'.cell a).id)) =
          (h.lst 0).map (Prod.fst ∘ fun a => ((h.cell a).ref, (h.cell a).id)) :=
        List.map_congr_left fun a ha => hc a ha
      rw [this]
    rw [hsh]
    generalize (shown h 0).map Prod.fst = l at hn new
    have hl : l = l.take k ++ l.drop k := (List.take_append_drop k l).symm
    rw [List.nodup_append, List.nodup_cons]
    rw [hl, List.nodup_append] at hn
    obtain ⟨n1, n2, n3⟩ := hn
    refine ⟨n1, ⟨fun hm => new (List.mem_of_mem_drop hm), n2⟩, ?_⟩
    intro a ha b hb
    rcases List.mem_cons.1 hb with rfl | hb
    · exact fun e => new (e ▸ List.mem_of_mem_take ha)
    · exact n3 a ha b hb

end PyFLP
