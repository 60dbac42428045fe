import Verif.Loose
import Verif.Props.Trees
/-!
# Any sequence of insertions and removals through views (C21, C24, C25)
-/

namespace PyFLP

open Spec Heap

namespace Spec

/-- The events of a tree, without their ids. -/
def evNames (h : Heap) (t : Nat) : List Nat := (shown h t).map Prod.fst

/-- `k` is the position in the project of the event that a view has at `pos` (the start of the project if the view is empty). -/
def TargetAt (h : Heap) (t : Nat) (pos : Int) (k : Nat) : Prop :=
  (shown h t = [] ∧ k = 0) ∨
    ∃ i f, position (shown h t).length pos = some i ∧ (shown h t)[i]? = some f ∧ (shown h 0)[k]? = some f

/-- The trees of a program that parses a project, creates views of views, and inserts and removes events through them, also
again and again through the same view.  `live` says which views are up to date, `own u y` that the event `y` came to the view
`u` by an insertion through it or a view below it (or that `u` is a view of such a view).

Two things make views out of date: the removal of one of its events through a view that is not below it, and an insertion or
removal anywhere in the project before an own event of the view; and so are all views below such a view. -/
inductive History : Heap → (live : Nat → Prop) → (own : Nat → Nat → Prop) → Prop
  | parsed (evs : List Ev) (distinct : (evs.map Prod.fst).Nodup) :
      History (Heap.ofEvents evs) (· = 0) (fun _ _ => False)
  | view {h live own t} (r : History h live own) (ht : live t) (hne : shown h 0 ≠ []) (call : ViewCall) :
      History (view h t call).1 (fun u => live u ∨ u ∈ (view h t call).2)
        (fun u y => if u ∈ (view h t call).2 then own t y else own u y)
  | pop {h live own t id n h' x} (r : History h live own) (ht : live t) (hp : h.pop t id n = (h', .ok x)) :
      History h' (fun u => live u ∧ ∀ w ∈ u :: h.ancestors u,
        (w ∈ t :: h.ancestors t ∨ x ∉ evNames h w) ∧
          ∀ y ∈ evNames h w, own w y → ∃ i j : Nat, i ≤ j ∧ (evNames h 0)[i]? = some y ∧ (evNames h 0)[j]? = some x) own
  | insert {h live own t pos ref id h' k} (r : History h live own) (ht : live t) (new : ref ∉ evNames h 0)
      (hi : h.insert t pos ref id = (h', .ok ())) (place : TargetAt h t pos k) :
      History h' (fun u => live u ∧ ∀ w ∈ u :: h.ancestors u,
        ∀ y ∈ evNames h w, own w y → ∃ i : Nat, i < k ∧ (evNames h 0)[i]? = some y)
        (fun u y => own u y ∨ (u ∈ t :: h.ancestors t ∧ u ≠ 0 ∧ y = ref))

/-- Inserts events one after the other at the positions `k`, `k + 1`, … of a tree; the first exception ends it. -/
def insertRun (h : Heap) (t k : Nat) : List Ev → Heap × Py Unit
  | [] => (h, .ok ())
  | e :: es =>
    match h.insert t k e.1 e.2 with
    | (h', .ok ()) => insertRun h' t (k + 1) es
    | (h', .error x) => (h', .error x)

end Spec

theorem names_eq (h : Heap) (t : Nat) : evNames h t = (h.lst t).map fun a => (h.cell a).ref := by
  simp [evNames, shown, Function.comp_def]

/-- Strictly sorted lists hold a position once. -/
theorem sorted_inj {h : Heap} {l : List Nat} (s : h.Sorted l) {b c : Nat} (hb : b ∈ l) (hc : c ∈ l) (e : h.r c = h.r b) :
    c = b := by
  obtain ⟨i, hi, rfl⟩ := List.getElem_of_mem hc
  obtain ⟨j, hj, rfl⟩ := List.getElem_of_mem hb
  have s' := List.pairwise_iff_getElem.1 s
  rcases Nat.lt_trichotomy i j with hij | hij | hij
  · have := s' i j hi hj hij; omega
  · subst hij; rfl
  · have := s' j i hj hi hij; omega

/-- The project holds every event once, and so does every view. -/
theorem names_nodup {h : Heap} {V : Nat → Prop} (g : Fair h V) (hn : (evNames h 0).Nodup) {u : Nat} (hu : V u) :
    (evNames h u).Nodup := by
  rw [names_eq, List.Nodup, List.pairwise_map]
  refine List.Pairwise.imp_of_mem ?_ (g.sorted u hu)
  intro a b ha hb hab e
  obtain ⟨i, x, x1, x2, x3⟩ := g.place hu ha
  obtain ⟨j, y, y1, y2, y3⟩ := g.place hu hb
  have hij : i ≠ j := by omega
  rw [names_eq] at hn
  obtain ⟨hi, hx⟩ := List.getElem?_eq_some_iff.1 x1
  obtain ⟨hj, hy⟩ := List.getElem?_eq_some_iff.1 y1
  have hl : ∀ m (hm : m < (h.lst 0).length), ((h.lst 0).map fun a => (h.cell a).ref)[m]'(by simpa using hm) = (h.cell (h.lst 0)[m]).ref :=
    fun m hm => by simp
  have h1 := hl i hi
  have h2 := hl j hj
  rw [hx, x3] at h1
  rw [hy, y3, ← e] at h2
  exact hij ((List.getElem_inj hn).1 (h1.trans h2.symm))

/-- The position record of an event of a view says where the event is in the project. -/
theorem record_iff {h : Heap} {V : Nat → Prop} (g : Fair h V) (hn : (evNames h 0).Nodup) {u : Nat} (hu : V u) {a : Nat}
    (ha : a ∈ h.lst u) (i : Nat) : (evNames h 0)[i]? = some (h.cell a).ref ↔ h.r a = i := by
  obtain ⟨j, x, x1, x2, x3⟩ := g.place hu ha
  have hj : (evNames h 0)[j]? = some (h.cell a).ref := by rw [names_eq, List.getElem?_map, x1, Option.map_some, x3]
  constructor
  · intro hi
    obtain ⟨i1, i2⟩ := List.getElem?_eq_some_iff.1 hi
    obtain ⟨j1, j2⟩ := List.getElem?_eq_some_iff.1 hj
    have := (List.getElem_inj hn).1 (i2.trans j2.symm)
    omega
  · intro e
    have : i = j := by omega
    rw [this]; exact hj

/-- Where an insertion goes, as the code finds it. -/
theorem target_place {h : Heap} {V : Nat → Prop} (g : Fair h V) (hn : (evNames h 0).Nodup) {t : Nat} (ht : V t) {pos : Int}
    {k : Nat} (ht' : TargetAt h t pos k) : k ≤ (h.lst 0).length ∧
      (if (h.lst t).isEmpty then some 0 else (pyIndex (h.lst t) pos).map h.r) = some (k : Int) := by
  rcases ht' with ⟨he, rfl⟩ | ⟨i, f, h1, h2, h3⟩
  · rw [isEmpty_shown] at he
    exact ⟨Nat.zero_le _, by rw [he]; rfl⟩
  · have hi : i < (h.lst t).length := by rw [← shown_length]; exact (position_lt h1).1
    have hne : (h.lst t).isEmpty = false := by
      cases hl : h.lst t with
      | nil => rw [hl] at hi; cases hi
      | cons => rfl
    have hk : k < (h.lst 0).length := by
      rw [← shown_length]; exact (List.getElem?_eq_some_iff.1 h3).1
    refine ⟨Nat.le_of_lt hk, ?_⟩
    rw [shown_length] at h1
    rw [hne, pyIndex_position, h1]
    have : (h.lst t)[i]? = some (h.lst t)[i] := List.getElem?_eq_getElem hi
    simp only [Option.bind_some, this, Option.map_some, Bool.false_eq_true, if_false]
    have hf : f.1 = (h.cell (h.lst t)[i]).ref := by
      rw [shown, List.getElem?_map, this] at h2
      simp only [Option.map_some, Option.some.injEq] at h2
      rw [← h2]
    have hk' : (evNames h 0)[k]? = some (h.cell (h.lst t)[i]).ref := by
      rw [evNames, List.getElem?_map, h3, Option.map_some, hf]
    rw [(record_iff g hn ht (List.getElem_mem hi) k).1 hk']

/-- Removal by position and by event. -/
theorem filter_r_ne {h : Heap} {l : List Nat} (s : h.Sorted l) {b : Nat} (hb : b ∈ l) {x : Int} (e : h.r b = x) :
    l.filter (fun c => decide (h.r c ≠ x)) = l.filter (· ≠ b) := by
  subst e
  apply List.filter_congr
  intro c hc
  apply decide_eq_decide.2
  constructor
  · intro h1 h2; subst h2; exact h1 rfl
  · intro h1 h2; exact h1 (sorted_inj s hb hc h2)

/-- `pop` of the plain list and the position record that the code removes. -/
theorem plainPop_record (h : Heap) (t id : Nat) (n : Int) :
    (∀ e, plainPop (shown h t) id n = .error e → h.pop t id n = (h, .error e)) ∧
    (∀ ev l', plainPop (shown h t) id n = .ok (ev, l') → ∃ (i : Nat) (hi : i < (h.lst t).length),
      pyIndex ((h.lst t).filter fun a => (h.cell a).id == id) n = some (h.lst t)[i] ∧
      ev = ((h.cell (h.lst t)[i]).ref, (h.cell (h.lst t)[i]).id) ∧ l' = (shown h t).take i ++ (shown h t).drop (i + 1)) := by
  have hpl := places_map h t id
  have hall : ∀ i ∈ places (shown h t) id, ((h.lst t)[i]?).isSome := by
    intro i hi
    have := (List.mem_filter.1 hi).1
    rw [List.mem_range, shown_length] at this
    simp [this]
  have hidx : pyIndex ((h.lst t).filter fun a => (h.cell a).id == id) n =
      ((position (places (shown h t) id).length n).bind fun k => (places (shown h t) id)[k]?).bind
        fun i => (h.lst t)[i]? := by
    rw [hpl, pyIndex_position, filterMap_length _ _ hall]
    cases position (places (shown h t) id).length n with
    | none => rfl
    | some k => simp only [Option.bind_some, filterMap_getElem? _ _ hall]
  have hany : (h.lst t).any (fun a => (h.cell a).id == id) = true ↔ places (shown h t) id ≠ [] := by
    rw [List.any_eq_true, ← List.length_pos_iff, ← filterMap_length _ _ hall, ← hpl, List.length_pos_iff]
    constructor
    · rintro ⟨a, h1, h2⟩ he
      have : a ∈ (h.lst t).filter (fun a => (h.cell a).id == id) := List.mem_filter.2 ⟨h1, h2⟩
      rw [he] at this; cases this
    · intro hne
      obtain ⟨a, ha⟩ := List.exists_mem_of_ne_nil _ hne
      exact ⟨a, (List.mem_filter.1 ha).1, (List.mem_filter.1 ha).2⟩
  by_cases hp : places (shown h t) id = []
  · unfold plainPop
    rw [if_pos hp]
    refine ⟨fun e he => ?_, fun ev l' he => by cases he⟩
    cases he
    unfold Heap.pop
    rw [if_neg (fun e => hany.1 e hp)]
  · have hyes := hany.2 hp
    unfold plainPop
    rw [if_neg hp]
    cases hpos : position (places (shown h t) id).length n with
    | none =>
      dsimp only
      refine ⟨fun e he => ?_, fun ev l' he => by cases he⟩
      cases he
      unfold Heap.pop
      rw [if_pos hyes, hidx, hpos]
      rfl
    | some k =>
      dsimp only
      have hk := (position_lt hpos).1
      rw [List.getElem?_eq_getElem hk]
      dsimp only
      generalize hi : (places (shown h t) id)[k] = i
      have hmem : i ∈ places (shown h t) id := by rw [← hi]; exact List.getElem_mem hk
      have hil : i < (h.lst t).length := by
        have := (List.mem_filter.1 hmem).1
        rwa [List.mem_range, shown_length] at this
      have hgs : (shown h t)[i]? = some ((h.cell (h.lst t)[i]).ref, (h.cell (h.lst t)[i]).id) := by
        simp [shown, hil]
      rw [hgs]
      dsimp only
      refine ⟨(fun e he => by cases he), fun ev l' he => ?_⟩
      injection he with he
      injection he with h1 h2
      subst h1 h2
      refine ⟨i, hil, ?_, rfl, rfl⟩
      rw [hidx, hpos]
      simp [List.getElem?_eq_getElem hk, hi, hil]

/-- `pop` on an up-to-date view, whoever inserted its events. -/
theorem pop_shown_fair {h : Heap} {V : Nat → Prop} (g : Fair h V) (hn : (evNames h 0).Nodup) {t : Nat} (ht : V t) (id : Nat)
    (n : Int) {ev : Ev} {l' : List Ev} (hp : plainPop (shown h t) id n = .ok (ev, l')) :
    ∃ h' ie, h.pop t id n = (h', .ok ev.1) ∧ ie ∈ h.lst t ∧ ev = ((h.cell ie).ref, (h.cell ie).id) ∧
      ev.2 = id ∧ shown h' t = l' ∧ SameCells h h' ∧ SameShape h h' ∧
      (∀ u, h'.lst u = if u ∈ t :: h.ancestors t then (h.lst u).filter (fun c => decide (h.r c ≠ h.r ie)) else h.lst u) ∧
      (∀ u ∈ t :: h.ancestors t, ev ∈ shown h u ∧ shown h' u = (shown h u).filter fun x => x.1 ≠ ev.1) ∧
      Fair h' (fun u => V u ∧ ∀ w ∈ u :: h.ancestors u, (w ∈ t :: h.ancestors t ∨ ∀ b ∈ h.lst w, h.r b ≠ h.r ie) ∧
        ∀ a ∈ h.lst w, a ∉ h.lst 0 → h.r a ≤ h.r ie) := by
  obtain ⟨i, hi, p1, p2, p3⟩ := (plainPop_record h t id n).2 ev l' hp
  obtain ⟨h', e1, e2, e3, e4, e5, e6, e7⟩ := pop_fair g ht id n p1
  subst p2
  have hall : ∀ u ∈ t :: h.ancestors t, ∃ b ∈ h.lst u, h.cell b = h.cell (h.lst t)[i] :=
    fun u hu => g.above t ht u hu _ e2
  refine ⟨h', (h.lst t)[i], e1, e2, rfl, e3, ?_, e4, e5, e6, ?_, e7⟩
  · have hl : h'.lst t = (h.lst t).take i ++ (h.lst t).drop (i + 1) := by
      rw [e6, if_pos (by simp), filter_r_ne (g.sorted t ht) e2 rfl, filter_ne_eraseIdx (g.sorted t ht).nodup hi]
    rw [shown_congr e4 t _ hl, p3]
    simp [shown, List.map_take, List.map_drop]
  · intro u hu
    obtain ⟨b, hb, e⟩ := hall u hu
    have hv := ((g.chain ht).2.1 u hu).1
    refine ⟨List.mem_map.2 ⟨b, hb, by rw [e]⟩, ?_⟩
    have := shown_filter e4 (names_nodup g hn hv)
      (by rw [e6, if_pos hu, filter_r_ne (g.sorted u hv) hb (by unfold Heap.r; rw [e])]) hb
    rw [this, e]

/-- What is known about the trees of a history. -/
theorem history_fair {h : Heap} {live : Nat → Prop} {own : Nat → Nat → Prop} (r : History h live own) :
    Fair h live ∧ (evNames h 0).Nodup ∧ (∀ y, ¬ own 0 y) ∧
      ∀ u, live u → ∀ a ∈ h.lst u, (a ∉ h.lst 0 ↔ own u (h.cell a).ref) := by
  induction r with
  | parsed evs distinct =>
    obtain ⟨g, hn⟩ := reach_good (Reach.parsed evs distinct)
    refine ⟨g.fair, hn, fun _ => id, ?_⟩
    rintro u rfl a ha
    simp [ha]
  | @view h live own t r ht hne call ih =>
    obtain ⟨g, hn, h0, hown⟩ := ih
    have hne' : h.lst 0 ≠ [] := fun e => hne (by unfold shown; rw [e]; rfl)
    have hsub := view_sublist (g.sorted t ht) call
    have y := Heap.yieldViews_fair (ViewCall.lists h t call) g ht hne' hsub
    rw [view_eq]
    obtain ⟨y1, y2, y3, y4, y5, y6⟩ := y
    have hlt0 := g.lt 0 g.v0
    have hnv : ∀ u, u < h.trees.length → u ∉ (h.yieldViews t (ViewCall.lists h t call)).2 := by
      intro u hu hm
      rw [y1] at hm
      obtain ⟨i, hi, rfl⟩ := List.mem_map.1 hm
      omega
    have hcell : ∀ a, (h.yieldViews t (ViewCall.lists h t call)).1.cell a = h.cell a := fun a => by
      unfold Heap.cell; rw [y2]
    refine ⟨?_, ?_, ?_, ?_⟩
    · refine y6.mono (.inl g.v0) ?_ ?_
      · rintro u (hu | hu)
        · exact .inl hu
        · rw [y1] at hu
          obtain ⟨i, hi, rfl⟩ := List.mem_map.1 hu
          exact .inr ⟨i, List.mem_range.1 hi, rfl⟩
      · rintro u p (hu | hu) hp
        · rw [(y5 u (g.lt u hu)).2] at hp
          by_cases e : u = 0
          · subst e; rw [g.par0] at hp; cases hp
          · obtain ⟨q, q1, _, q3⟩ := g.up u hu e
            rw [q1] at hp; cases hp; exact .inl q3
        · rw [y1] at hu
          obtain ⟨i, hi, rfl⟩ := List.mem_map.1 hu
          rw [(y4 i (List.mem_range.1 hi)).2] at hp
          cases hp
          exact .inl ht
    · have : evNames (h.yieldViews t (ViewCall.lists h t call)).1 0 = evNames h 0 := by
        unfold evNames; rw [shown_of y2 (y5 0 hlt0).1]
      rw [this]; exact hn
    · intro y
      dsimp only
      rw [if_neg (hnv 0 hlt0)]
      exact h0 y
    · intro u hu a ha
      rw [(y5 0 hlt0).1, hcell]
      dsimp only
      by_cases hm : u ∈ (h.yieldViews t (ViewCall.lists h t call)).2
      · rw [if_pos hm]
        rw [y1] at hm
        obtain ⟨i, hi, rfl⟩ := List.mem_map.1 hm
        have hi' := List.mem_range.1 hi
        rw [(y4 i hi').1] at ha
        exact hown t ht a ((hsub _ (List.getElem_mem hi')).mem ha)
      · have hl := hu.resolve_right hm
        rw [if_neg hm]
        rw [(y5 u (g.lt u hl)).1] at ha
        exact hown u hl a ha
  | @pop h live own t id n h' x r ht hp ih =>
    obtain ⟨g, hn, h0, hown⟩ := ih
    cases hpp : plainPop (shown h t) id n with
    | error e => rw [(plainPop_record h t id n).1 e hpp] at hp; cases hp
    | ok res =>
      obtain ⟨ev, l'⟩ := res
      obtain ⟨h1, ie, e1, e2, e3, e4, e5, e6, e7, e8, e9, e10⟩ := pop_shown_fair g hn ht id n hpp
      rw [e1] at hp
      obtain ⟨rfl, hx⟩ := Prod.mk.inj hp
      injection hx with hx
      have hxr : x = (h.cell ie).ref := by rw [← hx, e3]
      obtain ⟨c1, c2, c3⟩ := g.chain ht
      have hsub : ∀ u, (live u ∧ ∀ w ∈ u :: h.ancestors u, (w ∈ t :: h.ancestors t ∨ x ∉ evNames h w) ∧
            ∀ y ∈ evNames h w, own w y → ∃ i j : Nat, i ≤ j ∧ (evNames h 0)[i]? = some y ∧ (evNames h 0)[j]? = some x) →
          live u ∧ ∀ w ∈ u :: h.ancestors u, (w ∈ t :: h.ancestors t ∨ ∀ b ∈ h.lst w, h.r b ≠ h.r ie) ∧
            ∀ a ∈ h.lst w, a ∉ h.lst 0 → h.r a ≤ h.r ie := by
        rintro u ⟨hu, hw⟩
        refine ⟨hu, fun w hm => ⟨?_, ?_⟩⟩
        · rcases (hw w hm).1 with hc | hc
          · exact .inl hc
          · refine .inr fun b hb e => hc ?_
            have hv := ((g.chain hu).2.1 w hm).1
            obtain ⟨i, z, z1, z2, z3⟩ := g.place hv hb
            have k1 := (record_iff g hn ht e2 i).2 (by omega)
            have k2 := (record_iff g hn hv hb i).2 z2
            rw [k1] at k2
            injection k2 with k2
            rw [names_eq, hxr, k2]
            exact List.mem_map.2 ⟨b, hb, rfl⟩
        · intro a ha hna
          have hv := ((g.chain hu).2.1 w hm).1
          obtain ⟨i, j, hij, i1, j1⟩ := (hw w hm).2 (h.cell a).ref (by rw [names_eq]; exact List.mem_map.2 ⟨a, ha, rfl⟩)
            ((hown w hv a ha).1 hna)
          rw [hxr] at j1
          have := (record_iff g hn hv ha i).1 i1
          have := (record_iff g hn ht e2 j).1 j1
          omega
      refine ⟨?_, ?_, h0, ?_⟩
      · refine e10.mono ⟨g.v0, fun w hw => ?_⟩ hsub ?_
        · rw [g.anc0, List.mem_singleton] at hw
          subst hw
          exact ⟨.inl c1, fun y _ hy => absurd hy (h0 y)⟩
        · rintro u p ⟨hu, hw⟩ hpar
          rw [e7.parent] at hpar
          have hne : u ≠ 0 := fun e => by rw [e, g.par0] at hpar; cases hpar
          obtain ⟨q, q1, q2, q3⟩ := g.up u hu hne
          rw [q1] at hpar; cases hpar
          exact ⟨q3, fun w hm => hw w (by rw [g.anc_some q3 q1 q2]; exact List.mem_cons_of_mem _ hm)⟩
      · unfold evNames
        rw [(e9 0 c1).2]
        exact hn.sublist (List.filter_sublist.map _)
      · intro u hu a ha
        have hw := hsub u hu
        have hau : a ∈ h.lst u ∧ h.r a ≠ h.r ie := by
          rw [e8] at ha
          by_cases hm : u ∈ t :: h.ancestors t
          · rw [if_pos hm, List.mem_filter] at ha
            exact ⟨ha.1, by simpa using ha.2⟩
          · rw [if_neg hm] at ha
            exact ⟨ha, ((hw.2 u (by simp)).1.resolve_left hm) a ha⟩
        rw [e6.ref, ← hown u hu.1 a hau.1, e8, if_pos c1, List.mem_filter]
        simp [hau.2]
  | @insert h live own t pos ref id h' k r ht new hi place ih =>
    obtain ⟨g, hn, h0, hown⟩ := ih
    obtain ⟨hk, hx⟩ := target_place g hn ht place
    obtain ⟨h1, nw, e1, e2, e3, e4, e5, e6, e7, e8⟩ := insert_fair g ht pos ref id hk hx
    rw [e1] at hi
    obtain ⟨rfl, -⟩ := Prod.mk.inj hi
    obtain ⟨c1, c2, c3⟩ := g.chain ht
    have hsub : ∀ u, (live u ∧ ∀ w ∈ u :: h.ancestors u, ∀ y ∈ evNames h w, own w y → ∃ i : Nat, i < k ∧ (evNames h 0)[i]? = some y) →
        live u ∧ ∀ w ∈ u :: h.ancestors u, ∀ a ∈ h.lst w, a ∉ h.lst 0 → h.r a < k := by
      rintro u ⟨hu, hw⟩
      refine ⟨hu, fun w hm a ha hna => ?_⟩
      have hv := ((g.chain hu).2.1 w hm).1
      obtain ⟨i, hik, i1⟩ := hw w hm (h.cell a).ref (by rw [names_eq]; exact List.mem_map.2 ⟨a, ha, rfl⟩) ((hown w hv a ha).1 hna)
      have := (record_iff g hn hv ha i).1 i1
      omega
    have hmem : ∀ u ∈ t :: h.ancestors t, ∀ a, a ∈ h1.lst u → a ∈ h.lst u ∨ a = nw u := by
      intro u hu a ha
      rw [(e7 u hu).2.2, List.mem_append, List.mem_cons] at ha
      rcases ha with ha | ha | ha
      · exact .inl (List.mem_filter.1 ha).1
      · exact .inr ha
      · exact .inl (List.mem_filter.1 ha).1
    have hkeep : ∀ u ∈ t :: h.ancestors t, ∀ a ∈ h.lst u, a ∈ h1.lst u := by
      intro u hu a ha
      rw [(e7 u hu).2.2, List.mem_append, List.mem_cons, List.mem_filter, List.mem_filter]
      by_cases hc : (h.r a < k ∨ h.r a = k ∧ a ∉ h.lst 0)
      · exact .inl ⟨ha, by simpa using hc⟩
      · exact .inr (.inr ⟨ha, by rw [decide_eq_false hc]; rfl⟩)
    have hroot : ∀ a < h.cells.length, a ∈ h1.lst 0 ↔ a ∈ h.lst 0 := by
      intro a ha
      refine ⟨fun hm => (hmem 0 c1 a hm).resolve_right fun e => ?_, hkeep 0 c1 a⟩
      have := (e7 0 c1).1
      omega
    refine ⟨?_, ?_, ?_, ?_⟩
    · refine e8.mono ⟨g.v0, fun w hw => ?_⟩ hsub ?_
      · rw [g.anc0, List.mem_singleton] at hw
        subst hw
        exact fun y _ hy => absurd hy (h0 y)
      · rintro u p ⟨hu, hw⟩ hpar
        rw [e2.parent] at hpar
        have hne : u ≠ 0 := fun e => by rw [e, g.par0] at hpar; cases hpar
        obtain ⟨q, q1, q2, q3⟩ := g.up u hu hne
        rw [q1] at hpar; cases hpar
        exact ⟨q3, fun w hm => hw w (by rw [g.anc_some q3 q1 q2]; exact List.mem_cons_of_mem _ hm)⟩
    · obtain ⟨f1, f2⟩ := filter_split g.idx hk
      have hz : ∀ b ∈ h.lst 0, decide (h.r b < k ∨ (h.r b = k ∧ b ∉ h.lst 0)) = decide (h.r b < k) := by
        intro b hb
        exact decide_eq_decide.2 ⟨fun hc => hc.resolve_right fun e => e.2 hb, .inl⟩
      have hl : h1.lst 0 = (h.lst 0).take k ++ nw 0 :: (h.lst 0).drop k := by
        rw [(e7 0 c1).2.2, List.filter_congr hz, List.filter_congr (p := fun b => !decide (h.r b < k ∨ (h.r b = k ∧ b ∉ h.lst 0)))
          (fun b hb => by rw [hz b hb]), f1, f2]
      have hr : ∀ a ∈ h.lst 0, (h1.cell a).ref = (h.cell a).ref := fun a ha => (e4 a (g.inCells 0 g.v0 a ha)).1
      have hc : (h.lst 0).map (fun a => (h1.cell a).ref) = evNames h 0 := by
        rw [names_eq]; exact List.map_congr_left hr
      have hfin : evNames h1 0 = (evNames h 0).take k ++ ref :: (evNames h 0).drop k := by
        rw [names_eq, hl, List.map_append, List.map_cons, List.map_take, List.map_drop, hc, (e7 0 c1).2.1]
      rw [hfin]
      refine List.perm_middle.nodup_iff.2 ?_
      rw [List.take_append_drop, List.nodup_cons]
      exact ⟨new, hn⟩
    · rintro y (hy | ⟨_, h2, _⟩)
      · exact h0 y hy
      · exact h2 rfl
    · intro u hu a ha
      have hold : a ∈ h.lst u → (a ∉ h1.lst 0 ↔ (own u (h1.cell a).ref ∨ (u ∈ t :: h.ancestors t ∧ u ≠ 0 ∧ (h1.cell a).ref = ref))) := by
        intro ha
        have hlt := g.inCells u hu.1 a ha
        rw [hroot a hlt, (e4 a hlt).1, hown u hu.1 a ha]
        refine ⟨.inl, fun hc => hc.resolve_right fun e => new ?_⟩
        obtain ⟨b, hb, eb⟩ := g.in_project hu.1 ha
        rw [names_eq, ← e.2.2, ← eb]
        exact List.mem_map.2 ⟨b, hb, rfl⟩
      by_cases hm : u ∈ t :: h.ancestors t
      · rcases hmem u hm a ha with ha' | rfl
        · exact hold ha'
        · obtain ⟨n1, n2, _⟩ := e7 u hm
          rw [n2]
          by_cases hu0 : u = 0
          · subst hu0
            simp only [ha, not_true_eq_false, false_iff]
            rintro (hy | ⟨_, h2, _⟩)
            · exact h0 _ hy
            · exact h2 rfl
          · refine ⟨fun _ => .inr ⟨hm, hu0, rfl⟩, fun _ hin => ?_⟩
            rcases hmem 0 c1 _ hin with h2 | h2
            · have := g.inCells 0 g.v0 _ h2; omega
            · exact hu0 (e6 u hm 0 c1 h2)
      · rw [e5 u hm] at ha
        exact hold ha

/-- `pop` and `remove` on a view that is up to date behave as on a plain list, in any history of insertions and removals: the
event disappears from the view and from every tree above it, and from no other tree. -/
theorem C21_history {h : Heap} {live : Nat → Prop} {own : Nat → Nat → Prop} (r : History h live own) {t : Nat}
    (ht : live t) (id : Nat) (n : Int) :
    match plainPop (shown h t) id n with
    | .error x => h.pop t id n = (h, .error x) ∧ h.remove t id n = (h, .error x)
    | .ok (e, l') => ∃ h', h.pop t id n = (h', .ok e.1) ∧ h.remove t id n = (h', .ok ()) ∧
        e.2 = id ∧ e ∈ shown h t ∧ shown h' t = l' ∧
        (∀ u ∈ t :: h.ancestors t, e ∈ shown h u ∧ shown h' u = (shown h u).filter fun x => x.1 ≠ e.1) ∧
        (∀ u ∉ t :: h.ancestors t, shown h' u = shown h u) ∧
        (∀ u, h'.parent u = h.parent u) := by
  obtain ⟨g, hn, _, _⟩ := history_fair r
  cases hp : plainPop (shown h t) id n with
  | error x =>
    have := (plainPop_record h t id n).1 x hp
    exact ⟨this, by unfold Heap.remove; rw [this]⟩
  | ok res =>
    obtain ⟨e, l'⟩ := res
    obtain ⟨h', ie, e1, e2, e3, e4, e5, e6, e7, e8, e9, _⟩ := pop_shown_fair g hn ht id n hp
    refine ⟨h', e1, by unfold Heap.remove; rw [e1], e4, ?_, e5, e9, ?_, e7.parent⟩
    · rw [e3]; exact List.mem_map.2 ⟨ie, e2, rfl⟩
    · intro u hu
      rw [shown_congr e6 u _ (e8 u), if_neg hu]
      rfl

/-- Positions up to that of an element. -/
theorem filter_at_le {h : Heap} {l : List Nat} (s : h.Sorted l) {i : Nat} (hi : i < l.length) :
    (l.filter (fun b => decide (h.r b < h.r l[i])) = l.take i ∧ l.filter (fun b => !decide (h.r b < h.r l[i])) = l.drop i) ∧
    (l.filter (fun b => decide (h.r b ≤ h.r l[i])) = l.take (i + 1) ∧
      l.filter (fun b => !decide (h.r b ≤ h.r l[i])) = l.drop (i + 1)) := by
  have e : l = l.take i ++ l[i] :: l.drop (i + 1) := by simp
  have e1 : l.take (i + 1) = l.take i ++ [l[i]] := by simp
  have e0 : l.drop i = l[i] :: l.drop (i + 1) := by simp
  have s' := s
  rw [Heap.Sorted, e, List.pairwise_append, List.pairwise_cons] at s'
  obtain ⟨s1, ⟨s2, s3⟩, s4⟩ := s'
  rw [e1, e0]
  generalize l[i] = x at *
  generalize l.take i = p at *
  generalize l.drop (i + 1) = q at *
  subst e
  have hp : ∀ b ∈ p, h.r b < h.r x := fun b hb => s4 b hb x (by simp)
  refine ⟨⟨?_, ?_⟩, ?_, ?_⟩
  · rw [List.filter_append, List.filter_eq_self.2 (fun b hb => by simpa using hp b hb), List.filter_eq_nil_iff.2, List.append_nil]
    intro b hb
    rcases List.mem_cons.1 hb with rfl | hb
    · simp
    · have := s2 b hb; simp; omega
  · rw [List.filter_append, List.filter_eq_nil_iff.2 (fun b hb => by simpa using hp b hb), List.filter_eq_self.2, List.nil_append]
    intro b hb
    rcases List.mem_cons.1 hb with rfl | hb
    · simp
    · have := s2 b hb; simp; omega
  · rw [List.filter_append, List.filter_eq_self.2 (fun b hb => by have := hp b hb; simp; omega), List.filter_cons,
      if_pos (by simp), List.filter_eq_nil_iff.2 (fun b hb => by have := s2 b hb; simp; omega)]
  · rw [List.filter_append, List.filter_eq_nil_iff.2 (fun b hb => by have := hp b hb; simp; omega), List.filter_cons,
      if_neg (by simp), List.filter_eq_self.2 (fun b hb => by have := s2 b hb; simp; omega), List.nil_append]

/-- C24. Insertion through a view that is up to date, in any history of insertions and removals, in every case: a wrong
position is reported and nothing changes; otherwise the event is put immediately before the event `f` that was at this
position, in the view and in every tree above it — except where `f` came there by an insertion through a view: there the event
is put immediately behind `f`.  Through an empty view it is put at the start of the view and of every tree above it, except
behind the first event of the project where that came by an insertion through a view.  No other view changes. -/
theorem C24_exact {h : Heap} {live : Nat → Prop} {own : Nat → Nat → Prop} (r : History h live own) {t : Nat} (ht : live t)
    (pos : Int) (e : Ev) :
    (shown h t ≠ [] → position (shown h t).length pos = none → h.insert t pos e.1 e.2 = (h, .error .indexError)) ∧
    (∀ k f, position (shown h t).length pos = some k → (shown h t)[k]? = some f →
      ∃ h', h.insert t pos e.1 e.2 = (h', .ok ()) ∧
        (∀ u ∈ t :: h.ancestors t, ∃ i, (shown h u)[i]? = some f ∧
          (¬ own u f.1 → shown h' u = (shown h u).take i ++ e :: (shown h u).drop i) ∧
          (own u f.1 → shown h' u = (shown h u).take (i + 1) ++ e :: (shown h u).drop (i + 1))) ∧
        (∀ u, live u → u ∉ t :: h.ancestors t → shown h' u = shown h u) ∧ (∀ u, h'.parent u = h.parent u)) ∧
    (shown h t = [] → ∃ h', h.insert t pos e.1 e.2 = (h', .ok ()) ∧
        (∀ u ∈ t :: h.ancestors t,
          (∀ f l, shown h u = f :: l → own u f.1 → (shown h 0).head? = some f → shown h' u = f :: e :: l) ∧
          ((∀ f, (shown h u).head? = some f → own u f.1 → (shown h 0).head? ≠ some f) → shown h' u = e :: shown h u)) ∧
        (∀ u, live u → u ∉ t :: h.ancestors t → shown h' u = shown h u) ∧ (∀ u, h'.parent u = h.parent u)) := by
  obtain ⟨g, hn, h0, hown⟩ := history_fair r
  obtain ⟨c1, c2, c3⟩ := g.chain ht
  have hsh : ∀ h' : Heap, (∀ a < h.cells.length, (h'.cell a).ref = (h.cell a).ref ∧ (h'.cell a).id = (h.cell a).id) →
      ∀ u, live u → (h.lst u).map (fun a => ((h'.cell a).ref, (h'.cell a).id)) = shown h u := by
    intro h' hc u hu
    apply List.map_congr_left
    intro a ha
    obtain ⟨q1, q2⟩ := hc a (g.inCells u hu a ha)
    rw [q1, q2]
  refine ⟨fun hne hp => ?_, fun k f hp hf => ?_, fun he => ?_⟩
  · rw [shown_length] at hp
    exact insert_error (g.sorted t ht) (fun e => hne ((isEmpty_shown h t).2 e)) hp
  · have hkt : k < (h.lst t).length := by rw [← shown_length]; exact (position_lt hp).1
    have hft : f = ((h.cell (h.lst t)[k]).ref, (h.cell (h.lst t)[k]).id) := by
      rw [shown, List.getElem?_map, List.getElem?_eq_getElem hkt] at hf
      simpa using hf.symm
    obtain ⟨x, z, z1, z2, z3⟩ := g.place ht (List.getElem_mem hkt)
    have hxl : x < (h.lst 0).length := (List.getElem?_eq_some_iff.1 z1).1
    have htar : TargetAt h t pos x := .inr ⟨k, f, hp, hf, by rw [shown, List.getElem?_map, z1, Option.map_some, z3, hft]⟩
    obtain ⟨hk, hx⟩ := target_place g hn ht htar
    obtain ⟨h', nw, e1, e2, e3, e4, e5, e6, e7, e8⟩ := insert_fair g ht pos e.1 e.2 hk hx
    have hsh' := hsh h' fun a ha => ⟨(e4 a ha).1, (e4 a ha).2.1⟩
    refine ⟨h', e1, fun u hu => ?_, fun u hLu hu => by rw [shown, e5 u hu, hsh' u hLu], e2.parent⟩
    have hv := (c2 u hu).1
    obtain ⟨b, hb, eb⟩ := g.above t ht u hu _ (List.getElem_mem hkt)
    obtain ⟨i, hi, rfl⟩ := List.getElem_of_mem hb
    have hrb : h.r (h.lst u)[i] = x := by rw [Heap.r, eb]; exact z2
    obtain ⟨⟨a1, a2⟩, a3, a4⟩ := filter_at_le (g.sorted u hv) hi
    rw [hrb] at a1 a2 a3 a4
    have hpriv := hown u hv _ (List.getElem_mem hi)
    have hfu : f = ((h.cell (h.lst u)[i]).ref, (h.cell (h.lst u)[i]).id) := by rw [eb]; exact hft
    have hf1 : (h.cell (h.lst u)[i]).ref = f.1 := by rw [hfu]
    rw [hf1] at hpriv
    have hinj : ∀ b ∈ h.lst u, h.r b = x → b = (h.lst u)[i] := fun b hb e' =>
      sorted_inj (g.sorted u hv) (List.getElem_mem hi) hb (by omega)
    obtain ⟨n1, n2, n3⟩ := e7 u hu
    refine ⟨i, by rw [shown, List.getElem?_map, List.getElem?_eq_getElem hi, Option.map_some, hfu], fun ho => ?_, fun ho => ?_⟩
    · have hc : ∀ b ∈ h.lst u, decide (h.r b < x ∨ (h.r b = x ∧ b ∉ h.lst 0)) = decide (h.r b < x) := by
        intro b hb
        refine decide_eq_decide.2 ⟨fun hc => hc.resolve_right fun e' => ho (hpriv.1 ?_), .inl⟩
        rw [← hinj b hb e'.1]; exact e'.2
      rw [List.filter_congr hc, List.filter_congr (p := fun b => !decide (h.r b < x ∨ (h.r b = x ∧ b ∉ h.lst 0)))
        (fun b hb => by rw [hc b hb]), a1, a2] at n3
      rw [shown, n3, List.map_append, List.map_cons, List.map_take, List.map_drop, hsh' u hv, n2]
    · have hc : ∀ b ∈ h.lst u, decide (h.r b < x ∨ (h.r b = x ∧ b ∉ h.lst 0)) = decide (h.r b ≤ x) := by
        intro b hb
        refine decide_eq_decide.2 ⟨fun hc => by rcases hc with hc | ⟨hc, _⟩ <;> omega, fun hle => ?_⟩
        by_cases hlt : h.r b < x
        · exact .inl hlt
        · have he' : h.r b = x := by omega
          refine .inr ⟨he', ?_⟩
          rw [hinj b hb he']
          exact hpriv.2 ho
      rw [List.filter_congr hc, List.filter_congr (p := fun b => !decide (h.r b < x ∨ (h.r b = x ∧ b ∉ h.lst 0)))
        (fun b hb => by rw [hc b hb]), a3, a4] at n3
      rw [shown, n3, List.map_append, List.map_cons, List.map_take, List.map_drop, hsh' u hv, n2]
  · obtain ⟨hk, hx⟩ := target_place g hn ht (pos := pos) (k := 0) (.inl ⟨he, rfl⟩)
    obtain ⟨h', nw, e1, e2, e3, e4, e5, e6, e7, e8⟩ := insert_fair g ht pos e.1 e.2 hk hx
    have hsh' := hsh h' fun a ha => ⟨(e4 a ha).1, (e4 a ha).2.1⟩
    refine ⟨h', e1, fun u hu => ?_, fun u hLu hu => by rw [shown, e5 u hu, hsh' u hLu], e2.parent⟩
    have hv := (c2 u hu).1
    obtain ⟨n1, n2, n3⟩ := e7 u hu
    have hhead : ∀ a l, h.lst u = a :: l →
        ((shown h u).head? = some ((h.cell a).ref, (h.cell a).id) ∧
          ((shown h 0).head? = some ((h.cell a).ref, (h.cell a).id) ↔ h.r a = 0)) ∧
        (∀ b ∈ l, h.r a < h.r b) ∧ 0 ≤ h.r a := by
      intro a l hl
      have ha : a ∈ h.lst u := by rw [hl]; simp
      have hs := g.sorted u hv
      rw [Heap.Sorted, hl, List.pairwise_cons] at hs
      obtain ⟨i, z, z1, z2, z3⟩ := g.place hv ha
      refine ⟨⟨by rw [shown, hl]; rfl, ?_⟩, hs.1, by omega⟩
      rw [List.head?_eq_getElem?, show h.r a = 0 ↔ h.r a = ((0 : Nat) : Int) from Iff.rfl, ← record_iff g hn hv ha]
      constructor
      · intro h1
        rw [evNames, List.getElem?_map, h1]
        rfl
      · intro h1
        have h2 := (record_iff g hn hv ha 0).1 h1
        have : i = 0 := by omega
        subst this
        rw [shown, List.getElem?_map, z1, Option.map_some, z3]
    refine ⟨fun f l hl ho hp => ?_, fun hno => ?_⟩
    · cases hlu : h.lst u with
      | nil => rw [shown, hlu] at hl; cases hl
      | cons a as =>
        obtain ⟨⟨b1, b2⟩, b3, b4⟩ := hhead a as hlu
        rw [hl, List.head?_cons, Option.some.injEq] at b1
        subst b1
        have hra := b2.1 hp
        have hpa := (hown u hv a (by rw [hlu]; simp)).2 ho
        rw [hlu, List.filter_cons, if_pos (by simp [hra, hpa]), List.filter_cons, if_neg (by simp [hra, hpa]),
          List.filter_eq_nil_iff.2 (fun b hb => by have := b3 b hb; simp; omega),
          List.filter_eq_self.2 (fun b hb => by have := b3 b hb; simp; omega)] at n3
        have := hsh' u hv
        rw [hlu, hl, List.map_cons, List.cons.injEq] at this
        rw [shown, n3, List.cons_append, List.nil_append, List.map_cons, List.map_cons, this.1, this.2, n2]
    · have hnone : ∀ b ∈ h.lst u, ¬ (h.r b < ((0 : Nat) : Int) ∨ (h.r b = ((0 : Nat) : Int) ∧ b ∉ h.lst 0)) := by
        cases hlu : h.lst u with
        | nil => intro b hb; cases hb
        | cons a as =>
          obtain ⟨⟨b1, b2⟩, b3, b4⟩ := hhead a as hlu
          intro b hb
          rcases List.mem_cons.1 hb with rfl | hb
          · rintro (hc | ⟨hc, hp⟩)
            · omega
            · exact hno _ b1 ((hown u hv b (by rw [hlu]; simp)).1 hp) (b2.2 hc)
          · have := b3 b hb
            omega
      rw [List.filter_eq_nil_iff.2 (fun b hb => by simpa using hnone b hb),
        List.filter_eq_self.2 (fun b hb => by rw [decide_eq_false (hnone b hb)]; rfl), List.nil_append] at n3
      rw [shown, n3, List.map_cons, hsh' u hv, n2]

/-! ### Runs of insertions -/

theorem index_unique {α : Type} {l : List α} (hn : l.Nodup) {i j : Nat} {x : α} (hi : l[i]? = some x) (hj : l[j]? = some x) :
    i = j := by
  obtain ⟨i1, i2⟩ := List.getElem?_eq_some_iff.1 hi
  obtain ⟨j1, j2⟩ := List.getElem?_eq_some_iff.1 hj
  exact (List.getElem_inj hn).1 (i2.trans j2.symm)

theorem names_getElem? {h : Heap} {t i : Nat} {f : Ev} (hf : (shown h t)[i]? = some f) : (evNames h t)[i]? = some f.1 := by
  rw [evNames, List.getElem?_map, hf]; rfl

theorem position_nat {n k : Nat} (hk : k < n) : position n (k : Int) = some k := by
  unfold position
  rw [if_pos ⟨by omega, by omega⟩]
  rfl

/-- C24. A run of new events inserted one after the other at the positions `k`, `k + 1`, … of a view is put, in this order,
immediately before the former `k`-th event of the view, in the view and in all trees above it — provided that none of these
trees has an event from an earlier insertion through a view at or behind that place. -/
theorem C24_run {h : Heap} {live : Nat → Prop} {own : Nat → Nat → Prop} (r : History h live own) {t : Nat} (ht : live t)
    {k : Nat} {f : Ev} (hf : (shown h t)[k]? = some f) (es : List Ev) (distinct : (es.map Prod.fst).Nodup)
    (new : ∀ e ∈ es, e.1 ∉ evNames h 0)
    (earlier : ∀ u ∈ t :: h.ancestors t, ∀ y ∈ evNames h u, own u y →
      ∃ i j : Nat, i < j ∧ (evNames h 0)[i]? = some y ∧ (evNames h 0)[j]? = some f.1) :
    ∃ h', insertRun h t k es = (h', .ok ()) ∧
      ∀ u ∈ t :: h.ancestors t, ∃ i, (shown h u)[i]? = some f ∧
        shown h' u = (shown h u).take i ++ es ++ (shown h u).drop i := by
  induction es generalizing h live own k with
  | nil =>
    refine ⟨h, rfl, fun u hu => ?_⟩
    have hp := position_nat (List.getElem?_eq_some_iff.1 hf).1
    obtain ⟨_, _, h2, _⟩ := (C24_exact r ht k f).2.1 k f hp hf
    obtain ⟨i, i1, _⟩ := h2 u hu
    exact ⟨i, i1, by simp⟩
  | cons e es ih =>
    obtain ⟨g, hn, h0, hown⟩ := history_fair r
    obtain ⟨c1, c2, c3⟩ := g.chain ht
    have hp := position_nat (List.getElem?_eq_some_iff.1 hf).1
    obtain ⟨h1, e1, e2, e3, e4⟩ := (C24_exact r ht k e).2.1 k f hp hf
    rw [List.map_cons, List.nodup_cons] at distinct
    -- where the event is in the project
    obtain ⟨x, x1, x2, _⟩ := e2 0 c1
    have hx0 := names_getElem? x1
    have hxl : x < (shown h 0).length := (List.getElem?_eq_some_iff.1 x1).1
    have x2' := x2 (h0 _)
    have hno : ∀ u ∈ t :: h.ancestors t, ¬ own u f.1 := by
      intro u hu ho
      obtain ⟨i, i1, _⟩ := e2 u hu
      obtain ⟨a, b, hab, a1, b1⟩ := earlier u hu f.1 (List.mem_of_getElem? (names_getElem? i1)) ho
      have := index_unique hn a1 b1
      omega
    have hshow : ∀ u ∈ t :: h.ancestors t, ∃ i, (shown h u)[i]? = some f ∧
        shown h1 u = (shown h u).take i ++ e :: (shown h u).drop i ∧ (shown h1 u)[i + 1]? = some f ∧
        (shown h1 u).take (i + 1) = (shown h u).take i ++ [e] ∧ (shown h1 u).drop (i + 1) = (shown h u).drop i := by
      intro u hu
      obtain ⟨i, i1, i2, _⟩ := e2 u hu
      have i3 := i2 (hno u hu)
      have hl : i < (shown h u).length := (List.getElem?_eq_some_iff.1 i1).1
      have hlt : ((shown h u).take i).length = i := by rw [List.length_take]; omega
      refine ⟨i, i1, i3, ?_, ?_, ?_⟩
      · rw [i3, List.getElem?_append_right (by omega), hlt, show i + 1 - i = 1 by omega, List.getElem?_cons_succ,
          List.getElem?_drop, Nat.add_zero, i1]
      · rw [i3, List.take_append, hlt, show i + 1 - i = 1 by omega, List.take_of_length_le (by omega)]
        rfl
      · rw [i3, List.drop_append, hlt, show i + 1 - i = 1 by omega, List.drop_of_length_le (by omega)]
        rfl
    have r1 := History.insert r ht (new e (by simp)) e1 (k := x)
      (.inr ⟨k, f, hp, hf, x1⟩)
    have hanc : h1.ancestors t = h.ancestors t := ancestors_congr e4 t
    have hk : (shown h1 t)[k + 1]? = some f := by
      obtain ⟨i, i1, _, i3, _⟩ := hshow t (by simp)
      rwa [index_unique (names_nodup g hn ht) (names_getElem? i1) (names_getElem? hf)] at i3
    have hnames0 : evNames h1 0 = (evNames h 0).take x ++ e.1 :: (evNames h 0).drop x := by
      rw [evNames, x2', List.map_append, List.map_cons, List.map_take, List.map_drop]
      rfl
    have hlt0 : ((evNames h 0).take x).length = x := by
      rw [List.length_take, evNames, List.length_map]; omega
    have hf1 : (evNames h1 0)[x + 1]? = some f.1 := by
      rw [hnames0, List.getElem?_append_right (by omega), hlt0, show x + 1 - x = 1 by omega, List.getElem?_cons_succ,
        List.getElem?_drop, Nat.add_zero, hx0]
    obtain ⟨h', q1, q2⟩ := ih r1
      ⟨ht, fun w hw y hy ho => by
        obtain ⟨a, b, hab, a1, b1⟩ := earlier w hw y hy ho
        have := index_unique hn b1 hx0
        exact ⟨a, by omega, a1⟩⟩ hk distinct.2
      (fun e' he' hm => by
        rw [hnames0, List.mem_append, List.mem_cons] at hm
        rcases hm with hm | hm | hm
        · exact new e' (by simp [he']) (List.mem_of_mem_take hm)
        · exact distinct.1 (by rw [← hm]; exact List.mem_map.2 ⟨e', he', rfl⟩)
        · exact new e' (by simp [he']) (List.mem_of_mem_drop hm))
      (fun u hu y hy ho => by
        rw [hanc] at hu
        by_cases hye : y = e.1
        · subst hye
          refine ⟨x, x + 1, by omega, ?_, hf1⟩
          rw [hnames0, List.getElem?_append_right (by omega), hlt0, Nat.sub_self]
          rfl
        · have ho' : own u y := ho.resolve_right fun h2 => hye h2.2.2
          obtain ⟨i, _, i2, _⟩ := hshow u hu
          have hy' : y ∈ evNames h u := by
            rw [evNames, i2, List.map_append, List.map_cons, List.mem_append, List.mem_cons] at hy
            rcases hy with hy | hy | hy
            · rw [List.map_take] at hy; exact List.mem_of_mem_take hy
            · exact absurd hy hye
            · rw [List.map_drop] at hy; exact List.mem_of_mem_drop hy
          obtain ⟨a, b, hab, a1, b1⟩ := earlier u hu y hy' ho'
          have hbx := index_unique hn b1 hx0
          refine ⟨a, x + 1, by omega, ?_, hf1⟩
          rw [hnames0, List.getElem?_append_left (by omega), List.getElem?_take_of_lt (by omega), a1])
    refine ⟨h', ?_, fun u hu => ?_⟩
    · rw [insertRun, e1]
      exact q1
    · obtain ⟨i, i1, i2, i3, i4, i5⟩ := hshow u hu
      obtain ⟨j, j1, j2⟩ := q2 u (by rw [hanc]; exact hu)
      have hn1 := (history_fair r1).2.1
      have hij : j = i + 1 := by
        have hlive : ∀ w ∈ u :: h.ancestors u, w ∈ t :: h.ancestors t := by
          have key : ∀ t, live t → u ∈ t :: h.ancestors t → ∀ w ∈ u :: h.ancestors u, w ∈ t :: h.ancestors t := by
            intro t
            induction t using Nat.strongRecOn with
            | ind t ih2 =>
              intro ht hu w hw
              rcases List.mem_cons.1 hu with rfl | hu
              · exact hw
              · have hne : t ≠ 0 := fun e => by rw [e, g.anc0] at hu; cases hu
                obtain ⟨s, s1, s2, s3⟩ := g.up t ht hne
                rw [g.anc_some s3 s1 s2] at hu ⊢
                exact List.mem_cons_of_mem _ (ih2 s s2 s3 hu w hw)
          exact key t ht hu
        have hnu := names_nodup (history_fair r1).1 hn1 (u := u) ⟨(c2 u hu).1, fun w hw y hy ho => by
          obtain ⟨a, b, hab, a1, b1⟩ := earlier w (hlive w hw) y hy ho
          have := index_unique hn b1 hx0
          exact ⟨a, by omega, a1⟩⟩
        exact index_unique hnu (names_getElem? j1) (names_getElem? i3)
      subst hij
      refine ⟨i, i1, ?_⟩
      rw [j2, i4, i5]
      simp

/-- Views through which nothing was inserted have no own events. -/
theorem reach_history {h : Heap} {L : Nat → Prop} (r : Reach h L) : ∃ live own, History h live own ∧
    (∀ u, L u → live u) ∧ ∀ u, L u → ∀ y ∈ evNames h u, ¬ own u y := by
  induction r with
  | parsed evs distinct => exact ⟨_, _, .parsed evs distinct, fun _ h => h, fun _ _ _ _ h => h⟩
  | @view h L t r ht hne call ih =>
    obtain ⟨live, own, i1, i2, i3⟩ := ih
    obtain ⟨g, _⟩ := reach_good r
    have hsub := view_sublist (g.sorted ht) call
    have hne' : h.lst 0 ≠ [] := fun e => hne (by unfold shown; rw [e]; rfl)
    obtain ⟨y1, y2, y3, y4, y5, y6⟩ := Heap.yieldViews_good (ViewCall.lists h t call) g ht hne' hsub
    have hr := History.view i1 (i2 t ht) hne call
    refine ⟨_, _, hr, fun u hu => hu.imp_left (i2 u), fun u hu y hy => ?_⟩
    rw [view_eq] at hu hy ⊢
    have hcell : ∀ a, (h.yieldViews t (ViewCall.lists h t call)).1.cell a = h.cell a := fun a => by
      unfold Heap.cell; rw [y2]
    by_cases hm : u ∈ (h.yieldViews t (ViewCall.lists h t call)).2
    · rw [if_pos hm]
      rw [y1] at hm
      obtain ⟨i, hi, rfl⟩ := List.mem_map.1 hm
      have hi' := List.mem_range.1 hi
      refine i3 t ht y ?_
      rw [names_eq] at hy ⊢
      obtain ⟨a, ha, rfl⟩ := List.mem_map.1 hy
      rw [(y4 i hi').1] at ha
      rw [hcell]
      exact List.mem_map.2 ⟨a, (hsub _ (List.getElem_mem hi')).mem ha, rfl⟩
    · rw [if_neg hm]
      have hu' := hu.resolve_right hm
      have : evNames (h.yieldViews t (ViewCall.lists h t call)).1 u = evNames h u := by
        unfold evNames; rw [shown_of y2 (y5 u (g.lt u hu')).1]
      rw [this] at hy
      exact i3 u hu' y hy
  | @pop h L t id n h' x r ht hp ih =>
    obtain ⟨live, own, i1, i2, i3⟩ := ih
    obtain ⟨g, _⟩ := reach_good r
    refine ⟨_, _, History.pop i1 (i2 t ht) hp, ?_, ?_⟩
    · rintro u ⟨hu, hw⟩
      exact ⟨i2 u hu, fun w hm => ⟨hw w hm, fun y hy ho => absurd ho (i3 w ((g.chain_facts u hu).2.1 w hm).1 y hy)⟩⟩
    · rintro u ⟨hu, -⟩ y hy
      have c := C21_history i1 (i2 t ht) id n
      cases hpp : plainPop (shown h t) id n with
      | error e => rw [hpp] at c; rw [c.1] at hp; cases hp
      | ok res =>
        obtain ⟨ev, l'⟩ := res
        rw [hpp] at c
        obtain ⟨h1, e1, _, _, _, _, e6, e7, _⟩ := c
        rw [e1] at hp
        obtain ⟨rfl, -⟩ := Prod.mk.inj hp
        refine i3 u hu y ?_
        by_cases hm : u ∈ t :: h.ancestors t
        · rw [evNames, (e6 u hm).2] at hy
          exact (List.filter_sublist.map _).mem hy
        · rw [evNames, e7 u hm] at hy
          exact hy
  | @insert h L t pos ref id h' r ht new hi ih =>
    obtain ⟨live, own, i1, i2, i3⟩ := ih
    obtain ⟨g, _⟩ := reach_good r
    obtain ⟨g', hn, h0, _⟩ := history_fair i1
    obtain ⟨c1, c2, c3⟩ := g.chain_facts t ht
    have hex := C24_exact i1 (i2 t ht) pos (ref, id)
    have hplace : ∃ k, TargetAt h t pos k := by
      by_cases he : shown h t = []
      · exact ⟨0, .inl ⟨he, rfl⟩⟩
      · cases hp : position (shown h t).length pos with
        | none => rw [hex.1 he hp] at hi; cases hi
        | some k =>
          have hk := (position_lt hp).1
          have hf : (shown h t)[k]? = some (shown h t)[k] := List.getElem?_eq_getElem hk
          obtain ⟨_, _, e2, _⟩ := hex.2.1 k _ hp hf
          obtain ⟨x, x1, _⟩ := e2 0 c1
          exact ⟨x, .inr ⟨k, _, hp, hf, x1⟩⟩
    obtain ⟨k, hk⟩ := hplace
    refine ⟨_, _, History.insert i1 (i2 t ht) new hi hk, ?_, ?_⟩
    · rintro u ⟨hu, -⟩
      exact ⟨i2 u hu, fun w hm y hy ho => absurd ho (i3 w ((g.chain_facts u hu).2.1 w hm).1 y hy)⟩
    · rintro u ⟨hu, hw⟩ y hy ho
      by_cases hu0 : u = 0
      · subst hu0
        rcases ho with ho | ho
        · exact h0 y ho
        · exact ho.2.1 rfl
      · have hm : u ∉ t :: h.ancestors t := fun hm => hu0 (hw u (by simp) hm)
        have hsame : shown h' u = shown h u := by
          by_cases he : shown h t = []
          · obtain ⟨h1, e1, _, e3, _⟩ := hex.2.2 he
            dsimp only at e1
            rw [e1] at hi
            obtain ⟨rfl, -⟩ := Prod.mk.inj hi
            exact e3 u (i2 u hu) hm
          · cases hp : position (shown h t).length pos with
            | none => rw [hex.1 he hp] at hi; cases hi
            | some j =>
              obtain ⟨h1, e1, _, e3, _⟩ := hex.2.1 j _ hp (List.getElem?_eq_getElem (position_lt hp).1)
              dsimp only at e1
              rw [e1] at hi
              obtain ⟨rfl, -⟩ := Prod.mk.inj hi
              exact e3 u (i2 u hu) hm
        rw [evNames, hsame] at hy
        rcases ho with ho | ho
        · exact i3 u hu y hy ho
        · exact hm ho.1

/-- C24. Through a view that is up to date and through which nothing was inserted before, runs of any length can be inserted
at any position. -/
theorem C24_run_fresh {h : Heap} {L : Nat → Prop} (r : Reach h L) {t : Nat} (ht : L t) {k : Nat} {f : Ev}
    (hf : (shown h t)[k]? = some f) (es : List Ev) (distinct : (es.map Prod.fst).Nodup)
    (new : ∀ e ∈ es, e.1 ∉ (shown h 0).map Prod.fst) :
    ∃ h', insertRun h t k es = (h', .ok ()) ∧
      ∀ u ∈ t :: h.ancestors t, ∃ i, (shown h u)[i]? = some f ∧
        shown h' u = (shown h u).take i ++ es ++ (shown h u).drop i := by
  obtain ⟨live, own, r', h1, h2⟩ := reach_history r
  exact C24_run r' (h1 t ht) hf es distinct new fun u hu y hy ho =>
    absurd ho (h2 u (((reach_good r).1.chain_facts t ht).2.1 u hu).1 y hy)

open TreeDemo in
/-- Three events before the second one of channel 2 of the project with views of views. -/
example : Reach h2 (fun u => u ≤ 4) ∧ (shown h2 2)[1]? = some (3, 203) ∧ h2.ancestors 2 = [0] ∧
    shown (insertRun h2 2 1 [(7, 1), (8, 2), (9, 3)]).1 2 = [(2, 64), (7, 1), (8, 2), (9, 3), (3, 203), (4, 21)] ∧
    shown (insertRun h2 2 1 [(7, 1), (8, 2), (9, 3)]).1 0 =
      [(0, 64), (1, 203), (2, 64), (7, 1), (8, 2), (9, 3), (3, 203), (4, 21), (5, 64)] :=
  ⟨reach2, by decide +kernel, by decide +kernel, by decide +kernel, by decide +kernel⟩

/-- A history with an own event: after one insertion through a view of the second event, the view is still up to date, and
the next insertion before the new event goes behind it in the view and before it in the project. -/
example : ∃ (h : Heap) (live : Nat → Prop) (own : Nat → Nat → Prop), History h live own ∧ live 1 ∧ own 1 2 ∧
    shown h 1 = [(2, 9), (1, 8)] ∧ shown h 0 = [(0, 7), (2, 9), (1, 8)] ∧
    shown (h.insert 1 0 3 9).1 1 = [(2, 9), (3, 9), (1, 8)] ∧
    shown (h.insert 1 0 3 9).1 0 = [(0, 7), (3, 9), (2, 9), (1, 8)] := by
  have r1 := History.view (History.parsed [(0, 7), (1, 8)] (by decide)) rfl (by decide +kernel) (.separate 8)
  have r2 := History.insert (t := 1) (pos := 0) (ref := 2) (id := 9) (k := 1) r1 (.inr (by decide +kernel))
    (by decide +kernel) rfl (.inr ⟨0, (1, 8), by decide +kernel, by decide +kernel, by decide +kernel⟩)
  refine ⟨_, _, _, r2, ⟨.inr (by decide +kernel), fun w hw y hy ho => ?_⟩, .inr ⟨by decide +kernel, by decide, rfl⟩,
    by decide +kernel, by decide +kernel, by decide +kernel, by decide +kernel⟩
  split at ho <;> exact ho.elim

/-- A removal in that history, through the view with its own event. -/
example : ∃ (h : Heap) (live : Nat → Prop) (own : Nat → Nat → Prop), History h live own ∧ live 1 ∧
    plainPop (shown h 1) 9 0 = .ok ((2, 9), [(1, 8)]) := by
  have r1 := History.view (History.parsed [(0, 7), (1, 8)] (by decide)) rfl (by decide +kernel) (.separate 8)
  have r2 := History.insert (t := 1) (pos := 0) (ref := 2) (id := 9) (k := 1) r1 (.inr (by decide +kernel))
    (by decide +kernel) rfl (.inr ⟨0, (1, 8), by decide +kernel, by decide +kernel, by decide +kernel⟩)
  refine ⟨_, _, _, r2, ⟨.inr (by decide +kernel), fun w hw y hy ho => ?_⟩, by decide +kernel⟩
  split at ho <;> exact ho.elim

/-- C25. `append` in every case, on trees that are up to date: on a tree with events it raises an `IndexError` and changes
nothing; on an empty tree it puts the event at the start of the project and of all trees between (not at their end), but behind
the first event of the project in views that got that one by an insertion. -/
theorem C25_exact {h : Heap} {live : Nat → Prop} {own : Nat → Nat → Prop} (r : History h live own) {t : Nat} (ht : live t)
    (e : Ev) :
    (shown h t ≠ [] → h.append t e.1 e.2 = (h, .error .indexError)) ∧
    (shown h t = [] → ∃ h', h.append t e.1 e.2 = (h', .ok ()) ∧ shown h' t = [e] ∧ shown h' 0 = e :: shown h 0 ∧
        (∀ u ∈ t :: h.ancestors t,
          (∀ f l, shown h u = f :: l → own u f.1 → (shown h 0).head? = some f → shown h' u = f :: e :: l) ∧
          ((∀ f, (shown h u).head? = some f → own u f.1 → (shown h 0).head? ≠ some f) → shown h' u = e :: shown h u)) ∧
        ∀ u, live u → u ∉ t :: h.ancestors t → shown h' u = shown h u) := by
  obtain ⟨g, hn, h0, hown⟩ := history_fair r
  obtain ⟨c1, c2, c3⟩ := g.chain ht
  refine ⟨fun hne => C25_append_refuted h t hne e, fun he => ?_⟩
  obtain ⟨h', e1, e2, e3, _⟩ := (C24_exact r ht (h.lst t).length e).2.2 he
  refine ⟨h', e1, ?_, ?_, e2, e3⟩
  · rw [(e2 t (by simp)).2 (fun f hf => by rw [he] at hf; cases hf), he]
  · exact (e2 0 c1).2 (fun f _ ho => absurd ho (h0 _))

/-- An empty view of a project with two events: the appended event comes first. -/
example : ∃ (h : Heap) (live : Nat → Prop) (own : Nat → Nat → Prop), History h live own ∧ live 1 ∧ shown h 1 = [] ∧
    shown (h.append 1 3 9).1 1 = [(3, 9)] ∧ shown (h.append 1 3 9).1 0 = [(3, 9), (0, 7), (1, 8)] := by
  have r1 := History.view (History.parsed [(0, 7), (1, 8)] (by decide)) rfl (by decide +kernel) (.subtree fun _ => false)
  exact ⟨_, _, _, r1, .inr (by decide +kernel), by decide +kernel, by decide +kernel, by decide +kernel⟩

end PyFLP
