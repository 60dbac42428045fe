import Verif.Props.Trees
/-!
# Properties of view creation (C26 – C31)
-/

namespace PyFLP

open Spec Heap

/-! ### What a view-producing call does to the trees -/

theorem yieldViews_raw {t : Nat} (els : List (List Nat)) (h : Heap) (ht : t < h.trees.length) :
    let h' := (h.yieldViews t els).1
    (h.yieldViews t els).2 = (List.range els.length).map (h.trees.length + ·) ∧ h'.cells = h.cells ∧
      h'.trees.length = h.trees.length + els.length ∧
      (∀ i (hi : i < els.length), h'.lst (h.trees.length + i) = h.sortCells els[i] ∧
        h'.parent (h.trees.length + i) = some t) ∧
      (∀ u, u < h.trees.length → h'.lst u = h.lst u ∧ h'.parent u = h.parent u) ∧
      (h'.tree t).children =
        (h.tree t).children ++ ((List.range els.length).map (h.trees.length + ·)).flatMap fun v => [v, v] := by
  induction els generalizing h with
  | nil => exact ⟨rfl, rfl, rfl, (fun i hi => by cases hi), fun _ _ => ⟨rfl, rfl⟩, by simp [yieldViews]⟩
  | cons el els ih =>
    have htree := tree_newTree (h := h) (t := t) (el := el)
    generalize hh1 : (h.newTree (some t) el).1 = h1 at htree
    have n1 : (h.newTree (some t) el).2 = h.trees.length := rfl
    have n2 : h1.cells = h.cells := by rw [← hh1]; rfl
    have n3 : h1.trees.length = h.trees.length + 1 := by
      rw [← hh1]
      show ((h.addChild t h.trees.length).trees ++ [_]).length = _
      simp [addChild]
    have n4 : h1.lst h.trees.length = h.sortCells el := by rw [lst, htree, if_pos rfl]
    have n4' : h1.parent h.trees.length = some t := by rw [parent, htree, if_pos rfl]
    have n5 : ∀ u, u ≠ h.trees.length → h1.lst u = h.lst u ∧ h1.parent u = h.parent u := by
      intro u hu
      constructor
      · rw [lst, htree, if_neg hu]; exact lst_addChild ..
      · rw [parent, htree, if_neg hu]; exact parent_addChild ..
    have n6 : (h1.tree t).children = (h.tree t).children ++ [h.trees.length] := by
      rw [htree, if_neg (by omega), tree_addChild, if_pos ⟨rfl, ht⟩]
    have hsc : ∀ el, (h1.addChild t h.trees.length).sortCells el = h.sortCells el := by
      intro el
      have hr : ∀ a, (h1.addChild t h.trees.length).r a = h.r a := fun a => by
        show (h1.cells.getD a default).r = _
        rw [n2]; rfl
      unfold sortCells
      simp only [hr]
    have i := ih (h1.addChild t h.trees.length) (by rw [tlen_addChild]; omega)
    simp only [tlen_addChild, lst_addChild, parent_addChild, n3, hsc] at i
    obtain ⟨i1, i2, i3, i4, i5, i6⟩ := i
    have e1 : h.yieldViews t (el :: els) =
        (((h1.addChild t h.trees.length).yieldViews t els).1,
          h.trees.length :: ((h1.addChild t h.trees.length).yieldViews t els).2) := by
      rw [yieldViews]
      rw [← hh1, ← n1]
    have hrange : (List.range (el :: els).length).map (h.trees.length + ·) =
        h.trees.length :: (List.range els.length).map (h.trees.length + 1 + ·) := by
      rw [List.length_cons, List.range_succ_eq_map, List.map_cons, List.map_map, Nat.add_zero]
      congr 1
      apply List.map_congr_left
      intro a _
      simp; omega
    rw [e1, hrange]
    dsimp only
    refine ⟨by rw [i1], i2.trans n2, by rw [i3, List.length_cons]; omega, ?_, ?_, ?_⟩
    · intro j hj
      cases j with
      | zero =>
        obtain ⟨j1, j2⟩ := i5 h.trees.length (by omega)
        exact ⟨by rw [Nat.add_zero, j1, n4]; rfl, by rw [Nat.add_zero, j2, n4']⟩
      | succ j =>
        have := i4 j (by simpa using hj)
        rw [show h.trees.length + (j + 1) = h.trees.length + 1 + j by omega]
        simpa using this
    · intro u hu
      obtain ⟨j1, j2⟩ := i5 u (by omega)
      obtain ⟨k1, k2⟩ := n5 u (by omega)
      exact ⟨j1.trans k1, j2.trans k2⟩
    · rw [i6, tree_addChild, if_pos ⟨rfl, by omega⟩, List.flatMap_cons]
      show (h1.tree t).children ++ [h.trees.length] ++ _ = _
      rw [n6]
      simp

/-- What the views of a call show. -/
theorem view_shown {h : Heap} {t : Nat} (ht : t < h.trees.length) (call : ViewCall) :
    (view h t call).2.map (shown (view h t call).1) =
      (ViewCall.lists h t call).map fun el =>
        (h.sortCells el).map fun a => ((h.cell a).ref, (h.cell a).id) := by
  rw [view_eq]
  obtain ⟨y1, y2, y3, y4, y5, y6⟩ := yieldViews_raw (ViewCall.lists h t call) h ht
  rw [y1, List.map_map]
  apply List.ext_getElem
  · simp
  · intro i i1 i2
    have hi : i < (ViewCall.lists h t call).length := by simpa using i2
    simp only [List.getElem_map, List.getElem_range, Function.comp, shown, (y4 i hi).1]
    exact List.map_congr_left fun a _ => by unfold Heap.cell; rw [y2]

/-- The same without sorting, where it changes nothing. -/
theorem view_shown' {h : Heap} {L : Nat → Prop} (r : Reach h L) {t : Nat} (ht : L t) (call : ViewCall)
    (hs : ∀ el ∈ ViewCall.lists h t call, el.Sublist (h.lst t)) :
    (view h t call).2.map (shown (view h t call).1) =
      (ViewCall.lists h t call).map (fun el => el.map fun a => ((h.cell a).ref, (h.cell a).id)) := by
  obtain ⟨g, _⟩ := reach_good r
  rw [view_shown (g.lt t ht)]
  exact List.map_congr_left fun el hel => by rw [sortCells_sorted ((g.sorted ht).sub (hs el hel))]

/-! ### C26 -/

/-- C26. `divide(separator, *ids)` cuts the tree's events into consecutive segments,
before every separator but the first, and yields one view per segment showing its
events whose id is in `ids`.  So the views together show every such event once, in
order; there are as many views as separators (at least one), and every segment
after the first starts at a separator. -/
theorem C26_divide {h : Heap} {L : Nat → Prop} (r : Reach h L) {t : Nat} (ht : L t) (sep : Nat) (ids : List Nat) :
    let views := (h.divide t sep ids).2.map (shown (h.divide t sep ids).1)
    views.flatten = (shown h t).filter (fun e => decide (e.2 ∈ ids)) ∧
    views.length = max 1 ((shown h t).filter fun e => decide (e.2 = sep)).length ∧
    ∃ segs : List (List Ev), segs.flatten = shown h t ∧
      views = segs.map (fun s => s.filter fun e => decide (e.2 ∈ ids)) ∧
      (∀ s ∈ segs.tail, ∃ e rest, s = e :: rest ∧ e.2 = sep ∧ ∀ x ∈ rest, x.2 ≠ sep) := by
  have hv := view_shown' r ht (.divide sep ids) (fun el hel => divideLoop_sublist hel)
  obtain ⟨s0, segs, h1, h2, h3, _, h5⟩ := divideLoop_spec h.idOf sep ids (h.lst t) [] true
  let f : Nat → Ev := fun a => ((h.cell a).ref, (h.cell a).id)
  have hviews : (h.divide t sep ids).2.map (shown (h.divide t sep ids).1) =
      (s0 :: segs).map (fun s => (s.map f).filter fun e => decide (e.2 ∈ ids)) := by
    refine hv.trans ?_
    show (divideLoop h.idOf sep ids (h.lst t) [] true).map _ = _
    have hseg : ∀ s : List Nat, (s.filter fun a => decide (h.idOf a ∈ ids)).map f =
        (s.map f).filter fun e => decide (e.2 ∈ ids) := fun s => by rw [List.filter_map]; rfl
    rw [h2, List.nil_append, List.map_cons, List.map_map, List.map_cons]
    congr 1
    · exact hseg s0
    · exact List.map_congr_left fun s _ => hseg s
  have hflat : ((s0 :: segs).map fun s => s.map f).flatten = shown h t := by
    rw [← List.map_flatten, List.flatten_cons, ← h1]; rfl
  have hflat' : ∀ p : Ev → Bool,
      ((s0 :: segs).map (fun s => (s.map f).filter p)).flatten = (shown h t).filter p := by
    intro p
    rw [← hflat, List.filter_flatten, List.map_map]
    rfl
  dsimp only
  rw [hviews]
  refine ⟨hflat' _, ?_, (s0 :: segs).map (fun s => s.map f), hflat, by rw [List.map_map]; rfl, ?_⟩
  · rw [← hflat' (fun e => decide (e.2 = sep))]
    have hone : ∀ s ∈ segs, ((s.map f).filter fun e => decide (e.2 = sep)).length = 1 := by
      intro s hs
      obtain ⟨a, tl, rfl, ha, htl⟩ := h3 s hs
      rw [List.map_cons, List.filter_cons, if_pos (decide_eq_true (show (f a).2 = sep from ha)),
        List.filter_eq_nil_iff.2 (by
          intro e he
          obtain ⟨b, hb, rfl⟩ := List.mem_map.1 he
          exact fun hc => htl b hb (of_decide_eq_true hc))]
      rfl
    have hsum : ((segs.map (fun s => (s.map f).filter fun e => decide (e.2 = sep))).flatten).length =
        segs.length := by
      clear h1 h2 h5 hviews hflat hflat' h3
      induction segs with
      | nil => rfl
      | cons s segs ih =>
        rw [List.map_cons, List.flatten_cons, List.length_append, hone s (by simp),
          ih (fun s hs => hone s (by simp [hs])), List.length_cons]
        omega
    simp only [List.map_cons, List.flatten_cons, List.length_append, hsum, List.length_cons, List.length_map]
    rcases h5 rfl with ⟨k1, k2⟩ | ⟨p, a, q, k1, k2, k3, k4⟩
    · rw [k2, List.filter_eq_nil_iff.2 (by
          intro e he
          obtain ⟨b, hb, rfl⟩ := List.mem_map.1 he
          exact fun hc => k1 b hb (of_decide_eq_true hc))]
      rfl
    · have : ((s0.map f).filter fun e => decide (e.2 = sep)).length = 1 := by
        rw [k1, List.map_append, List.map_cons, List.filter_append, List.filter_cons,
          if_pos (decide_eq_true (show (f a).2 = sep from k2)),
          List.filter_eq_nil_iff.2 (by
            intro e he
            obtain ⟨b, hb, rfl⟩ := List.mem_map.1 he
            exact fun hc => k3 b hb (of_decide_eq_true hc)),
          List.filter_eq_nil_iff.2 (by
            intro e he
            obtain ⟨b, hb, rfl⟩ := List.mem_map.1 he
            exact fun hc => k4 b hb (of_decide_eq_true hc))]
        rfl
      rw [this]
      omega
  · intro s hs
    rw [List.map_cons, List.tail_cons] at hs
    obtain ⟨s', hs', rfl⟩ := List.mem_map.1 hs
    obtain ⟨a, tl, rfl, ha, htl⟩ := h3 s' hs'
    refine ⟨f a, tl.map f, rfl, ha, fun x hx => ?_⟩
    obtain ⟨b, hb, rfl⟩ := List.mem_map.1 hx
    exact htl b hb

open TreeDemo in
/-- Channels, with an event before the first one. -/
example : Reach h0 (· = 0) ∧
    (h0.divide 0 203 [64, 203]).2.map (shown (h0.divide 0 203 [64, 203]).1) =
      [[(0, 64), (1, 203), (2, 64)], [(3, 203), (5, 64)]] :=
  ⟨reach0, by decide +kernel⟩

/-! ### C27 -/

namespace Spec

/-- The events with an answer other than `None`. -/
def kept (l : List (Ev × Option Bool)) : List Ev := (l.filter fun x => x.2.isSome).map Prod.fst

/-- The number of `False` answers. -/
def cuts (l : List (Ev × Option Bool)) : Nat := (l.filter fun x => x.2 = some false).length

end Spec

theorem cuts_append (l m : List (Ev × Option Bool)) : cuts (l ++ m) = cuts l + cuts m := by simp [cuts]

theorem cuts_zero {l : List (Ev × Option Bool)} (h : ∀ x ∈ l, x.2 ≠ some false) : cuts l = 0 := by
  unfold cuts
  rw [List.filter_eq_nil_iff.2 (fun x hx => by simpa using h x hx)]
  rfl

theorem cuts_segs {segs : List (List (Ev × Option Bool))}
    (h : ∀ s ∈ segs, ∃ a tl, s = (a, some false) :: tl ∧ ∀ y ∈ tl, y.2 ≠ some false) :
    cuts segs.flatten = segs.length := by
  induction segs with
  | nil => rfl
  | cons s segs ih =>
    obtain ⟨a, tl, rfl, htl⟩ := h s (by simp)
    rw [List.flatten_cons, cuts_append, ih (fun s hs => h s (by simp [hs]))]
    have : cuts ((a, some false) :: tl) = 1 + cuts tl := by simp [cuts]; omega
    rw [this, cuts_zero htl, List.length_cons]
    omega

/-- C27. `subtrees(select, repeat)`: one view per `False` answer, at most `repeat`
(a negative `repeat` means no limit).  Cut the events before every event answered
`False`; the views show, one after the other, the events of the segments that are
not answered `None`.  The segment after the last cut is not shown; every view after
the first starts with the event that closed the one before.  (`answers` are those of
the callback, which may keep a state.) -/
theorem C27_subtrees {h : Heap} {L : Nat → Prop} (r : Reach h L) {t : Nat} (ht : L t) {σ : Type}
    (select : σ → Nat → Option Bool × σ) (s : σ) (rep : Int) :
    let views := (h.subtrees t select s rep).2.map (shown (h.subtrees t select s rep).1)
    let answers : List (Ev × Option Bool) :=
      (runSelect select s (h.lst t)).map fun x => (((h.cell x.1).ref, (h.cell x.1).id), x.2)
    answers.map Prod.fst = shown h t ∧
    ((views.length : Int) = if rep < 0 then (cuts answers : Int) else min rep (cuts answers)) ∧
    (views = [] ∨ ∃ (first : List (Ev × Option Bool)) (segs : List (List (Ev × Option Bool))) (x : Ev)
        (rest : List (Ev × Option Bool)),
      answers = first ++ segs.flatten ++ (x, some false) :: rest ∧ cuts first = 0 ∧
      (∀ s ∈ segs, ∃ a tl, s = (a, some false) :: tl ∧ cuts tl = 0) ∧
      views = kept first :: segs.map kept) := by
  have hv := view_shown' r ht (.subtrees σ select s rep) (fun el hel => by
    have := subtreesLoop_sublist hel
    rwa [runSelect_fst] at this)
  dsimp only
  let f : Nat → Ev := fun a => ((h.cell a).ref, (h.cell a).id)
  let g : Nat × Option Bool → Ev × Option Bool := fun x => (f x.1, x.2)
  have hviews : (h.subtrees t select s rep).2.map (shown (h.subtrees t select s rep).1) =
      (subtreesLoop (runSelect select s (h.lst t)) [] rep).map fun el => el.map f := hv
  have hans : ((runSelect select s (h.lst t)).map g).map Prod.fst = shown h t := by
    rw [List.map_map]
    have : (Prod.fst ∘ g) = f ∘ Prod.fst := rfl
    rw [this, ← List.map_map, runSelect_fst]
    rfl
  have hkept : ∀ l, kept (l.map g) = (chosen l).map f := by
    intro l
    unfold kept chosen
    rw [List.filter_map, List.map_map, List.map_map]
    rfl
  have hc0 : ∀ l : List (Nat × Option Bool), (∀ y ∈ l, y.2 ≠ some false) → cuts (l.map g) = 0 := by
    intro l hl
    apply cuts_zero
    intro x hx
    obtain ⟨y, hy, rfl⟩ := List.mem_map.1 hx
    exact hl y hy
  refine ⟨hans, ?_, ?_⟩
  · rw [hviews, List.length_map]
    show _ = if rep < 0 then (cuts ((runSelect select s (h.lst t)).map g) : Int) else
      min rep (cuts ((runSelect select s (h.lst t)).map g))
    rcases subtreesLoop_spec (runSelect select s (h.lst t)) [] rep with
      ⟨h1, h2⟩ | ⟨s0, segs, x, rest, h1, h2, h3, h4, h5⟩
    · rw [h1]
      rcases h2 with h2 | h2
      · subst h2; simp; omega
      · rw [hc0 _ h2]; simp; omega
    · rw [h2]
      have hcut : cuts ((runSelect select s (h.lst t)).map g) = segs.length + 1 + cuts (rest.map g) := by
        have hsegs : cuts ((segs.map (List.map g)).flatten) = segs.length := by
          rw [cuts_segs, List.length_map]
          intro s hs
          obtain ⟨s', hs', rfl⟩ := List.mem_map.1 hs
          obtain ⟨a, tl, rfl, htl⟩ := h4 s' hs'
          refine ⟨f a, tl.map g, rfl, fun y hy => ?_⟩
          obtain ⟨z, hz, rfl⟩ := List.mem_map.1 hy
          exact htl z hz
        have hcons : cuts ((f x, some false) :: rest.map g) = 1 + cuts (rest.map g) := by
          simp [cuts]; omega
        rw [h1, List.map_append, List.map_append, cuts_append, cuts_append, hc0 _ h3, List.map_flatten,
          hsegs, List.map_cons]
        show 0 + segs.length + cuts ((f x, some false) :: rest.map g) = _
        rw [hcons]; omega
      rw [hcut]
      have hl : ((([] ++ chosen s0) :: segs.map chosen).length : Int) = segs.length + 1 := by simp
      rw [hl]
      rcases h5 with h5 | h5
      · rw [if_neg (by omega)]; omega
      · rw [hc0 _ h5]
        by_cases hneg : rep < 0
        · rw [if_pos hneg]; omega
        · rw [if_neg hneg]
          -- the number of views never exceeds `repeat`
          have hle : ∀ (l : List (Nat × Option Bool)) (el : List Nat) (rep : Int), 0 ≤ rep →
              ((subtreesLoop l el rep).length : Int) ≤ rep := by
            intro l
            induction l with
            | nil => intro el rep hr; simpa [subtreesLoop] using hr
            | cons y l ih =>
              intro el rep hr
              obtain ⟨a, ans⟩ := y
              unfold subtreesLoop
              split
              · simpa using hr
              · match ans with
                | some false =>
                  have := ih [a] (rep - 1) (by omega)
                  simp only [List.length_cons]; omega
                | some true => exact ih _ rep hr
                | none => exact ih _ rep hr
          have := hle (runSelect select s (h.lst t)) [] rep (by omega)
          rw [h2, hl] at this
          omega
  · rw [hviews]
    rcases subtreesLoop_spec (runSelect select s (h.lst t)) [] rep with
      ⟨h1, h2⟩ | ⟨s0, segs, x, rest, h1, h2, h3, h4, h5⟩
    · left; rw [h1]; rfl
    · right
      refine ⟨s0.map g, segs.map (List.map g), f x, rest.map g, ?_, hc0 _ h3, ?_, ?_⟩
      · show (runSelect select s (h.lst t)).map g = _
        rw [h1, List.map_append, List.map_append, List.map_flatten]
        rfl
      · intro s hs
        obtain ⟨s', hs', rfl⟩ := List.mem_map.1 hs
        obtain ⟨a, tl, rfl, htl⟩ := h4 s' hs'
        exact ⟨f a, tl.map g, rfl, hc0 _ htl⟩
      · rw [h2, List.map_cons, List.map_map, List.map_map, hkept, List.nil_append]
        congr 1
        exact List.map_congr_left fun l _ => (hkept l).symm

open TreeDemo in
/-- Cut at every name, skip the routing event: the last name is not shown. -/
example : Reach h0 (· = 0) ∧
    (h0.subtrees 0 (fun (_ : Unit) a => ((if a = 4 then none else if a = 1 ∨ a = 3 then some false
      else some true), ())) () (-1)).2.map
      (shown (h0.subtrees 0 (fun (_ : Unit) a => ((if a = 4 then none else if a = 1 ∨ a = 3 then some false
        else some true), ())) () (-1)).1) =
      [[(0, 64)], [(1, 203), (2, 64)]] :=
  ⟨reach0, by decide +kernel⟩

/-! ### C28 -/

theorem maxD_spec (l : List Nat) : (∀ x ∈ l, x ≤ l.max?.getD 0) ∧ (l = [] ∨ l.max?.getD 0 ∈ l) := by
  cases hm : l.max? with
  | none =>
    have : l = [] := List.max?_eq_none_iff.1 hm
    subst this
    exact ⟨by simp, .inl rfl⟩
  | some m =>
    have h1 := List.max?_eq_some_iff.1 hm
    exact ⟨fun x hx => h1.2 x hx, .inr h1.1⟩

/-- C28. `group(*ids)` yields as many views as the most frequent id occurs, and the
`k`-th view shows exactly the `k`-th event of every id that has one. -/
theorem C28_group {h : Heap} {L : Nat → Prop} (r : Reach h L) {t : Nat} (ht : L t) (ids : List Nat)
    (distinct : ids.Nodup) :
    let views := (h.group t ids).2.map (shown (h.group t ids).1)
    let occ : Nat → List Ev := fun id => (shown h t).filter fun e => decide (e.2 = id)
    (∀ id ∈ ids, (occ id).length ≤ views.length) ∧
    (views = [] ∨ ∃ id ∈ ids, (occ id).length = views.length) ∧
    ∀ (k : Nat) (v : List Ev), views[k]? = some v → ∀ e, e ∈ v ↔ ∃ id ∈ ids, (occ id)[k]? = some e := by
  obtain ⟨g, _⟩ := reach_good r
  dsimp only
  let f : Nat → Ev := fun a => ((h.cell a).ref, (h.cell a).id)
  have hviews : (h.group t ids).2.map (shown (h.group t ids).1) =
      (groupLists h.idOf (h.lst t) ids).map fun el => (h.sortCells el).map f :=
    view_shown (g.lt t ht) (.group ids distinct)
  have hocc : ∀ id, (shown h t).filter (fun e => decide (e.2 = id)) =
      ((h.lst t).filter fun a => decide (h.idOf a = id)).map f := by
    intro id
    show ((h.lst t).map f).filter _ = _
    rw [List.filter_map]
    rfl
  have hlen : (groupLists h.idOf (h.lst t) ids).length =
      ((ids.map fun i => (h.lst t).filter fun a => decide (h.idOf a = i)).map List.length).max?.getD 0 := by
    unfold groupLists
    exact zipLongest_length _ _
  obtain ⟨m1, m2⟩ := maxD_spec
    ((ids.map fun i => (h.lst t).filter fun a => decide (h.idOf a = i)).map List.length)
  rw [hviews]
  refine ⟨?_, ?_, ?_⟩
  · intro id hid
    rw [hocc, List.length_map, List.length_map, hlen]
    exact m1 _ (List.mem_map.2 ⟨_, List.mem_map.2 ⟨id, hid, rfl⟩, rfl⟩)
  · rcases m2 with m2 | m2
    · left
      have : (groupLists h.idOf (h.lst t) ids).length = 0 := by rw [hlen, m2]; rfl
      rw [List.length_eq_zero_iff.1 this]; rfl
    · right
      obtain ⟨x, hx, he⟩ := List.mem_map.1 m2
      obtain ⟨id, hid, rfl⟩ := List.mem_map.1 hx
      exact ⟨id, hid, by rw [hocc, List.length_map, List.length_map, hlen]; exact he⟩
  · intro k v hk e
    rw [List.getElem?_map, groupLists_get] at hk
    split at hk
    · simp only [Option.map_some, Option.some.injEq] at hk
      subst hk
      have hp := sortBy_perm (fun a b => decide (h.r a ≤ h.r b))
        (ids.filterMap fun i => ((h.lst t).filter fun a => decide (h.idOf a = i))[k]?)
      constructor
      · intro he
        obtain ⟨a, ha, rfl⟩ := List.mem_map.1 he
        obtain ⟨id, hid, hget⟩ := List.mem_filterMap.1 (hp.mem_iff.1 ha)
        refine ⟨id, hid, ?_⟩
        rw [hocc, List.getElem?_map, hget]
        rfl
      · rintro ⟨id, hid, hget⟩
        rw [hocc, List.getElem?_map] at hget
        cases hg : ((h.lst t).filter fun a => decide (h.idOf a = id))[k]? with
        | none => rw [hg] at hget; cases hget
        | some a =>
          rw [hg] at hget
          injection hget with hget
          subst hget
          exact List.mem_map.2 ⟨a, hp.mem_iff.2 (List.mem_filterMap.2 ⟨id, hid, hg⟩), rfl⟩
    · cases hk

open TreeDemo in
example : Reach h0 (· = 0) ∧ [203, 64].Nodup ∧
    (h0.group 0 [203, 64]).2.map (shown (h0.group 0 [203, 64]).1) =
      [[(0, 64), (1, 203)], [(2, 64), (3, 203)], [(5, 64)]] :=
  ⟨reach0, by decide, by decide +kernel⟩

/-! ### C29 -/

/-- C29. Every view created from a tree, in any way, shows some of the tree's events,
in the tree's order, each at most once. -/
theorem C29_views_are_selections {h : Heap} {L : Nat → Prop} (r : Reach h L) {t : Nat} (ht : L t) (call : ViewCall) :
    ∀ v ∈ (view h t call).2, (shown (view h t call).1 v).Sublist (shown h t) ∧
      ((shown (view h t call).1 v).map Prod.fst).Nodup := by
  obtain ⟨g, hn⟩ := reach_good r
  have hv := view_shown (g.lt t ht) call
  intro v hm
  have : shown (view h t call).1 v ∈ (view h t call).2.map (shown (view h t call).1) :=
    List.mem_map.2 ⟨v, hm, rfl⟩
  rw [hv] at this
  obtain ⟨el, hel, he⟩ := List.mem_map.1 this
  have hs : (shown (view h t call).1 v).Sublist (shown h t) := by
    rw [← he]; exact (view_sublist (g.sorted ht) call el hel).map _
  refine ⟨hs, hn.sublist ((hs.trans ?_).map _)⟩
  exact (g.sub t ht).map _

open TreeDemo in
example : Reach h1 (fun u => u ≤ 3) ∧ (view h1 2 names).2 = [4] := ⟨reach1, views2⟩

/-! ### C30 -/

/-- C30 is false: every view of every tree is registered twice with its parent. -/
theorem C30_registered_once_refuted {h : Heap} {t : Nat} (ht : t < h.trees.length) (call : ViewCall) :
    ((view h t call).1.tree t).children =
      (h.tree t).children ++ (view h t call).2.flatMap fun v => [v, v] := by
  rw [view_eq]
  obtain ⟨y1, y2, y3, y4, y5, y6⟩ := yieldViews_raw (ViewCall.lists h t call) h ht
  rw [y6, y1]

open TreeDemo in
/-- The three channel views are listed twice each. -/
example : (0 : Nat) < h0.trees.length ∧ (h1.tree 0).children = [1, 1, 2, 2, 3, 3] :=
  ⟨by decide +kernel, by decide +kernel⟩

/-! ### C31 -/

namespace Spec

/-- `u` is reached from `t` by following `parent` to the end. -/
inductive Topmost (h : Heap) : Nat → Nat → Prop
  | top {t} (hp : h.parent t = none) : Topmost h t t
  | up {t p u} (hp : h.parent t = some p) (ht : Topmost h p u) : Topmost h t u

end Spec

theorem topmost_last {h : Heap} {t u : Nat} (before : ∀ t p, h.parent t = some p → p < t) (ht : Topmost h t u) :
    ∀ n, t ≤ n → ((ancestorsUpTo h n t).getLast?).getD t = u := by
  induction ht with
  | top hp =>
    intro n _
    cases n with
    | zero => rfl
    | succ n => rw [ancestorsUpTo, hp]; rfl
  | @up t p u hp _ ih =>
    intro n hn
    have hlt := before t p hp
    cases n with
    | zero => omega
    | succ n =>
      rw [ancestorsUpTo, hp]
      dsimp only
      rw [List.getLast?_cons]
      have := ih n (by omega)
      simpa using this

theorem topmost_congr {h h' : Heap} {n t u : Nat} (before : ∀ t p, h.parent t = some p → p < t)
    (hp : ∀ w, w < n → h'.parent w = h.parent w) (top : Topmost h t u) (ht : t < n) : Topmost h' t u := by
  induction top with
  | top hn => exact .top (by rw [hp _ ht]; exact hn)
  | up hs _ ih => exact .up (by rw [hp _ ht]; exact hs) (ih (Nat.lt_trans (before _ _ hs) ht))

theorem yieldViews_root {t : Nat} (els : List (List Nat)) (h : Heap) (ht : t < h.trees.length) {u : Nat}
    (hu : u < h.trees.length) (before : ∀ t p, h.parent t = some p → p < t) (top : Topmost h t u) :
    ∀ v ∈ (h.yieldViews t els).2, (h.yieldViews t els).1.root v = if h.lst u = [] then v else u := by
  induction els generalizing h with
  | nil => intro v hv; cases hv
  | cons el els ih =>
    have htree := tree_newTree (h := h) (t := t) (el := el)
    generalize hh1 : (h.newTree (some t) el).1 = h1 at htree
    have n3 : h1.trees.length = h.trees.length + 1 := by
      rw [← hh1]
      show ((h.addChild t h.trees.length).trees ++ [_]).length = _
      simp [addChild]
    have hlast : ((h.ancestors t).getLast?).getD t = u := topmost_last before top t (Nat.le_refl _)
    have hroot : h1.root h.trees.length = if h.lst u = [] then h.trees.length else u := by
      rw [root, htree, if_pos rfl, hlast]
      cases h.lst u <;> simp
    have hpar : ∀ w, w ≠ h.trees.length → h1.parent w = h.parent w := fun w hw => by
      rw [parent, htree, if_neg hw]; exact parent_addChild ..
    have hparn : h1.parent h.trees.length = some t := by rw [parent, htree, if_pos rfl]
    have e1 : h.yieldViews t (el :: els) =
        (((h1.addChild t h.trees.length).yieldViews t els).1,
          h.trees.length :: ((h1.addChild t h.trees.length).yieldViews t els).2) := by
      rw [yieldViews]
      rw [← hh1]
      rfl
    have before' : ∀ t' p, (h1.addChild t h.trees.length).parent t' = some p → p < t' := by
      intro t' p hp
      rw [parent_addChild] at hp
      by_cases e : t' = h.trees.length
      · subst e; rw [hparn] at hp; cases hp; exact ht
      · rw [hpar t' e] at hp; exact before t' p hp
    have htop : Topmost (h1.addChild t h.trees.length) t u :=
      topmost_congr before (fun w hw => by rw [parent_addChild, hpar w (by omega)]) top ht
    have i := ih (h1.addChild t h.trees.length) (by rw [tlen_addChild]; omega) (by rw [tlen_addChild]; omega)
      before' htop
    have hlu : (h1.addChild t h.trees.length).lst u = h.lst u := by
      rw [lst_addChild, lst, htree, if_neg (by omega)]
      exact lst_addChild ..
    rw [hlu] at i
    rw [e1]
    intro v hv
    rcases List.mem_cons.1 hv with rfl | hv
    · -- later views do not touch the root of earlier ones
      have keep : ∀ (els : List (List Nat)) (h : Heap) (w : Nat), w < h.trees.length →
          (h.yieldViews t els).1.root w = h.root w := by
        intro els
        induction els with
        | nil => intro h w _; rfl
        | cons el els ih3 =>
          intro h w hw
          have htree' := tree_newTree (h := h) (t := t) (el := el)
          have n3' : (h.newTree (some t) el).1.trees.length = h.trees.length + 1 := by
            show ((h.addChild t h.trees.length).trees ++ [_]).length = _
            simp [addChild]
          have e1' : (h.yieldViews t (el :: els)).1 =
              (((h.newTree (some t) el).1.addChild t h.trees.length).yieldViews t els).1 := rfl
          rw [e1', ih3 _ w (by rw [tlen_addChild]; omega), root_addChild, root, htree', if_neg (by omega)]
          exact root_addChild ..
      show ((h1.addChild t h.trees.length).yieldViews t els).1.root h.trees.length = _
      rw [keep _ _ _ (by rw [tlen_addChild]; omega), root_addChild]
      exact hroot
    · exact i v hv

/-- C31 for topmost trees that have events: `root` of every new view is the topmost
tree above it.  Missing: an empty topmost tree, where the property fails. -/
theorem C31_root_partial {h : Heap} {t u : Nat} (ht : t < h.trees.length) (hu : u < h.trees.length)
    (before : ∀ t p, h.parent t = some p → p < t) (top : Topmost h t u) (hne : shown h u ≠ []) (call : ViewCall) :
    ∀ v ∈ (view h t call).2, (view h t call).1.root v = u := by
  rw [view_eq]
  intro v hv
  rw [yieldViews_root _ h ht hu before top v hv, if_neg fun e => hne ((isEmpty_shown h u).2 e)]

/-- C31, for every tree and call: `root` of a new view is the topmost tree above it if that has events, and otherwise the view itself. -/
theorem C31_exact {h : Heap} {t u : Nat} (ht : t < h.trees.length) (hu : u < h.trees.length)
    (before : ∀ t p, h.parent t = some p → p < t) (top : Topmost h t u) (call : ViewCall) :
    ∀ v ∈ (view h t call).2, (view h t call).1.root v = if shown h u = [] then v else u := by
  rw [view_eq]
  intro v hv
  rw [yieldViews_root _ h ht hu before top v hv]
  by_cases e : h.lst u = []
  · rw [if_pos e, if_pos ((isEmpty_shown h u).2 e)]
  · rw [if_neg e, if_neg fun e' => e ((isEmpty_shown h u).1 e')]

open TreeDemo in
example : (2 : Nat) < h1.trees.length ∧ (0 : Nat) < h1.trees.length ∧ Topmost h1 2 0 ∧ shown h1 0 ≠ [] ∧
    ∀ t p, h1.parent t = some p → p < t := by
  refine ⟨by decide +kernel, by decide +kernel, .up (p := 0) (by decide +kernel) (.top (by decide +kernel)),
    by decide +kernel, fun t p hp => ?_⟩
  have hl : h1.trees.length = 4 := by decide +kernel
  have hall : ∀ t < 4, ∀ p, h1.parent t = some p → p < t := by
    intro t ht p hp
    have : ∀ t < 4, ∀ p ∈ (h1.parent t).toList, p < t := by decide +kernel
    exact this t ht p (by rw [hp]; simp)
  by_cases e : t < 4
  · exact hall t e p hp
  · have hnone : h1.parent t = none := by
      unfold Heap.parent Heap.tree
      rw [List.getD_eq_getElem?_getD, List.getElem?_eq_none (by omega)]
      rfl
    rw [hnone] at hp; cases hp

/-- C31 is false for an empty topmost tree: its views are their own root. -/
theorem C31_root_refuted :
    ∃ (h : Heap) (v : Nat), (view (ofEvents []) 0 (.subtree fun _ => true)) = (h, [v]) ∧
      Topmost h v 0 ∧ h.root v = v ∧ v ≠ 0 := by
  refine ⟨(view (ofEvents []) 0 (.subtree fun _ => true)).1, 1, pair_eq (by decide +kernel), ?_,
    by decide +kernel, by decide⟩
  exact .up (p := 0) (by decide +kernel) (.top (by decide +kernel))

end PyFLP
