import Verif.Props.Trees

/-!
# What happens in every case: removing an event twice

C23 is false (`C23_double_removal_refuted`).  This file says exactly what the second
removal does, in every state: which exception it raises or which other event of the
project it deletes.
-/

namespace PyFLP

open Heap Spec

/-! ### Removal from a sorted list whose elements moved -/

/-- `SortedList.remove` takes the first element with that position. -/
theorem removeSorted_first {h : Heap} {l p q : List Nat} {a b : Nat} (hl : l = p ++ b :: q)
    (hp : ∀ c ∈ p, h.r c < h.r a) (hb : h.r b = h.r a) : h.removeSorted l a = .ok (p ++ q) := by
  subst hl
  have ht : ((p ++ b :: q).takeWhile fun c => decide (h.r c < h.r a)) = p := by
    rw [List.takeWhile_append_of_pos (fun c hc => by simpa using hp c hc), List.takeWhile_cons,
      if_neg (by rw [hb]; simp)]
    simp
  unfold removeSorted
  rw [ht]
  simp only [List.getElem?_append_right (Nat.le_refl p.length), Nat.sub_self, List.getElem?_cons_zero]
  rw [if_pos hb, List.eraseIdx_append_of_length_le (Nat.le_refl _), Nat.sub_self, List.eraseIdx_cons_zero]

/-- `SortedList.remove` raises if no element has that position. -/
theorem removeSorted_none {h : Heap} {l : List Nat} {a : Nat} (hn : ∀ b ∈ l, h.r b ≠ h.r a) :
    h.removeSorted l a = .error .valueError := by
  unfold removeSorted
  dsimp only
  cases e : l[(l.takeWhile fun b => decide (h.r b < h.r a)).length]? with
  | none => rfl
  | some b =>
    dsimp only
    rw [if_neg (hn b (List.mem_of_getElem? e))]

/-- Removal from several trees, in each of which some element has that position. -/
theorem removeAll_first (a : Nat) (f : Nat → List Nat) (ts : List Nat) (h : Heap) (hn : ts.Nodup)
    (hok : ∀ u ∈ ts, u < h.trees.length ∧ ∃ p b q, h.lst u = p ++ b :: q ∧ (∀ c ∈ p, h.r c < h.r a) ∧
      h.r b = h.r a ∧ f u = p ++ q) :
    ∃ h1, h1.cells = h.cells ∧ SameShape h h1 ∧
      (∀ u, h1.lst u = if u ∈ ts then f u else h.lst u) ∧
      ∀ more, h.removeAll a (ts ++ more) = h1.removeAll a more := by
  induction ts generalizing h with
  | nil => exact ⟨h, rfl, ⟨fun _ => rfl, fun _ => rfl, rfl⟩, fun u => by simp, fun _ => rfl⟩
  | cons t ts ih =>
    rw [List.nodup_cons] at hn
    obtain ⟨h1, p, b, q, k1, k2, k3, k4⟩ := hok t (by simp)
    have hrem := removeSorted_first k1 k2 k3
    obtain ⟨h', e2, ⟨s1, s2, s3⟩, e4, e1⟩ := ih (h.setLst t (p ++ q)) hn.2 (by
      intro u hu
      obtain ⟨j1, j2⟩ := hok u (by simp [hu])
      have hne : u ≠ t := fun e => hn.1 (e ▸ hu)
      rw [tlen_setLst, lst_setLst, if_neg (fun e => hne e.1)]
      exact ⟨j1, j2⟩)
    refine ⟨h', e2, ⟨fun u => (s1 u).trans (parent_setLst ..), fun u => (s2 u).trans (root_setLst ..),
      s3.trans (tlen_setLst ..)⟩, fun u => ?_, fun more => ?_⟩
    · rw [e4, lst_setLst]
      by_cases hu : u = t
      · subst hu
        simp [hn.1, h1, k4]
      · simp [hu]
    · rw [← e1 more]
      show removeAll h a (t :: (ts ++ more)) = _
      rw [removeAll, hrem]

/-- The position record of the removed event keeps its position. -/
theorem pop_keeps_r {h h' : Heap} {ρ : Nat} {V : Nat → Prop} (g : Good h ρ V) {t : Nat} (ht : V t) {id : Nat}
    {pos : Int} {ie x : Nat} (hie : pyIndex ((h.lst t).filter fun a => (h.cell a).id == id) pos = some ie)
    (hp : h.pop t id pos = (h', .ok x)) : h'.r ie = h.r ie := by
  have hm := pyIndex_mem hie
  rw [List.mem_filter] at hm
  obtain ⟨hm, hid⟩ := hm
  obtain ⟨c1, c2, c3⟩ := g.chain_facts t ht
  have hany : (h.lst t).any (fun a => (h.cell a).id == id) = true := List.any_eq_true.2 ⟨ie, hm, hid⟩
  obtain ⟨h1, e1, e2, ss, e4⟩ := removeAll_spec ie (t :: h.ancestors t) h c3 (fun u hu => by
    obtain ⟨k1, k2, k3⟩ := c2 u hu
    exact ⟨g.lt u k1, k3.mem hm, g.sorted k1⟩)
  have hcell : ∀ a, h1.cell a = h.cell a := fun a => by unfold cell; rw [e2]
  have hr1 : ∀ a, h1.r a = h.r a := fun a => by unfold r; rw [hcell]
  have hroot1 : h1.root t = ρ := (ss.root t).trans (g.rootV t ht)
  have hρ : h1.lst ρ = (h.lst ρ).filter (· ≠ ie) := by rw [e4, if_pos c1]
  have hnod : (h1.lst ρ).Nodup := by rw [hρ]; exact g.sortedρ.nodup.sublist List.filter_sublist
  have hcl : ∀ a ∈ h1.lst ρ, a < h1.cells.length := fun a ha => by
    rw [hρ, List.mem_filter] at ha
    rw [e2]; exact g.inCells a ha.1
  have hnot : ie ∉ h1.lst ρ := by rw [hρ]; simp
  obtain ⟨d1, d2, d3⟩ := shiftDown_spec (h1.lst ρ) ie h1 hnod hcl hnot
  unfold pop at hp
  rw [if_pos hany, hie] at hp
  dsimp only at hp
  rw [e1] at hp
  dsimp only at hp
  rw [hroot1] at hp
  injection hp with hp _
  rw [← hp, d3, if_neg (fun e => hnot e.1), hr1]

/-- Which position record a successful removal picked. -/
theorem pop_picked {h h' : Heap} {t id : Nat} {n : Int} {x : Nat} (hp : h.pop t id n = (h', .ok x)) :
    ∃ ie, pyIndex ((h.lst t).filter fun a => (h.cell a).id == id) n = some ie := by
  unfold pop at hp
  split at hp
  · split at hp
    · cases hp
    · rename_i ie he
      exact ⟨ie, he⟩
  · cases hp

/-- The trees above a tree of the chain are in the chain. -/
theorem chain_closed {h : Heap} {L : Nat → Prop} (g : Good h 0 L) {u : Nat} : ∀ t, L t → u ∈ t :: h.ancestors t →
    ∀ w ∈ u :: h.ancestors u, w ∈ t :: h.ancestors t := by
  intro t
  induction t using Nat.strongRecOn with
  | ind t ih =>
    intro ht hu w hw
    rcases List.mem_cons.1 hu with rfl | hu
    · exact hw
    · by_cases e : t = 0
      · subst e; rw [ancestors_none g.parρ] at hu; cases hu
      · obtain ⟨p, p1, p2, p3, _⟩ := g.up t ht e
        rw [ancestors_some g p3 p1 p2] at hu ⊢
        exact List.mem_cons_of_mem _ (ih p p2 p3 hu w hw)

/-- The rest of a chain is the chain of its first tree. -/
theorem chain_rest {h : Heap} {L : Nat → Prop} (g : Good h 0 L) {c : Nat} {up : List Nat} : ∀ (front : List Nat) (t : Nat),
    L t → t :: h.ancestors t = front ++ c :: up → up = h.ancestors c := by
  intro front
  induction front with
  | nil =>
    intro t _ e
    rw [List.nil_append] at e
    injection e with e1 e2
    rw [← e1, ← e2]
  | cons a front ih =>
    intro t ht e
    rw [List.cons_append] at e
    injection e with e1 e2
    by_cases h0 : t = 0
    · subst h0
      rw [ancestors_none g.parρ] at e2
      cases front <;> cases e2
    · obtain ⟨p, p1, p2, p3, _⟩ := g.up t ht h0
      rw [ancestors_some g p3 p1 p2] at e2
      exact ih p p3 e2

theorem nodup_map_inj {α β : Type} {f : α → β} {l : List α} (hn : (l.map f).Nodup) {a b : α} (ha : a ∈ l)
    (hb : b ∈ l) (e : f a = f b) : a = b := by
  rw [List.Nodup, List.pairwise_map] at hn
  obtain ⟨i, hi, rfl⟩ := List.getElem_of_mem ha
  obtain ⟨j, hj, rfl⟩ := List.getElem_of_mem hb
  rw [List.pairwise_iff_getElem] at hn
  rcases Nat.lt_trichotomy i j with hij | hij | hij
  · exact absurd e (hn i j hi hj hij)
  · subst hij; rfl
  · exact absurd e.symm (hn j i hj hi hij)

theorem filter_ne_split {P Q : List Nat} {a : Nat} (hn : (P ++ a :: Q).Nodup) :
    (P ++ a :: Q).filter (fun b => decide (b ≠ a)) = P ++ Q := by
  rw [List.nodup_append] at hn
  obtain ⟨n1, n2, n3⟩ := hn
  rw [List.nodup_cons] at n2
  rw [List.filter_append, List.filter_cons,
    List.filter_eq_self.2 (fun x hx => by simpa using n3 x hx a (by simp)),
    List.filter_eq_self.2 (fun x hx => by
      have : x ≠ a := fun e => n2.1 (e ▸ hx)
      simpa using this)]
  simp

/-- C23, every case: an event `x` is removed through a view `t` and then removed
again through a view `w` that still lists it.  `c` is the lowest tree above `w` that is
`t` or above `t` (`stale` are the trees from `w` up to, not including, `c`; they still list
`x`).  If the event that follows `x` in the project is one of the events of `c`, the second
removal returns `x` again and deletes that other event from the project; otherwise it raises
`ValueError` and the project stays as the first removal left it.  Either way `w` no longer
lists `x`. -/
theorem C23_exact {h h1 : Heap} {L : Nat → Prop} (r : Reach h L) {t w : Nat} (ht : L t) (hw : L w) {id : Nat}
    {n : Int} {x : Nat} (hp : h.pop t id n = (h1, .ok x)) {stale up : List Nat} {c : Nat}
    (hch : w :: h.ancestors w = stale ++ c :: up) (hst : ∀ u ∈ stale, u ∉ t :: h.ancestors t)
    (hne : stale ≠ []) (hc : c ∈ t :: h.ancestors t) {n' : Int} {rest : List Ev}
    (hpick : plainPop (shown h w) id n' = .ok ((x, id), rest)) :
    ∃ pre post, shown h 0 = pre ++ (x, id) :: post ∧ shown h1 0 = pre ++ post ∧ shown h1 w = shown h w ∧
      ∃ h2, shown h2 w = rest ∧
        ((∃ y post', post = y :: post' ∧ y ∈ shown h c ∧ h1.pop w id n' = (h2, .ok x) ∧
            shown h2 0 = pre ++ post') ∨
         ((∀ y post', post = y :: post' → y ∉ shown h c) ∧ h1.pop w id n' = (h2, .error .valueError) ∧
            shown h2 0 = pre ++ post)) := by
  obtain ⟨g, hdist⟩ := reach_good r
  have hdist' : ((h.lst 0).map fun a => (h.cell a).ref).Nodup := by
    simpa [shown, Function.comp_def] using hdist
  -- the first removal
  obtain ⟨ie, hie⟩ := pop_picked hp
  have hr1 := pop_keeps_r g ht hie hp
  obtain ⟨h1', e1, e2, e3, sc, ss, el, g1⟩ := pop_good g ht id n hie
  rw [hp] at e1
  injection e1 with e1 e1'
  injection e1' with e1'
  subst e1
  obtain ⟨c1, c2, c3⟩ := g.chain_facts t ht
  have hie0 : ie ∈ h.lst 0 := (g.sub t ht).mem e2
  obtain ⟨P, Q, hPQ, _⟩ := takeWhile_lt g.sortedρ hie0
  have hnod := g.sortedρ.nodup
  have h10 : h1.lst 0 = P ++ Q := by
    rw [el, if_pos c1, hPQ]
    rw [hPQ] at hnod
    exact filter_ne_split hnod
  have hrie : h.r ie = P.length := by
    have := g.idx P.length (by rw [hPQ]; simp)
    simpa [hPQ] using this
  have hr1ie : h1.r ie = P.length := by rw [hr1, hrie]
  -- the trees above
  have hwmem : w ∈ stale := by
    cases stale with
    | nil => exact absurd rfl hne
    | cons a l =>
      injection hch with ha _
      simp [ha]
  have hw1 : h1.lst w = h.lst w := by rw [el, if_neg (hst w hwmem)]
  obtain ⟨d1, d2, d3⟩ := g.chain_facts w hw
  -- what the second removal picks
  obtain ⟨hx', ie', p1, p2, p3, _, p5, p6, _, p8, _⟩ := (pop_shown g hw id n').2 _ _ hpick
  obtain ⟨ie'', hie''⟩ := pop_picked p1
  obtain ⟨hx'', q1, q2, q3, _⟩ := pop_good g hw id n' hie''
  rw [p1] at q1
  injection q1 with q1 q1'
  injection q1' with q1'
  have hq : ie'' = ie := nodup_map_inj hdist' ((g.sub w hw).mem q2) hie0 (by rw [← e1', ← q1'])
  subst hq
  have hq' : ie' = ie'' := nodup_map_inj hdist' ((g.sub w hw).mem p2) hie0 (by
    rw [← e1']; exact (congrArg Prod.fst p3).symm)
  subst hq'
  have hrest : rest = ((h.lst w).filter (· ≠ ie')).map fun a => ((h.cell a).ref, (h.cell a).id) := by
    rw [← p5, shown_congr p6 w _ (by rw [p8, if_pos (by simp)])]
  have hpick1 : pyIndex ((h1.lst w).filter fun a => (h1.cell a).id == id) n' = some ie' := by
    rw [hw1, ← hie'']
    congr 1
    exact List.filter_congr fun a _ => by rw [sc.id]
  have hany1 : (h1.lst w).any (fun a => (h1.cell a).id == id) = true := by
    have := pyIndex_mem hpick1
    rw [List.mem_filter] at this
    exact List.any_eq_true.2 ⟨_, this⟩
  have hanc : h1.ancestors w = h.ancestors w := ancestors_congr ss.parent w
  -- positions after the first removal
  have hidx1 : ∀ i (hi : i < (P ++ Q).length), h1.r (P ++ Q)[i] = i := by
    have := g1.idx
    simpa only [h10] using this
  have hPr : ∀ b ∈ P, h1.r b < P.length := by
    intro b hb
    obtain ⟨i, hi, rfl⟩ := List.getElem_of_mem hb
    have := hidx1 i (by simp; omega)
    rw [List.getElem_append_left hi] at this
    rw [this]; omega
  -- the stale trees
  have hup := chain_rest g stale w hw hch
  have hstale : ∀ u ∈ stale, u < h1.trees.length ∧ ∃ p b q, h1.lst u = p ++ b :: q ∧
      (∀ c ∈ p, h1.r c < h1.r ie') ∧ h1.r b = h1.r ie' ∧ (h.lst u).filter (· ≠ ie') = p ++ q := by
    intro u hu
    have hu' : u ∈ w :: h.ancestors w := by rw [hch]; exact List.mem_append_left _ hu
    obtain ⟨k1, k2, k3⟩ := d2 u hu'
    refine ⟨by rw [ss.len]; exact g.lt u k1, ?_⟩
    have su := g.sorted k1
    obtain ⟨p, q, j1, _⟩ := takeWhile_lt su (k3.mem q2)
    refine ⟨p, ie', q, by rw [el, if_neg (hst u hu), j1], ?_, rfl, ?_⟩
    · intro b hb
      have hlt : h.r b < h.r ie' := by
        rw [j1, Heap.Sorted, List.pairwise_append] at su
        exact su.2.2 b hb ie' (by simp)
      have hb0 : b ∈ h.lst 0 := (g.sub u k1).mem (by rw [j1]; simp [hb])
      rw [hr1ie]
      apply hPr
      obtain ⟨i, hi, rfl⟩ := List.getElem_of_mem hb0
      rw [g.idx i hi, hrie] at hlt
      have hiP : i < P.length := by omega
      have : (h.lst 0)[i] = P[i] := by
        simp only [hPQ]
        rw [List.getElem_append_left hiP]
      rw [this]; exact List.getElem_mem hiP
    · rw [j1]
      have := su.nodup
      rw [j1] at this
      exact filter_ne_split this
  rw [hch] at d3
  rw [List.nodup_append] at d3
  obtain ⟨f1, f2, f3⟩ := d3
  obtain ⟨hA, a1, a2, a3, a4⟩ := removeAll_first ie' (fun u => (h.lst u).filter (· ≠ ie')) stale h1 f1 hstale
  have hrA : ∀ a, hA.r a = h1.r a := fun a => by unfold Heap.r Heap.cell; rw [a1]
  have hcA : ∀ a, hA.cell a = h1.cell a := fun a => by unfold Heap.cell; rw [a1]
  have hchain_c : ∀ u ∈ c :: up, u ∈ t :: h.ancestors t := by
    rw [hup]; exact chain_closed g t ht hc
  have hlive : ∀ u ∈ c :: up, L u ∧ ∀ w ∈ u :: h.ancestors u, w ∈ t :: h.ancestors t ∨ ie' ∉ h.lst w := by
    intro u hu
    exact ⟨(c2 u (hchain_c u hu)).1, fun w hw => .inl (chain_closed g t ht (hchain_c u hu) w hw)⟩
  have hAlst : ∀ u ∈ c :: up, hA.lst u = h1.lst u := by
    intro u hu
    rw [a3, if_neg (fun hm => f3 u hm u hu rfl)]
  have h0up : (0 : Nat) ∈ c :: up := by
    have : (0 : Nat) ∈ stale ++ c :: up := by rw [← hch]; exact d1
    rcases List.mem_append.1 this with hm | hm
    · exact absurd c1 (hst 0 hm)
    · exact hm
  have hie1 : ie' ∉ h1.lst 0 := by rw [el, if_pos c1]; simp
  have hshow1 : ∀ u, shown h1 u = (h1.lst u).map fun a => ((h.cell a).ref, (h.cell a).id) :=
    fun u => shown_congr sc u _ rfl
  refine ⟨P.map fun a => ((h.cell a).ref, (h.cell a).id), Q.map fun a => ((h.cell a).ref, (h.cell a).id), ?_, ?_, ?_, ?_⟩
  · unfold shown
    rw [hPQ, List.map_append, List.map_cons, ← e1', e3]
  · rw [hshow1, h10, List.map_append]
  · rw [hshow1, hw1]; rfl
  have hinj : ∀ a ∈ h.lst 0, ∀ b ∈ h.lst 0,
      ((h.cell a).ref, (h.cell a).id) = ((h.cell b).ref, (h.cell b).id) → a = b := fun a ha b hb e =>
    nodup_map_inj hdist' ha hb (congrArg Prod.fst e)
  by_cases hy : ∃ y Q', Q = y :: Q' ∧ y ∈ h.lst c
  · -- the next event goes
    obtain ⟨y, Q', rfl, hyc⟩ := hy
    have hyr : h1.r y = P.length := by
      have := hidx1 P.length (by simp)
      simpa using this
    have hyne : y ≠ ie' := fun e => by
      rw [hPQ, List.nodup_append, List.nodup_cons] at hnod
      exact hnod.2.1.1 (by simp [e])
    have hfresh : ∀ u ∈ c :: up, u < hA.trees.length ∧ ∃ p b q, hA.lst u = p ++ b :: q ∧
        (∀ c ∈ p, hA.r c < hA.r ie') ∧ hA.r b = hA.r ie' ∧ (h1.lst u).filter (· ≠ y) = p ++ q := by
      intro u hu
      have hgu := g1.sorted (hlive u hu)
      have hcu : (h.lst c).Sublist (h.lst u) := by
        have := (g.chain_facts c (c2 c hc).1).2.1 u (by rw [← hup]; exact hu)
        exact this.2.2
      have hyu : y ∈ h1.lst u := by
        rw [el, if_pos (hchain_c u hu), List.mem_filter]
        exact ⟨hcu.mem hyc, by simpa using hyne⟩
      obtain ⟨p, q, j1, _⟩ := takeWhile_lt hgu hyu
      refine ⟨?_, p, y, q, by rw [hAlst u hu, j1], ?_, by rw [hrA, hrA, hyr, hr1ie], ?_⟩
      · rw [a2.len, ss.len]; exact g.lt u (hlive u hu).1
      · intro b hb
        rw [j1, Heap.Sorted, List.pairwise_append] at hgu
        have := hgu.2.2 b hb y (by simp)
        rw [hrA, hrA, hr1ie, ← hyr]; exact this
      · rw [j1]
        have := hgu.nodup
        rw [j1] at this
        exact filter_ne_split this
    obtain ⟨hB, b1, b2, b3, b4⟩ := removeAll_first ie' (fun u => (h1.lst u).filter (· ≠ y)) (c :: up) hA f2 hfresh
    have hrem : h1.removeAll ie' (w :: h1.ancestors w) = (hB, .ok ()) := by
      rw [hanc, hch, a4, ← List.append_nil (c :: up), b4]
      rfl
    have hroot : hB.root w = 0 := by rw [b2.root, a2.root, ss.root]; exact g.rootV w hw
    have hB0 : hB.lst 0 = P ++ Q' := by
      rw [b3, if_pos h0up, h10]
      have := (g1.sortedρ).nodup
      rw [h10] at this
      exact filter_ne_split this
    have hcB : ∀ a, hB.cell a = h1.cell a := fun a => by unfold Heap.cell; rw [b1, a1]
    obtain ⟨s1, s2, s3⟩ := shiftDown_spec (hB.lst 0) ie' hB (by
        rw [b3, if_pos h0up]; exact g1.sortedρ.nodup.sublist List.filter_sublist) (by
        intro a ha
        rw [b3, if_pos h0up, List.mem_filter] at ha
        rw [b1, a1]; exact g1.inCells a ha.1) (by
        rw [b3, if_pos h0up]
        intro hm
        exact hie1 (List.mem_filter.1 hm).1)
    have hlstS : ∀ u, (hB.shiftDown (hB.lst 0) ie').lst u = hB.lst u := fun u => by
      rw [Heap.lst, Heap.tree, s2]; rfl
    have hsame : Heap.SameCells h (hB.shiftDown (hB.lst 0) ie') :=
      ⟨s1.len.trans (by rw [b1, a1]; exact sc.len), fun a => (s1.ref a).trans (by rw [hcB]; exact sc.ref a),
        fun a => (s1.id a).trans (by rw [hcB]; exact sc.id a)⟩
    refine ⟨hB.shiftDown (hB.lst 0) ie', ?_, .inl ⟨_, _, rfl, ?_, ?_, ?_⟩⟩
    · rw [hrest, shown_congr hsame w _ (hlstS w), b3, if_neg (fun hm => f3 w hwmem w hm rfl), a3, if_pos hwmem]
    · exact List.mem_map.2 ⟨y, hyc, rfl⟩
    · unfold pop
      rw [if_pos hany1, hpick1]
      dsimp only
      rw [hrem]
      dsimp only
      rw [hroot, hcB, sc.ref, ← e1']
    · rw [shown_congr hsame 0 _ (hlstS 0), hB0, List.map_append]
  · -- no such event: ValueError
    have hfail : ∀ b ∈ hA.lst c, hA.r b ≠ hA.r ie' := by
      intro b hb
      rw [hAlst c (by simp)] at hb
      rw [hrA, hrA, hr1ie]
      intro hbr
      have hb0 : b ∈ P ++ Q := by
        rw [← h10]
        exact (g1.sub c (hlive c (by simp))).mem hb
      obtain ⟨i, hi, hib⟩ := List.getElem_of_mem hb0
      have := hidx1 i hi
      rw [hib, hbr] at this
      have hiP : i = P.length := by omega
      subst hiP
      have hQ : 0 < Q.length := by simpa using hi
      cases Q with
      | nil => simp at hQ
      | cons y Q' =>
        have hyb : b = y := by rw [← hib]; simp
        subst hyb
        rw [el, if_pos hc, List.mem_filter] at hb
        exact hy ⟨b, Q', rfl, hb.1⟩
    have hrem : h1.removeAll ie' (w :: h1.ancestors w) = (hA, .error .valueError) := by
      rw [hanc, hch, a4, removeAll, removeSorted_none hfail]
    have hsame : Heap.SameCells h hA :=
      ⟨by rw [a1]; exact sc.len, fun a => by rw [hcA]; exact sc.ref a, fun a => by rw [hcA]; exact sc.id a⟩
    refine ⟨hA, ?_, .inr ⟨?_, ?_, ?_⟩⟩
    · rw [hrest, shown_congr hsame w _ rfl, a3, if_pos hwmem]
    · intro y post' hpost hyc
      cases Q with
      | nil => cases hpost
      | cons b Q' =>
        injection hpost with hb _
        obtain ⟨a, ha, hae⟩ := List.mem_map.1 hyc
        have hab : a = b := hinj a ((g.sub c (c2 c hc).1).mem ha) b (by rw [hPQ]; simp) (hae.trans hb.symm)
        subst hab
        exact hy ⟨a, Q', rfl, ha⟩
    · unfold pop
      rw [if_pos hany1, hpick1]
      dsimp only
      rw [hrem]
    · rw [shown_congr hsame 0 _ rfl, hAlst 0 h0up, h10, List.map_append]

namespace TwiceDemo

/-- A view of the first and the last of three events. -/
def call : ViewCall := .subtree fun a => decide (a ≠ 1)

/-- The project and the two views. -/
def h : Heap := (view (view (ofEvents [(0, 7), (1, 8), (2, 7)]) 0 call).1 0 call).1

theorem reach : ∃ L, Reach h L ∧ L 1 ∧ L 2 := by
  have e1 : (view (ofEvents [(0, 7), (1, 8), (2, 7)]) 0 call).2 = [1] := by decide +kernel
  have e2 : (view (view (ofEvents [(0, 7), (1, 8), (2, 7)]) 0 call).1 0 call).2 = [2] := by decide +kernel
  have r1 := Reach.view (Reach.parsed [(0, 7), (1, 8), (2, 7)] (by decide)) rfl (by decide +kernel) call
  have r2 := Reach.view r1 (t := 0) (.inl rfl) (by decide +kernel) call
  rw [e1, e2] at r2
  exact ⟨_, r2, .inl (.inr (by simp)), .inr (by simp)⟩

end TwiceDemo

open TwiceDemo in
/-- Event 0 is removed through both views: the project loses event 1 too; event 2, the
last one, can only be removed once. -/
example : (∃ L, Reach h L ∧ L 1 ∧ L 2) ∧ 2 :: h.ancestors 2 = [2] ++ 0 :: [] ∧ (2 : Nat) ∉ 1 :: h.ancestors 1 ∧
    (0 : Nat) ∈ 1 :: h.ancestors 1 ∧
    (h.pop 1 7 0).2 = .ok 0 ∧ plainPop (shown h 2) 7 0 = .ok ((0, 7), [(2, 7)]) ∧
    ((h.pop 1 7 0).1.pop 2 7 0).2 = .ok 0 ∧ shown ((h.pop 1 7 0).1.pop 2 7 0).1 0 = [(2, 7)] ∧
    (h.pop 1 7 1).2 = .ok 2 ∧ plainPop (shown h 2) 7 1 = .ok ((2, 7), [(0, 7)]) ∧
    ((h.pop 1 7 1).1.pop 2 7 1).2 = .error .valueError ∧
    shown ((h.pop 1 7 1).1.pop 2 7 1).1 0 = [(0, 7), (1, 8)] :=
  ⟨reach, by decide +kernel, by decide +kernel, by decide +kernel, by decide +kernel, rfl, by decide +kernel,
    by decide +kernel, by decide +kernel, rfl, by decide +kernel, by decide +kernel⟩

end PyFLP
