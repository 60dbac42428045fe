import Verif.Collections
import Verif.ModelsLemmas
/-!
# Lemmas about views made by `subtrees` and `divide`
-/

namespace PyFLP

open Spec Heap

/-- What the views of a call show in terms of events, and what stays. -/
theorem callViews_spec {w : World} {L : Nat → Prop} (r : WReach w L) {t : Nat} (ht : L t)
    (hne : shown w.heap 0 ≠ []) (call : ViewCall)
    (hs : ∀ el ∈ ViewCall.lists w.heap t call, el.Sublist (w.heap.lst t)) :
    let w' : World := { w with heap := (view w.heap t call).1 }
    let us := (view w.heap t call).2
    WReach w' (fun u => L u ∨ u ∈ us) ∧
      us.map w'.entries = (ViewCall.lists w.heap t call).map (fun el => el.map w.entry) ∧
      w'.project = w.project ∧
      us = (List.range (ViewCall.lists w.heap t call).length).map (w.heap.trees.length + ·) ∧
      ∀ u, u < w.heap.trees.length → w'.entries u = w.entries u := by
  have hr := (wreach_inv r).1
  obtain ⟨g, _⟩ := reach_good hr
  have hold : ∀ u, u < w.heap.trees.length → shown (view w.heap t call).1 u = shown w.heap u :=
    fun u hu => shown_view (g.lt t ht) call hu
  dsimp only
  refine ⟨WReach.view r ht hne call, ?_, ?_, ?_, ?_⟩
  · have h := view_shown' hr ht call hs
    have h2 : ∀ u, ({ w with heap := (view w.heap t call).1 } : World).entries u =
        (shown (view w.heap t call).1 u).map fun x => (x.1, w.ev x.1) := by
      intro u
      rw [World.entries_eq]
      rfl
    have h3 : (view w.heap t call).2.map ({ w with heap := (view w.heap t call).1 } : World).entries =
        ((view w.heap t call).2.map (shown (view w.heap t call).1)).map
          (fun l => l.map fun x => (x.1, w.ev x.1)) := by
      rw [List.map_map]
      exact List.map_congr_left fun u _ => h2 u
    rw [h3, h, List.map_map]
    apply List.map_congr_left
    intro el _
    simp [World.entry, List.map_map, Function.comp_def]
  · unfold World.project
    rw [World.events_eq, World.events_eq]
    dsimp only
    rw [hold 0 (g.lt 0 g.vρ)]
    rfl
  · rw [view_eq]
    exact (yieldViews_raw (ViewCall.lists w.heap t call) w.heap (g.lt t ht)).1
  · intro u hu
    rw [World.entries_eq, World.entries_eq]
    dsimp only
    rw [hold u hu]
    rfl

theorem World.entry_id {w : World} {L : Nat → Prop} (r : WReach w L) {t : Nat} (ht : L t) {a : Nat}
    (ha : a ∈ w.heap.lst t) : (w.entry a).2.id = w.heap.idOf a := by
  obtain ⟨_, h⟩ := wreach_inv r
  have hm : ((w.heap.cell a).ref, (w.heap.cell a).id) ∈ shown w.heap 0 :=
    (wreach_sub r ht).1.mem (List.mem_map.2 ⟨a, ha, rfl⟩)
  exact (h _ hm).2

/-! ### `subtrees` -/

/-- The loop of `subtrees` together with its callback, on any kind of elements. -/
def cutBy {σ α : Type} (step : σ → Nat → Option Bool × σ) (idOf : α → Nat) : σ → List α → List α → Int → List (List α)
  | _, [], _, _ => []
  | s, a :: l, el, rep =>
    if rep = 0 then []
    else match (step s (idOf a)).1 with
      | some false => el :: cutBy step idOf (step s (idOf a)).2 l [a] (rep - 1)
      | some true => cutBy step idOf (step s (idOf a)).2 l (el ++ [a]) rep
      | none => cutBy step idOf (step s (idOf a)).2 l el rep

theorem subtreesLoop_cutBy {σ : Type} (step : σ → Nat → Option Bool × σ) (idOf : Nat → Nat) (l : List Nat) :
    ∀ (s : σ) (el : List Nat) (rep : Int),
      subtreesLoop (runSelect (fun s a => step s (idOf a)) s l) el rep = cutBy step idOf s l el rep := by
  induction l with
  | nil => intro s el rep; rfl
  | cons a l ih =>
    intro s el rep
    rw [runSelect, subtreesLoop.eq_def, cutBy]
    dsimp only
    split
    · rfl
    · cases (step s (idOf a)).1 with
      | none => exact ih _ _ _
      | some b => cases b <;> simp [ih]

theorem cutBy_map {σ α β : Type} (step : σ → Nat → Option Bool × σ) (f : α → β) {idOf : α → Nat} {idOf' : β → Nat}
    (l : List α) (hid : ∀ a ∈ l, idOf' (f a) = idOf a) :
    ∀ (s : σ) (el : List α) (rep : Int),
      (cutBy step idOf s l el rep).map (List.map f) = cutBy step idOf' s (l.map f) (el.map f) rep := by
  induction l with
  | nil => intro s el rep; rfl
  | cons a l ih =>
    intro s el rep
    have ih := ih fun a ha => hid a (by simp [ha])
    rw [List.map_cons, cutBy, cutBy, hid a (by simp)]
    split
    · rfl
    · cases (step s (idOf a)).1 with
      | none => exact ih _ _ _
      | some b =>
        cases b
        · simp [ih]
        · simp [ih]

theorem subViews_spec {σ : Type} {w : World} {L : Nat → Prop} (r : WReach w L) {t : Nat} (ht : L t)
    (hne : shown w.heap 0 ≠ []) (step : σ → Nat → Option Bool × σ) (s : σ) (rep : Int) :
    let w' := (w.subViews t step s rep).1
    let us := (w.subViews t step s rep).2
    WReach w' (fun u => L u ∨ u ∈ us) ∧
      us.map w'.entries = cutBy step (fun e : Entry => e.2.id) s (w.entries t) [] rep ∧
      w'.project = w.project ∧
      us = (List.range us.length).map (w.heap.trees.length + ·) ∧
      ∀ u, u < w.heap.trees.length → w'.entries u = w.entries u := by
  have hc := callViews_spec r ht hne (.subtrees σ (fun s a => step s (w.heap.idOf a)) s rep) (by
    intro el hel
    have := subtreesLoop_sublist hel
    rwa [runSelect_fst] at this)
  obtain ⟨h1, h2, h3, h4, h5⟩ := hc
  have hloop : ViewCall.lists w.heap t (.subtrees σ (fun s a => step s (w.heap.idOf a)) s rep) =
      cutBy step w.heap.idOf s (w.heap.lst t) [] rep := subtreesLoop_cutBy ..
  rw [hloop, cutBy_map step w.entry (idOf' := fun e : Entry => e.2.id) (w.heap.lst t)
    (fun a ha => World.entry_id r ht ha)] at h2
  refine ⟨h1, h2, h3, ?_, h5⟩
  rw [hloop] at h4
  have hlen : (w.subViews t step s rep).2.length = (cutBy step w.heap.idOf s (w.heap.lst t) [] rep).length := by
    have := congrArg List.length h4
    rw [List.length_map, List.length_range] at this
    exact this
  rw [hlen]
  exact h4

/-! ### `divide` -/

/-- The loop of `divide` on any kind of elements. -/
def divBy {α : Type} (idOf : α → Nat) (sep : Nat) (ids : List Nat) : List α → List α → Bool → List (List α)
  | [], el, _ => [el]
  | a :: l, el, first =>
    if idOf a = sep ∧ first = false then
      el :: divBy idOf sep ids l (if idOf a ∈ ids then [a] else []) false
    else divBy idOf sep ids l (if idOf a ∈ ids then el ++ [a] else el) (first && idOf a != sep)

theorem divideLoop_divBy (idOf : Nat → Nat) (sep : Nat) (ids : List Nat) (l : List Nat) :
    ∀ (el : List Nat) (first : Bool), divideLoop idOf sep ids l el first = divBy idOf sep ids l el first := by
  induction l with
  | nil => intro el first; rfl
  | cons a l ih =>
    intro el first
    rw [divideLoop, divBy]
    by_cases h : idOf a = sep
    · cases first <;> simp [h, ih]
    · have : (idOf a != sep) = true := by simp [h]
      cases first <;> simp [h, ih, this]

theorem divBy_map {α β : Type} (f : α → β) {idOf : α → Nat} {idOf' : β → Nat} (sep : Nat) (ids : List Nat)
    (l : List α) (hid : ∀ a ∈ l, idOf' (f a) = idOf a) :
    ∀ (el : List α) (first : Bool),
      (divBy idOf sep ids l el first).map (List.map f) = divBy idOf' sep ids (l.map f) (el.map f) first := by
  induction l with
  | nil => intro el first; rfl
  | cons a l ih =>
    intro el first
    have ih := ih fun a ha => hid a (by simp [ha])
    rw [List.map_cons, divBy, divBy, hid a (by simp)]
    have e1 : (if idOf a ∈ ids then [a] else []).map f = if idOf a ∈ ids then [f a] else [] := by
      split <;> rfl
    have e2 : (if idOf a ∈ ids then el ++ [a] else el).map f = if idOf a ∈ ids then el.map f ++ [f a] else el.map f := by
      split <;> simp
    split
    · rw [List.map_cons, ih, e1]
    · rw [ih, e2]

theorem divViews_spec {w : World} {L : Nat → Prop} (r : WReach w L) {t : Nat} (ht : L t)
    (hne : shown w.heap 0 ≠ []) (sep : Nat) (ids : List Nat) :
    let w' := (w.divViews t sep ids).1
    let us := (w.divViews t sep ids).2
    WReach w' (fun u => L u ∨ u ∈ us) ∧
      us.map w'.entries = divBy (fun e : Entry => e.2.id) sep ids (w.entries t) [] true ∧
      w'.project = w.project ∧
      us = (List.range us.length).map (w.heap.trees.length + ·) ∧
      ∀ u, u < w.heap.trees.length → w'.entries u = w.entries u := by
  have hc := callViews_spec r ht hne (.divide sep ids) (fun el hel => divideLoop_sublist hel)
  obtain ⟨h1, h2, h3, h4, h5⟩ := hc
  have hloop : ViewCall.lists w.heap t (.divide sep ids) = divBy w.heap.idOf sep ids (w.heap.lst t) [] true :=
    divideLoop_divBy ..
  rw [hloop, divBy_map w.entry (idOf' := fun e : Entry => e.2.id) sep ids (w.heap.lst t)
    (fun a ha => World.entry_id r ht ha)] at h2
  refine ⟨h1, h2, h3, ?_, h5⟩
  rw [hloop] at h4
  have hlen : (w.divViews t sep ids).2.length = (divBy w.heap.idOf sep ids (w.heap.lst t) [] true).length := by
    have := congrArg List.length h4
    rw [List.length_map, List.length_range] at this
    exact this
  rw [hlen]
  exact h4

/-- `divide` on events that come in blocks, each beginning with a separator; events before
the first block are shown with it. -/
theorem divBy_blocks {α : Type} (idOf : α → Nat) (sep : Nat) (ids : List Nat) (blocks : List (List α))
    (hb : ∀ b ∈ blocks, ∃ x tl, b = x :: tl ∧ idOf x = sep ∧ ∀ y ∈ tl, idOf y ≠ sep) :
    (∀ el, divBy idOf sep ids blocks.flatten el false =
      el :: blocks.map fun b => b.filter fun a => decide (idOf a ∈ ids)) := by
  have hskip : ∀ (tl rest el : List α), (∀ y ∈ tl, idOf y ≠ sep) →
      divBy idOf sep ids (tl ++ rest) el false =
        divBy idOf sep ids rest (el ++ tl.filter fun a => decide (idOf a ∈ ids)) false := by
    intro tl
    induction tl with
    | nil => intro rest el _; simp
    | cons a tl ih =>
      intro rest el h
      rw [List.cons_append, divBy, if_neg (fun c => h a (by simp) c.1), Bool.false_and, ih _ _ (fun y hy => h y (by simp [hy]))]
      by_cases hm : idOf a ∈ ids <;> simp [hm]
  induction blocks with
  | nil => intro el; rfl
  | cons b blocks ih =>
    intro el
    obtain ⟨x, tl, rfl, hx, htl⟩ := hb b (by simp)
    have ih := ih fun b hb' => hb b (by simp [hb'])
    rw [List.flatten_cons, List.cons_append, divBy, if_pos ⟨hx, rfl⟩, hskip _ _ _ htl, ih, List.map_cons]
    congr 2
    by_cases hm : idOf x ∈ ids <;> simp [hm]

theorem divBy_first {α : Type} (idOf : α → Nat) (sep : Nat) (ids : List Nat) (pre : List α) (blocks : List (List α))
    (hp : ∀ a ∈ pre, idOf a ≠ sep) (hb : ∀ b ∈ blocks, ∃ x tl, b = x :: tl ∧ idOf x = sep ∧ ∀ y ∈ tl, idOf y ≠ sep) :
    divBy idOf sep ids (pre ++ blocks.flatten) [] true =
      match blocks with
      | [] => [pre.filter fun a => decide (idOf a ∈ ids)]
      | b :: bs => (pre ++ b).filter (fun a => decide (idOf a ∈ ids)) ::
          bs.map fun b => b.filter fun a => decide (idOf a ∈ ids) := by
  have hskip : ∀ (tl rest el : List α), (∀ y ∈ tl, idOf y ≠ sep) → ∀ first,
      divBy idOf sep ids (tl ++ rest) el first =
        divBy idOf sep ids rest (el ++ tl.filter fun a => decide (idOf a ∈ ids)) first := by
    intro tl
    induction tl with
    | nil => intro rest el _ _; simp
    | cons a tl ih =>
      intro rest el h first
      have h0 := h a (by simp)
      rw [List.cons_append, divBy, if_neg (fun c => h0 c.1)]
      have : (first && idOf a != sep) = first := by simp [h0]
      rw [this, ih _ _ (fun y hy => h y (by simp [hy]))]
      by_cases hm : idOf a ∈ ids <;> simp [hm]
  rw [hskip pre _ _ hp, List.nil_append]
  cases blocks with
  | nil => rfl
  | cons b bs =>
    obtain ⟨x, tl, rfl, hx, htl⟩ := hb b (by simp)
    have hb' := divBy_blocks idOf sep ids bs fun b h => hb b (by simp [h])
    have e : (true && idOf x != sep) = false := by simp [hx]
    rw [List.flatten_cons, List.cons_append, divBy, if_neg (by simp), e, hskip _ _ _ htl, hb']
    dsimp only
    congr 1
    rw [List.filter_append]
    by_cases hm : idOf x ∈ ids <;> simp [hm]

end PyFLP
