import Verif.ThreadExec
/-!
# Programs in different memories

A program that runs in the shared memory, where its objects have the identities it got for them, and the same program in a memory
of its own, where they are numbered as they are made.
-/

namespace PyFLP

open Heap Process Spec

/-- A tree with other handles. -/
def Tree.ren (φ : Nat → Nat) (o : Tree) : Tree := ⟨o.parent.map φ, φ o.root, o.lst.map φ, o.children.map φ⟩

/-- The handles in a tree `t` are in use, and its parent is older. -/
structure Tree.Good (nt nc t : Nat) (o : Tree) : Prop where
  parent : ∀ p, o.parent = some p → p < t
  root : o.root < nt
  lst : ∀ a ∈ o.lst, a < nc

/-- The same program with other handles, of which `nt` trees and `nc` `IndexedEvent`s are in use.  It touches only event objects of
the project `k`. -/
inductive Sim (own : Nat → Nat) (k : Nat) (φ : Nat → Nat) {α β : Type} (R : Nat → Nat → α → β → Prop) :
    Nat → Nat → Prog α → Prog β → Prop
  | ret {nt nc x y} : R nt nc x y → Sim own k φ R nt nc (.ret x) (.ret y)
  | getCell {nt nc a p q} : a < nc → (∀ c : Cell, own c.ref = k → Sim own k φ R nt nc (p c) (q c)) →
      Sim own k φ R nt nc (.getCell (φ a) p) (.getCell a q)
  | setR {nt nc a x p q} : a < nc → Sim own k φ R nt nc p q → Sim own k φ R nt nc (.setR (φ a) x p) (.setR a x q)
  | newCell {nt nc c p q} : own c.ref = k → Sim own k φ R nt (nc + 1) (p (φ nc)) (q nc) →
      Sim own k φ R nt nc (.newCell c p) (.newCell c q)
  | getTree {nt nc t p q} : t < nt → (∀ o : Tree, o.Good nt nc t → Sim own k φ R nt nc (p (o.ren φ)) (q o)) →
      Sim own k φ R nt nc (.getTree (φ t) p) (.getTree t q)
  | setLst {nt nc t l p q} : t < nt → (∀ a ∈ l, a < nc) → Sim own k φ R nt nc p q →
      Sim own k φ R nt nc (.setLst (φ t) (l.map φ) p) (.setLst t l q)
  | addChild {nt nc t c p q} : t < nt → Sim own k φ R nt nc p q → Sim own k φ R nt nc (.addChild (φ t) (φ c) p) (.addChild t c q)
  | newTree {nt nc par root l p q} : (∀ u, par = some u → u < nt) → (∀ u, root = some u → u < nt) → (∀ a ∈ l, a < nc) →
      Sim own k φ R (nt + 1) nc (p (φ nt)) (q nt) →
      Sim own k φ R nt nc (.newTree (par.map φ) (root.map φ) (l.map φ) p) (.newTree par root l q)
  | getEvent {nt nc ref p q} : own ref = k → (∀ e, Sim own k φ R nt nc (p e) (q e)) →
      Sim own k φ R nt nc (.getEvent ref p) (.getEvent ref q)
  | setEvent {nt nc ref e p q} : own ref = k → Sim own k φ R nt nc p q →
      Sim own k φ R nt nc (.setEvent ref e p) (.setEvent ref e q)

section
variable {own : Nat → Nat} {k : Nat} {φ : Nat → Nat} {nt nc : Nat}

theorem Sim.bind {α β α' β' : Type} {R : Nat → Nat → α → β → Prop} {R' : Nat → Nat → α' → β' → Prop} {p : Prog α} {q : Prog β}
    {f : α → Prog α'} {g : β → Prog β'} (s : Sim own k φ R nt nc p q)
    (h : ∀ nt' nc' x y, nt ≤ nt' → nc ≤ nc' → R nt' nc' x y → Sim own k φ R' nt' nc' (f x) (g y)) :
    Sim own k φ R' nt nc (p.bind f) (q.bind g) := by
  induction s with
  | ret hr => exact h _ _ _ _ (Nat.le_refl _) (Nat.le_refl _) hr
  | getCell ha _ ih => exact .getCell ha fun c hc => ih c hc h
  | setR ha _ ih => exact .setR ha (ih h)
  | newCell hc _ ih => exact .newCell hc (ih fun nt' nc' x y h1 h2 => h nt' nc' x y h1 (by omega))
  | getTree ht _ ih => exact .getTree ht fun o ho => ih o ho h
  | setLst ht hl _ ih => exact .setLst ht hl (ih h)
  | addChild ht _ ih => exact .addChild ht (ih h)
  | newTree hp hr hl _ ih => exact .newTree hp hr hl (ih fun nt' nc' x y h1 h2 => h nt' nc' x y (by omega) h2)
  | getEvent hr _ ih => exact .getEvent hr fun e => ih e h
  | setEvent hr _ ih => exact .setEvent hr (ih h)

namespace Prog

/-- Pairs with other handles. -/
abbrev renCells (φ : Nat → Nat) (cs : List (Nat × Cell)) : List (Nat × Cell) := cs.map fun z => (φ z.1, z.2)

/-- `IndexedEvent`s read from the list `l`. -/
def CellsOf (own : Nat → Nat) (k : Nat) (φ : Nat → Nat) (l : List Nat) : Nat → Nat → List (Nat × Cell) → List (Nat × Cell) → Prop :=
  fun _ _ x y => x = renCells φ y ∧ y.map Prod.fst = l ∧ ∀ z ∈ y, own z.2.ref = k

theorem sim_cells {l : List Nat} (hl : ∀ a ∈ l, a < nc) : Sim own k φ (CellsOf own k φ l) nt nc (cells (l.map φ)) (cells l) := by
  induction l with
  | nil => exact .ret ⟨rfl, rfl, fun z hz => by cases hz⟩
  | cons a l ih =>
    refine .getCell (hl a (by simp)) fun c hc => ?_
    refine (ih fun b hb => hl b (by simp [hb])).bind fun nt' nc' x y _ _ ⟨h1, h2, h3⟩ => .ret ⟨?_, ?_, ?_⟩
    · rw [h1]; rfl
    · rw [← h2]; rfl
    · intro z hz
      rcases List.mem_cons.1 hz with rfl | hz
      · exact hc
      · exact h3 z hz

theorem sim_events {cs : List (Nat × Cell)} (hc : ∀ z ∈ cs, own z.2.ref = k) :
    Sim own k φ (fun _ _ x y => x = y) nt nc (events (renCells φ cs)) (events cs) := by
  induction cs with
  | nil => exact .ret rfl
  | cons z cs ih =>
    refine .getEvent (hc z (by simp)) fun e => ?_
    refine (ih fun b hb => hc b (by simp [hb])).bind fun nt' nc' x y _ _ h => .ret (by rw [h])

theorem sim_shiftUp {x : Int} {l : List Nat} (hl : ∀ a ∈ l, a < nc) :
    Sim own k φ (fun _ _ _ _ => True) nt nc (shiftUp x (l.map φ)) (shiftUp x l) := by
  induction l with
  | nil => exact .ret trivial
  | cons a l ih =>
    have ih := ih fun b hb => hl b (by simp [hb])
    refine .getCell (hl a (by simp)) fun c hc => ?_
    by_cases h1 : x ≤ c.r
    · rw [if_pos h1, if_pos h1]; exact .setR (hl a (by simp)) ih
    · rw [if_neg h1, if_neg h1]; exact ih

theorem sim_shiftDown {ie : Nat} (hie : ie < nc) {l : List Nat} (hl : ∀ a ∈ l, a < nc) :
    Sim own k φ (fun _ _ _ _ => True) nt nc (shiftDown (φ ie) (l.map φ)) (shiftDown ie l) := by
  induction l with
  | nil => exact .ret trivial
  | cons a l ih =>
    have ih := ih fun b hb => hl b (by simp [hb])
    refine .getCell hie fun ci _ => .getCell (hl a (by simp)) fun c hc => ?_
    by_cases h1 : ci.r ≤ c.r
    · rw [if_pos h1, if_pos h1]; exact .setR (hl a (by simp)) ih
    · rw [if_neg h1, if_neg h1]; exact ih

theorem takeWhile_ren (p : Cell → Bool) (cs : List (Nat × Cell)) :
    ((renCells φ cs).takeWhile fun x => p x.2).length = (cs.takeWhile fun x => p x.2).length := by
  rw [List.takeWhile_map, List.length_map]
  rfl

theorem sim_addUp {c : Cell} (hc : own c.ref = k) {n m t : Nat} (hn : t < n) (hm : t < m) (ht : t < nt) :
    Sim own k φ (fun _ _ _ _ => True) nt nc (addUp c n (φ t)) (addUp c m t) := by
  induction n generalizing m t nt nc with
  | zero => omega
  | succ n ih =>
    obtain ⟨m, rfl⟩ : ∃ m', m = m' + 1 := ⟨m - 1, by omega⟩
    rw [addUp, addUp]
    refine .newCell hc (.getTree ht fun o ho => ?_)
    refine (sim_cells ho.lst).bind fun nt' nc' x y h1 h2 ⟨e, h4, h5⟩ => ?_
    subst e
    dsimp only
    rw [takeWhile_ren (fun z => decide (z.r ≤ c.r))]
    have e : ∀ j, (o.ren φ).lst.take j ++ φ nc :: (o.ren φ).lst.drop j = (o.lst.take j ++ nc :: o.lst.drop j).map φ := by
      intro j; simp [Tree.ren]
    rw [e]
    refine .setLst (by omega) (fun a ha => ?_) (.getTree (by omega) fun o' ho' => ?_)
    · rcases List.mem_append.1 ha with ha | ha
      · have := ho.lst a (List.mem_of_mem_take ha); omega
      · rcases List.mem_cons.1 ha with rfl | ha
        · omega
        · have := ho.lst a (List.mem_of_mem_drop ha); omega
    · have e3 : (o'.ren φ).parent = o'.parent.map φ := rfl
      rw [e3]
      cases hp : o'.parent with
      | none => exact .ret trivial
      | some u =>
        have := ho'.parent u hp
        exact ih (by omega) (by omega) (by omega)

theorem sim_removeUp {ie : Nat} (hie : ie < nc) {n m t : Nat} (hn : t < n) (hm : t < m) (ht : t < nt) :
    Sim own k φ (fun _ _ x y => x = y) nt nc (removeUp (φ ie) n (φ t)) (removeUp ie m t) := by
  induction n generalizing m t nt nc with
  | zero => omega
  | succ n ih =>
    obtain ⟨m, rfl⟩ : ∃ m', m = m' + 1 := ⟨m - 1, by omega⟩
    rw [removeUp, removeUp]
    refine .getCell hie fun ci hci => (.getTree ht fun o ho => ?_)
    refine (sim_cells ho.lst).bind fun nt' nc' x y h1 h2 ⟨e, h4, h5⟩ => ?_
    subst e
    dsimp only
    rw [takeWhile_ren (fun z => decide (z.r < ci.r)), List.getElem?_map]
    cases hb : y[(y.takeWhile fun x => decide (x.2.r < ci.r)).length]? with
    | none => exact .ret rfl
    | some b =>
      dsimp only [Option.map_some]
      by_cases h6 : b.2.r = ci.r
      · rw [if_pos h6, if_pos h6]
        have e : ∀ j, (o.ren φ).lst.eraseIdx j = (o.lst.eraseIdx j).map φ := by
          intro j; simp [Tree.ren, List.eraseIdx_eq_take_drop_succ, List.map_take, List.map_drop]
        rw [e]
        refine .setLst (by omega) (fun a ha => ?_) (.getTree (by omega) fun o' ho' => ?_)
        · have := ho.lst a (List.mem_of_mem_eraseIdx ha); omega
        · have e3 : (o'.ren φ).parent = o'.parent.map φ := rfl
          rw [e3]
          cases hp : o'.parent with
          | none => exact .ret rfl
          | some u =>
            have := ho'.parent u hp
            exact ih (by omega) (by omega) (by omega) (by omega)
      · rw [if_neg h6, if_neg h6]
        exact .ret rfl

theorem renCells_r (cs : List (Nat × Cell)) : ((renCells φ cs).map fun x => x.2.r) = cs.map fun x => x.2.r := by
  rw [List.map_map]; rfl

theorem sim_insert (hφ : ∀ n, n ≤ φ n) {t : Nat} (ht : t < nt) (pos : Int) {ref : Nat} (hr : own ref = k) (id : Nat) :
    Sim own k φ (fun _ _ x y => x = y) nt nc (insert (φ t) pos ref id) (insert t pos ref id) := by
  refine .getTree ht fun o ho => (sim_cells ho.lst).bind fun nt' nc' x y h1 h2 ⟨e, h4, h5⟩ => ?_
  subst e
  have e : (o.ren φ).lst.isEmpty = o.lst.isEmpty := by simp [Tree.ren]
  rw [renCells_r, e]
  cases (if o.lst.isEmpty = true then some 0 else
      pyIndex (sortBy (fun a b => decide (a ≤ b)) (y.map fun x => x.2.r)).eraseDups pos) with
  | none => exact .ret rfl
  | some x =>
    have hroot := ho.root
    refine .getTree (show o.root < nt' by omega) fun ro hro => ?_
    refine (sim_shiftUp hro.lst).bind fun nt'' nc'' _ _ h6 h7 _ => ?_
    have := hφ t
    refine (sim_addUp hr (by omega) (by omega) (by omega)).bind fun _ _ _ _ _ _ _ => .ret rfl

theorem sim_append (hφ : ∀ n, n ≤ φ n) {t : Nat} (ht : t < nt) {ref : Nat} (hr : own ref = k) (id : Nat) :
    Sim own k φ (fun _ _ x y => x = y) nt nc (append (φ t) ref id) (append t ref id) := by
  refine .getTree ht fun o ho => ?_
  have e : ((o.ren φ).lst.length : Int) = o.lst.length := by simp [Tree.ren]
  rw [e]
  exact sim_insert hφ ht _ hr id

theorem sim_pop (hφ : ∀ n, n ≤ φ n) {t : Nat} (ht : t < nt) (id : Nat) (pos : Int) :
    Sim own k φ (fun _ _ x y => x = y ∧ ∀ ref, y = .ok ref → own ref = k) nt nc (pop (φ t) id pos) (pop t id pos) := by
  have err : ∀ {nt nc : Nat} (e : Exc), Sim own k φ (fun _ _ x y => x = y ∧ ∀ ref, y = Except.ok ref → own ref = k) nt nc
      (ret (Except.error e)) (ret (Except.error e)) := fun e => .ret ⟨rfl, fun ref h => by cases h⟩
  refine .getTree ht fun o ho => (sim_cells ho.lst).bind fun nt' nc' x y h1 h2 ⟨e, h4, h5⟩ => ?_
  subst e
  have e1 : (renCells φ y).any (fun x => x.2.id == id) = y.any fun x => x.2.id == id := by rw [List.any_map]; rfl
  have e2 : ((renCells φ y).filter fun x => x.2.id == id).map Prod.fst =
      (((y.filter fun x => x.2.id == id).map Prod.fst).map φ) := by
    rw [List.filter_map, List.map_map, List.map_map]; rfl
  rw [e1, e2]
  by_cases h6 : (y.any fun x => x.2.id == id) = true
  · rw [if_pos h6, if_pos h6, Heap.pyIndex_map]
    cases hi : pyIndex ((y.filter fun x => x.2.id == id).map Prod.fst) pos with
    | none => exact err _
    | some ie =>
      have hie : ie < nc' := by
        have : ie ∈ (y.filter fun x => x.2.id == id).map Prod.fst := by
          unfold pyIndex at hi
          split at hi
          · exact List.mem_of_getElem? hi
          · split at hi
            · exact List.mem_of_getElem? hi
            · cases hi
        obtain ⟨z, hz, rfl⟩ := List.mem_map.1 this
        have h7 : z.1 ∈ o.lst := by rw [← h4]; exact List.mem_map_of_mem (List.mem_filter.1 hz).1
        have := ho.lst _ h7
        omega
      have := hφ t
      refine (sim_removeUp hie (by omega) (by omega) (by omega)).bind fun nt2 nc2 a b h8 h9 e => ?_
      subst e
      cases a with
      | error x => exact err _
      | ok u =>
        refine .getTree (by omega) fun o' ho' => .getTree ho'.root fun ro hro => ?_
        refine (sim_shiftDown (by omega) hro.lst).bind fun nt3 nc3 _ _ h10 h11 _ => ?_
        exact .getCell (by omega) fun c hc => .ret ⟨rfl, fun ref h => by injection h with h; rw [← h]; exact hc⟩
  · rw [if_neg h6, if_neg h6]
    exact err _

theorem sim_top {n m t : Nat} (hn : t < n) (hm : t < m) (ht : t < nt) :
    Sim own k φ (fun nt' _ x y => x = φ y ∧ y < nt') nt nc (top n (φ t)) (top m t) := by
  induction n generalizing m t with
  | zero => omega
  | succ n ih =>
    obtain ⟨m, rfl⟩ : ∃ m', m = m' + 1 := ⟨m - 1, by omega⟩
    rw [top, top]
    refine .getTree ht fun o ho => ?_
    have e3 : (o.ren φ).parent = o.parent.map φ := rfl
    rw [e3]
    cases hp : o.parent with
    | none => exact .ret ⟨rfl, ht⟩
    | some u =>
      have := ho.parent u hp
      exact ih (by omega) (by omega) (by omega)

theorem insertBy_ren (a : Nat × Cell) (cs : List (Nat × Cell)) :
    insertBy (fun x y : Nat × Cell => decide (x.2.r ≤ y.2.r)) (φ a.1, a.2) (renCells φ cs) =
      renCells φ (insertBy (fun x y : Nat × Cell => decide (x.2.r ≤ y.2.r)) a cs) := by
  induction cs with
  | nil => rfl
  | cons b cs ih =>
    show (if decide (a.2.r ≤ b.2.r) = true then _ else _) = _
    rw [insertBy]
    split
    · rfl
    · show (φ b.1, b.2) :: _ = _
      rw [ih]
      rfl

theorem sortBy_ren (cs : List (Nat × Cell)) :
    sortBy (fun x y : Nat × Cell => decide (x.2.r ≤ y.2.r)) (renCells φ cs) =
      renCells φ (sortBy (fun x y : Nat × Cell => decide (x.2.r ≤ y.2.r)) cs) := by
  induction cs with
  | nil => rfl
  | cons a cs ih =>
    show insertBy _ (φ a.1, a.2) (sortBy _ (renCells φ cs)) = _
    rw [ih, insertBy_ren]
    rfl

theorem sim_makeTree (hφ : ∀ n, n ≤ φ n) {par : Option Nat} (hp : ∀ p, par = some p → p < nt) {l : List Nat} (hl : ∀ a ∈ l, a < nc) :
    Sim own k φ (fun nt' _ x y => x = φ y ∧ y < nt') nt nc (makeTree (par.map φ) (l.map φ)) (makeTree par l) := by
  refine (sim_cells hl).bind fun nt' nc' x y h1 h2 ⟨e, h4, h5⟩ => ?_
  subst e
  dsimp only
  have e : (sortBy (fun x y : Nat × Cell => decide (x.2.r ≤ y.2.r)) (renCells φ y)).map Prod.fst =
      ((sortBy (fun x y : Nat × Cell => decide (x.2.r ≤ y.2.r)) y).map Prod.fst).map φ := by
    rw [sortBy_ren, List.map_map, List.map_map]; rfl
  rw [e]
  have hs : ∀ a ∈ (sortBy (fun x y : Nat × Cell => decide (x.2.r ≤ y.2.r)) y).map Prod.fst, a < nc' := by
    intro a ha
    obtain ⟨z, hz, rfl⟩ := List.mem_map.1 ha
    have h6 : z.1 ∈ l := by rw [← h4]; exact List.mem_map_of_mem ((sortBy_perm _ y).mem_iff.1 hz)
    have := hl _ h6
    omega
  cases par with
  | none =>
    exact Sim.newTree (par := none) (root := none) (fun u h => by cases h) (fun u h => by cases h) hs (.ret ⟨rfl, by omega⟩)
  | some p =>
    have h6 := hp p rfl
    have h7 := hφ p
    dsimp only [Option.map_some]
    refine (sim_top (by omega) (by omega) (by omega)).bind fun nt2 nc2 x y h8 h9 ⟨e, h10⟩ => ?_
    subst e
    refine .getTree h10 fun o ho => ?_
    have e : (if (o.ren φ).lst.isEmpty = true then none else some (φ y)) = (if o.lst.isEmpty = true then none else some y).map φ := by
      have : (o.ren φ).lst.isEmpty = o.lst.isEmpty := by simp [Tree.ren]
      rw [this]
      split <;> rfl
    rw [e]
    refine Sim.newTree (par := some p) (fun u h => by injection h with h; omega) (fun u h => ?_) (fun a ha => ?_)
      (.addChild (by omega) (.ret ⟨rfl, by omega⟩))
    · split at h
      · cases h
      · injection h with h; omega
    · have := hs a ha; omega

theorem sim_makeViews (hφ : ∀ n, n ≤ φ n) {t : Nat} (ht : t < nt) {els : List (List Nat)} (hl : ∀ el ∈ els, ∀ a ∈ el, a < nc) :
    Sim own k φ (fun nt' _ x y => x = y.map φ ∧ ∀ v ∈ y, v < nt') nt nc (makeViews (φ t) (els.map (List.map φ))) (makeViews t els) := by
  induction els generalizing nt nc with
  | nil => exact .ret ⟨rfl, fun v hv => by cases hv⟩
  | cons el els ih =>
    refine (sim_makeTree (par := some t) hφ (fun p h => by injection h with h; omega) (hl el (by simp))).bind
      fun nt' nc' x y h1 h2 ⟨e, h3⟩ => ?_
    subst e
    refine .addChild (by omega) ((ih (by omega) fun el hel a ha => ?_).bind fun nt2 nc2 x y h4 h5 ⟨e, h6⟩ => .ret ⟨?_, fun v hv => ?_⟩)
    · have := hl el (by simp [hel]) a ha; omega
    · rw [e]; rfl
    · rcases List.mem_cons.1 hv with rfl | hv
      · omega
      · exact h6 v hv

theorem picks_ren {cs : List (Nat × Cell)} {els : List (List Nat)} (he : ∀ el ∈ els, ∀ i ∈ el, i < cs.length) :
    picks (renCells φ cs) els = (picks cs els).map (List.map φ) := by
  unfold picks
  rw [List.map_map]
  refine List.map_congr_left fun el hel => ?_
  show _ = (el.map _).map φ
  rw [List.map_map]
  refine List.map_congr_left fun i hi => ?_
  have := he el hel i hi
  simp [List.getD_eq_getElem?_getD, this]

theorem picks_lt {l : List Nat} {cs : List (Nat × Cell)} {els : List (List Nat)} (hc : cs.map Prod.fst = l) (hl : ∀ a ∈ l, a < nc)
    (he : ∀ el ∈ els, ∀ i ∈ el, i < cs.length) : ∀ el ∈ picks cs els, ∀ a ∈ el, a < nc := by
  intro el hel a ha
  obtain ⟨el', h1, rfl⟩ := List.mem_map.1 hel
  obtain ⟨i, h2, rfl⟩ := List.mem_map.1 ha
  have h3 := he el' h1 i h2
  apply hl
  rw [← hc, List.getD_eq_getElem?_getD, List.getElem?_eq_getElem h3]
  exact List.mem_map_of_mem (List.getElem_mem h3)

/-- What is handed out. -/
abbrev Views (φ : Nat → Nat) : Nat → Nat → List Nat → List Nat → Prop := fun nt' _ x y => x = y.map φ ∧ ∀ v ∈ y, v < nt'

theorem sim_views (hφ : ∀ n, n ≤ φ n) {t : Nat} (ht : t < nt) {l : List Nat} {cs : List (Nat × Cell)} {els : List (List Nat)}
    (hc : cs.map Prod.fst = l) (hl : ∀ a ∈ l, a < nc) (he : ∀ el ∈ els, ∀ i ∈ el, i ∈ List.range cs.length) :
    Sim own k φ (Views φ) nt nc (makeViews (φ t) (picks (renCells φ cs) els)) (makeViews t (picks cs els)) := by
  have he' := fun el hel i hi => List.mem_range.1 (he el hel i hi)
  rw [picks_ren he']
  exact sim_makeViews hφ ht (picks_lt hc hl he')

theorem id_ren {cs : List (Nat × Cell)} {i : Nat} (hi : i ∈ List.range cs.length) :
    ((renCells φ cs).getD i default).2.id = (cs.getD i default).2.id := by
  have := List.mem_range.1 hi
  simp [List.getD_eq_getElem?_getD, this]

theorem sim_divide (hφ : ∀ n, n ≤ φ n) {t : Nat} (ht : t < nt) (sep : Nat) (ids : List Nat) :
    Sim own k φ (Views φ) nt nc (divide (φ t) sep ids) (divide t sep ids) := by
  refine .getTree ht fun o ho => (sim_cells ho.lst).bind fun nt' nc' x y h1 h2 ⟨e, h4, h5⟩ => ?_
  subst e
  have e := divideLoop_sim (g := fun i => i) (idOf := fun i => ((renCells φ y).getD i default).2.id)
    (idOf' := fun i => (y.getD i default).2.id) sep ids (List.range y.length) [] true fun i hi => id_ren hi
  simp only [List.map_id_fun', List.map_id, id_eq, List.map_nil] at e
  rw [List.length_map, e]
  exact sim_views hφ (by omega) h4 (fun a ha => by have := ho.lst a ha; omega)
    fun el hel i hi => (divideLoop_sublist hel).subset hi

theorem sim_group (hφ : ∀ n, n ≤ φ n) {t : Nat} (ht : t < nt) (ids : List Nat) :
    Sim own k φ (Views φ) nt nc (group (φ t) ids) (group t ids) := by
  refine .getTree ht fun o ho => (sim_cells ho.lst).bind fun nt' nc' x y h1 h2 ⟨e, h4, h5⟩ => ?_
  subst e
  have e := groupLists_sim (g := fun i => i) (idOf := fun i => ((renCells φ y).getD i default).2.id)
    (idOf' := fun i => (y.getD i default).2.id) (List.range y.length) ids fun i hi => id_ren hi
  simp only [List.map_id_fun', List.map_id, id_eq] at e
  rw [List.length_map, e]
  exact sim_views hφ (by omega) h4 (fun a ha => by have := ho.lst a ha; omega)
    fun el hel => groupLists_sub hel

theorem sim_separate (hφ : ∀ n, n ≤ φ n) {t : Nat} (ht : t < nt) (id : Nat) :
    Sim own k φ (Views φ) nt nc (separate (φ t) id) (separate t id) := by
  refine .getTree ht fun o ho => (sim_cells ho.lst).bind fun nt' nc' x y h1 h2 ⟨e, h4, h5⟩ => ?_
  subst e
  have e : ((List.range y.length).filter fun i => decide (((renCells φ y).getD i default).2.id = id)) =
      (List.range y.length).filter fun i => decide ((y.getD i default).2.id = id) :=
    List.filter_congr fun i hi => by rw [id_ren hi]
  rw [List.length_map, e]
  exact sim_views hφ (by omega) h4 (fun a ha => by have := ho.lst a ha; omega) fun el hel a ha => by
    obtain ⟨b, hb, rfl⟩ := List.mem_map.1 hel
    rw [List.mem_singleton.1 ha]
    exact (List.mem_filter.1 hb).1

theorem sim_subtree (hφ : ∀ n, n ≤ φ n) {t : Nat} (ht : t < nt) (select : Event → Bool) :
    Sim own k φ (Views φ) nt nc (subtree (φ t) select) (subtree t select) := by
  refine .getTree ht fun o ho => (sim_cells ho.lst).bind fun nt' nc' x y h1 h2 ⟨e, h4, h5⟩ => ?_
  subst e
  refine (sim_events h5).bind fun nt2 nc2 x z h6 h7 e => ?_
  subst e
  rw [List.length_map]
  exact sim_views hφ (by omega) h4 (fun a ha => by have := ho.lst a ha; omega) fun el hel a ha => by
    rw [List.mem_singleton.1 hel] at ha
    exact (List.mem_filter.1 ha).1

theorem sim_subtrees (hφ : ∀ n, n ≤ φ n) {t : Nat} (ht : t < nt) (select : List Event → Option Bool) (rep : Int) :
    Sim own k φ (Views φ) nt nc (subtrees (φ t) select rep) (subtrees t select rep) := by
  refine .getTree ht fun o ho => (sim_cells ho.lst).bind fun nt' nc' x y h1 h2 ⟨e, h4, h5⟩ => ?_
  subst e
  refine (sim_events h5).bind fun nt2 nc2 x z h6 h7 e => ?_
  subst e
  rw [List.length_map]
  exact sim_views hφ (by omega) h4 (fun a ha => by have := ho.lst a ha; omega) fun el hel a ha => by
    have := (subtreesLoop_sublist hel).subset ha
    rwa [runSelect_fst] at this

theorem sim_assign {t : Nat} (ht : t < nt) (i : Nat) (v : Value) :
    Sim own k φ (fun _ _ x y => x = y) nt nc (assign (φ t) i v) (assign t i v) := by
  refine .getTree ht fun o ho => ?_
  have e : (o.ren φ).lst[i]? = o.lst[i]?.map φ := by simp [Tree.ren]
  rw [e]
  cases hi : o.lst[i]? with
  | none => exact .ret rfl
  | some a =>
    exact .getCell (ho.lst a (List.mem_of_getElem? hi)) fun c hc => .getEvent hc fun e => .setEvent hc (.ret rfl)

theorem sim_listing {t : Nat} (ht : t < nt) : Sim own k φ (fun _ _ x y => x = y) nt nc (listing (φ t)) (listing t) := by
  refine .getTree ht fun o ho => (sim_cells ho.lst).bind fun nt' nc' x y h1 h2 ⟨e, h4, h5⟩ => ?_
  subst e
  exact sim_events h5

theorem sim_look {ts : List Nat} (ht : ∀ t ∈ ts, t < nt) :
    Sim own k φ (fun _ _ x y => x = y) nt nc (look (ts.map φ)) (look ts) := by
  induction ts generalizing nt nc with
  | nil => exact .ret rfl
  | cons t ts ih =>
    refine .getTree (ht t (by simp)) fun o ho => (sim_cells ho.lst).bind fun nt' nc' x y h1 h2 ⟨e, h4, h5⟩ => ?_
    subst e
    refine (sim_events h5).bind fun nt2 nc2 x z h6 h7 e => ?_
    subst e
    refine (ih fun u hu => ?_).bind fun nt3 nc3 x' y' _ _ e => .ret ?_
    · have := ht u (by simp [hu]); omega
    · rw [e, List.zip_map_left, List.map_map]
      rfl

theorem sim_setEvents {l : List (Nat × Event)} (hl : ∀ x ∈ l, own x.1 = k) :
    Sim own k φ (fun _ _ _ _ => True) nt nc (setEvents l) (setEvents l) := by
  induction l with
  | nil => exact .ret trivial
  | cons x l ih => exact .setEvent (hl x (by simp)) (ih fun y hy => hl y (by simp [hy]))

theorem sim_newCells {cs : List Cell} (hc : ∀ c ∈ cs, own c.ref = k) :
    Sim own k φ (fun _ nc' x y => x = y.map φ ∧ ∀ a ∈ y, a < nc') nt nc (newCells cs) (newCells cs) := by
  induction cs generalizing nt nc with
  | nil => exact .ret ⟨rfl, fun a ha => by cases ha⟩
  | cons c cs ih =>
    refine .newCell (hc c (by simp)) ((ih fun d hd => hc d (by simp [hd])).bind fun nt' nc' x y h1 h2 ⟨e, h3⟩ =>
      .ret ⟨?_, fun a ha => ?_⟩)
    · rw [e]; rfl
    · rcases List.mem_cons.1 ha with rfl | ha
      · omega
      · exact h3 a ha

/-- An opened project with other handles. -/
def renOpened (φ : Nat → Nat) (o : Opened) : Opened := { o with trees := o.trees.map φ }

/-- The same project with other handles. -/
abbrev OpenedAs (φ : Nat → Nat) : Nat → Nat → Opened × Outcome → Opened × Outcome → Prop := fun nt' _ x y =>
  x = (renOpened φ y.1, y.2) ∧ ∀ t ∈ y.1.trees, t < nt'

theorem sim_giveP {o : Opened} (ho : ∀ t ∈ o.trees, t < nt) {p q : Prog (List Nat)} (s : Sim own k φ (Views φ) nt nc p q) :
    Sim own k φ (OpenedAs φ) nt nc (giveP (renOpened φ o) p) (giveP o q) := by
  refine s.bind fun nt' nc' x y h1 h2 ⟨e, h3⟩ => .ret ⟨?_, fun t ht => ?_⟩
  · subst e
    simp [renOpened]
  · rcases List.mem_append.1 ht with ht | ht
    · have := ho t ht; omega
    · exact h3 t ht

theorem sim_saved {o : Opened} (ho : ∀ t ∈ o.trees, t < nt) :
    Sim own k φ (fun _ _ x y => x = y) nt nc (saved (renOpened φ o)) (saved o) := by
  unfold saved
  have e : (renOpened φ o).trees.head? = o.trees.head?.map φ := by simp [renOpened]
  rw [e]
  cases h : o.trees.head? with
  | none => exact .ret rfl
  | some t => exact sim_listing (ho t (List.mem_of_head? h))

variable [FloatEnv]

theorem sim_act (hφ : ∀ n, n ≤ φ n) {o : Opened} (ho : ∀ t ∈ o.trees, t < nt) (a : Action)
    (hb : ∀ ref, Brings a ref → own ref = k) :
    Sim own k φ (OpenedAs φ) nt nc (act (renOpened φ o) a) (act o a) := by
  have done : ∀ {nt' nc' : Nat} (r : Outcome), nt ≤ nt' → Sim own k φ (OpenedAs φ) nt' nc' (ret (renOpened φ o, r)) (ret (o, r)) :=
    fun r h => .ret ⟨rfl, fun t ht => by have := ho t ht; omega⟩
  have hget : ∀ t : Nat, (renOpened φ o).trees[t]? = o.trees[t]?.map φ := fun t => by simp [renOpened]
  have hmem : ∀ t n : Nat, o.trees[t]? = some n → n < nt := fun t n h => ho n (List.mem_of_getElem? h)
  cases a with
  | parse file refs => exact done _ (Nat.le_refl _)
  | make ref e => exact done _ (Nat.le_refl _)
  | save =>
    unfold act
    dsimp only
    refine (sim_saved ho).bind fun nt' nc' x y h1 h2 e => ?_
    subst e
    show Sim own k φ (OpenedAs φ) nt' nc' (match saveBytes ⟨o.format, o.channelCount, o.ppq, x⟩ with
      | .ok b => ret (renOpened φ o, .bytes b)
      | .error x => ret (renOpened φ o, .raised x)) _
    cases saveBytes _ with
    | ok b => exact done _ h1
    | error x => exact done _ h1
  | insert t pos ref =>
    unfold act
    dsimp only
    rw [hget]
    cases ht : o.trees[t]? with
    | none => exact done _ (Nat.le_refl _)
    | some n =>
      have hr : own ref = k := hb ref rfl
      exact .getEvent hr fun e => (sim_insert hφ (hmem t n ht) pos hr e.id).bind fun nt' nc' x y h1 h2 e => by
        rw [e]; exact done _ h1
  | append t ref =>
    unfold act
    dsimp only
    rw [hget]
    cases ht : o.trees[t]? with
    | none => exact done _ (Nat.le_refl _)
    | some n =>
      have hr : own ref = k := hb ref rfl
      exact .getEvent hr fun e => (sim_append hφ (hmem t n ht) hr e.id).bind fun nt' nc' x y h1 h2 e => by
        rw [e]; exact done _ h1
  | pop t id pos =>
    unfold act
    dsimp only
    rw [hget]
    cases ht : o.trees[t]? with
    | none => exact done _ (Nat.le_refl _)
    | some n =>
      refine (sim_pop hφ (hmem t n ht) id pos).bind fun nt' nc' x y h1 h2 ⟨e, h3⟩ => ?_
      subst e
      cases x with
      | error x => exact done _ h1
      | ok ref => exact .getEvent (h3 ref rfl) fun e => done _ h1
  | divide t sep ids =>
    unfold act
    dsimp only
    rw [hget]
    cases ht : o.trees[t]? with
    | none => exact done _ (Nat.le_refl _)
    | some n => exact sim_giveP ho (sim_divide hφ (hmem t n ht) sep ids)
  | subtrees t select rep =>
    unfold act
    dsimp only
    rw [hget]
    cases ht : o.trees[t]? with
    | none => exact done _ (Nat.le_refl _)
    | some n => exact sim_giveP ho (sim_subtrees hφ (hmem t n ht) select rep)
  | group t ids =>
    unfold act
    dsimp only
    rw [hget]
    cases ht : o.trees[t]? with
    | none => exact done _ (Nat.le_refl _)
    | some n => exact sim_giveP ho (sim_group hφ (hmem t n ht) ids)
  | separate t id =>
    unfold act
    dsimp only
    rw [hget]
    cases ht : o.trees[t]? with
    | none => exact done _ (Nat.le_refl _)
    | some n => exact sim_giveP ho (sim_separate hφ (hmem t n ht) id)
  | subtree t select =>
    unfold act
    dsimp only
    rw [hget]
    cases ht : o.trees[t]? with
    | none => exact done _ (Nat.le_refl _)
    | some n => exact sim_giveP ho (sim_subtree hφ (hmem t n ht) select)
  | assign t i v =>
    unfold act
    dsimp only
    rw [hget]
    cases ht : o.trees[t]? with
    | none => exact done _ (Nat.le_refl _)
    | some n =>
      exact (sim_assign (hmem t n ht) i v).bind fun nt' nc' x y h1 h2 e => by rw [e]; exact done _ h1
  | header f c q => exact .ret ⟨rfl, ho⟩

/-- The same project, if it is opened. -/
abbrev MaybeAs (φ : Nat → Nat) : Nat → Nat → Option Opened × Outcome → Option Opened × Outcome → Prop := fun nt' _ x y =>
  x = (y.1.map (renOpened φ), y.2) ∧ ∀ o, y.1 = some o → ∀ t ∈ o.trees, t < nt'

theorem sim_step (hφ : ∀ n, n ≤ φ n) {o : Option Opened} (ho : ∀ p, o = some p → ∀ t ∈ p.trees, t < nt) (a : Action)
    (hb : ∀ ref, Brings a ref → own ref = k) :
    Sim own k φ (MaybeAs φ) nt nc (step (o.map (renOpened φ)) a) (step o a) := by
  have rest : Sim own k φ (MaybeAs φ) nt nc
      (match o.map (renOpened φ) with | none => ret (none, .nothing) | some o => (act o a).bind fun r => ret (some r.1, r.2))
      (match (generalizing := false) o with | none => ret (none, .nothing) | some o => (act o a).bind fun r => ret (some r.1, r.2)) := by
    cases o with
    | none => exact .ret ⟨rfl, fun o h => by cases h⟩
    | some o =>
      refine (sim_act hφ (ho o rfl) a hb).bind fun nt' nc' x y h1 h2 ⟨e, h3⟩ => .ret ⟨?_, fun p hp => ?_⟩
      · rw [e]; rfl
      · injection hp with hp
        rw [← hp]
        exact h3
  cases a with
  | parse file refs =>
    unfold step
    dsimp only
    cases parseFile file with
    | error x => exact .ret ⟨rfl, ho⟩
    | ok p =>
      have hr : ∀ i, own (refs i) = k := fun i => hb _ ⟨i, rfl⟩
      dsimp only
      refine (sim_setEvents fun x hx => ?_).bind fun nt' nc' _ _ _ _ _ => (sim_newCells fun c hc => ?_).bind
        fun nt2 nc2 x y h1 h2 ⟨e, h3⟩ => ?_
      · obtain ⟨y, _, rfl⟩ := List.mem_map.1 (List.mem_reverse.1 hx)
        exact hr _
      · obtain ⟨y, _, rfl⟩ := List.mem_map.1 hc
        exact hr _
      · subst e
        refine (sim_makeTree (par := none) hφ (fun p h => by cases h) h3).bind fun nt3 nc3 x z h4 h5 ⟨e, h6⟩ => .ret ⟨?_, fun o h t ht => ?_⟩
        · subst e; rfl
        · injection h with h
          rw [← h] at ht
          rw [List.mem_singleton.1 ht]
          exact h6
  | make ref e => exact .setEvent (hb ref rfl) (.ret ⟨rfl, ho⟩)
  | save => exact rest
  | insert => exact rest
  | append => exact rest
  | pop => exact rest
  | divide => exact rest
  | subtrees => exact rest
  | group => exact rest
  | separate => exact rest
  | subtree => exact rest
  | assign => exact rest
  | header => exact rest

theorem sim_script (hφ : ∀ n, n ≤ φ n) {o : Option Opened} (ho : ∀ p, o = some p → ∀ t ∈ p.trees, t < nt) {l : List Action}
    (hb : ∀ a ∈ l, ∀ ref, Brings a ref → own ref = k) :
    Sim own k φ (fun _ _ x y => x = y) nt nc (script (o.map (renOpened φ)) l) (script o l) := by
  induction l generalizing o nt nc with
  | nil =>
    cases o with
    | none => exact .ret rfl
    | some o => exact (sim_look (ho o rfl)).bind fun nt' nc' x y _ _ e => .ret (by rw [e]; rfl)
  | cons a l ih =>
    refine (sim_step hφ ho a (hb a (by simp))).bind fun nt' nc' x y _ _ ⟨e, h1⟩ => ?_
    subst e
    exact (ih h1 fun b hb' => hb b (by simp [hb'])).bind fun nt2 nc2 x y _ _ e => .ret (by rw [e])

end Prog

end

end PyFLP
