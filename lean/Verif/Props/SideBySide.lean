import Verif.ProcessSim
import Verif.ViewLemmas
import Verif.Props.Files
/-!
# Projects opened side by side (C141)
-/

namespace PyFLP

open Heap Process

namespace Spec

/-- The event objects an action brings along. -/
def Brings : Action → Nat → Prop
  | .parse _ refs, ref => ∃ i, ref = refs i
  | .make ref _, ref' => ref' = ref
  | .insert _ _ ref, ref' => ref' = ref
  | .append _ ref, ref' => ref' = ref
  | _, _ => False

/-- No event object is brought into two projects: each belongs to the one project `own` says. -/
def OwnObjects (own : Nat → Nat) (prog : List (Nat × Action)) : Prop :=
  ∀ s ∈ prog, ∀ ref, Brings s.2 ref → own ref = s.1

end Spec

open Spec

/-! ### Lists of views -/

theorem divideLoop_sim {g idOf idOf' : Nat → Nat} (sep : Nat) (ids : List Nat) (l el : List Nat) (first : Bool)
    (hl : ∀ a ∈ l, idOf (g a) = idOf' a) :
    divideLoop idOf sep ids (l.map g) (el.map g) first = (divideLoop idOf' sep ids l el first).map (List.map g) := by
  induction l generalizing el first with
  | nil => rfl
  | cons a l ih =>
    have ih' := fun el first => ih el first fun b hb => hl b (by simp [hb])
    rw [List.map_cons]
    unfold divideLoop
    rw [hl a (by simp)]
    have e1 : ∀ el : List Nat, (if idOf' a ∈ ids then el.map g ++ [g a] else el.map g) =
        (if idOf' a ∈ ids then el ++ [a] else el).map g := by
      intro el; split <;> simp
    have e2 := e1 []
    simp only [List.map_nil] at e2
    by_cases h1 : idOf' a = sep
    · cases first with
      | true => simp only [h1, if_true] at *; rw [e1, ih']; simp
      | false => simp only [h1, if_true] at *; simp only [Bool.false_eq_true, if_false]; rw [e2, ih']; simp
    · simp only [h1, if_false]; rw [e1, ih']; simp

theorem runSelect_sim {σ : Type} {g : Nat → Nat} {select select' : σ → Nat → Option Bool × σ} (l : List Nat) (s : σ)
    (hl : ∀ a ∈ l, ∀ s, select s (g a) = select' s a) :
    runSelect select s (l.map g) = (runSelect select' s l).map fun x => (g x.1, x.2) := by
  induction l generalizing s with
  | nil => rfl
  | cons a l ih =>
    rw [List.map_cons, runSelect, runSelect, hl a (by simp), ih _ fun b hb => hl b (by simp [hb])]
    rfl

theorem subtreesLoop_sim {g : Nat → Nat} (l : List (Nat × Option Bool)) (el : List Nat) (rep : Int) :
    subtreesLoop (l.map fun x => (g x.1, x.2)) (el.map g) rep = (subtreesLoop l el rep).map (List.map g) := by
  induction l generalizing el rep with
  | nil => rfl
  | cons x l ih =>
    obtain ⟨a, ans⟩ := x
    rw [List.map_cons]
    dsimp only
    unfold subtreesLoop
    split
    · rfl
    · cases ans with
      | none => exact ih el rep
      | some b =>
        cases b with
        | true =>
          have := ih (el ++ [a]) rep
          simpa using this
        | false =>
          have := ih [a] (rep - 1)
          simpa using this

theorem zipLongest_sim {g : Nat → Nat} (ls : List (List Nat)) (n : Nat) :
    zipLongest (ls.map (List.map g)) n = (zipLongest ls n).map (List.map g) := by
  induction n generalizing ls with
  | zero => rfl
  | succ n ih =>
    have e1 : (ls.map (List.map g)).map List.tail = (ls.map List.tail).map (List.map g) := by
      simp [List.map_tail]
    have e2 : (ls.map (List.map g)).filterMap List.head? = (ls.filterMap List.head?).map g := by
      induction ls with
      | nil => rfl
      | cons l ls ih2 =>
        rw [List.map_cons, List.filterMap_cons, List.filterMap_cons]
        cases l with
        | nil => exact ih2 (by simp [List.map_tail])
        | cons a l =>
          simp only [List.map_cons, List.head?_cons]
          rw [ih2 (by simp [List.map_tail])]
    rw [zipLongest, zipLongest, e1, e2, ih]
    rfl

theorem groupLists_sim {g idOf idOf' : Nat → Nat} (l ids : List Nat) (hl : ∀ a ∈ l, idOf (g a) = idOf' a) :
    groupLists idOf (l.map g) ids = (groupLists idOf' l ids).map (List.map g) := by
  unfold groupLists
  have e : (ids.map fun i => (l.map g).filter fun a => decide (idOf a = i)) =
      (ids.map fun i => l.filter fun a => decide (idOf' a = i)).map (List.map g) := by
    rw [List.map_map]
    refine List.map_congr_left fun i _ => ?_
    exact filter_sim fun a ha => by rw [hl a ha]
  dsimp only
  rw [e, zipLongest_sim]
  congr 2
  rw [List.map_map]
  congr 2
  exact List.map_congr_left fun a _ => by simp

theorem groupLists_sub {idOf : Nat → Nat} {l ids el : List Nat} (h : el ∈ groupLists idOf l ids) : ∀ a ∈ el, a ∈ l := by
  obtain ⟨k, rfl⟩ := groupLists_mem h
  intro a ha
  obtain ⟨i, _, hi⟩ := List.mem_filterMap.1 ha
  exact (List.mem_filter.1 (List.mem_of_getElem? hi)).1

/-! ### An action changes its own project only -/

/-- Projects have nothing in common. -/
structure SetApart (own : Nat → Nat) (s : Process) (lt lc : Nat → Nat) : Prop where
  heap : HSep own s.heap lt lc
  held : ∀ k o, s.projects k = some o → ∀ t ∈ o.trees, t < s.heap.trees.length ∧ lt t = k

/-- The project `j` was acted on. -/
structure Acts (own : Nat → Nat) (j : Nat) (s : Process) (lt lc : Nat → Nat) (s' : Process) (lt' lc' : Nat → Nat) : Prop where
  ch : Ch own j s.heap lt lc s'.heap lt' lc'
  held : ∀ o, s'.projects j = some o → ∀ t ∈ o.trees, t < s'.heap.trees.length ∧ lt' t = j
  others : ∀ i, i ≠ j → s'.projects i = s.projects i
  store : ∀ ref, own ref ≠ j → s'.store ref = s.store ref

section
variable {own : Nat → Nat} {j : Nat} {s : Process} {lt lc : Nat → Nat}

theorem Acts.apart {s' : Process} {lt' lc' : Nat → Nat} (a : Acts own j s lt lc s' lt' lc') (w : SetApart own s lt lc) :
    SetApart own s' lt' lc' := by
  refine ⟨a.ch.sep, fun k o ho t ht => ?_⟩
  by_cases hk : k = j
  · subst hk; exact a.held o ho t ht
  · rw [a.others k hk] at ho
    obtain ⟨h1, h2⟩ := w.held k o ho t ht
    exact ⟨Nat.lt_of_lt_of_le h1 a.ch.tlen, by rw [a.ch.tlab t h1]; exact h2⟩

theorem Acts.refl (w : SetApart own s lt lc) : Acts own j s lt lc s lt lc :=
  ⟨.refl w.heap, fun o ho => w.held j o ho, fun _ _ => rfl, fun _ _ => rfl⟩

theorem acts_heap (w : SetApart own s lt lc) {h' : Heap} {lt' lc' : Nat → Nat} (c : Ch own j s.heap lt lc h' lt' lc') :
    Acts own j s lt lc { s with heap := h' } lt' lc' :=
  ⟨c, fun o ho t ht => by
    obtain ⟨h1, h2⟩ := w.held j o ho t ht
    exact ⟨Nat.lt_of_lt_of_le h1 c.tlen, by rw [c.tlab t h1]; exact h2⟩, fun _ _ => rfl, fun _ _ => rfl⟩

theorem acts_give (w : SetApart own s lt lc) {o : Opened} (ho : s.projects j = some o) {n : Nat} (hn : n ∈ o.trees)
    (els : List (List Nat)) (he : ∀ el ∈ els, ∀ a ∈ el, a ∈ s.heap.lst n) :
    ∃ lt' lc', Acts own j s lt lc (s.give j o (s.heap.yieldViews n els)).1 lt' lc' := by
  obtain ⟨h1, h2⟩ := w.held j o ho n hn
  obtain ⟨lt', c, hv⟩ := ch_yieldViews (j := j) els w.heap h1 h2 (fun el hel a ha => by
    obtain ⟨h3, h4⟩ := w.heap.lst n h1 a (he el hel a ha)
    exact ⟨h3, by rw [h4, h2]⟩)
  refine ⟨lt', lc, c, fun o' ho' t ht => ?_, fun i hi => ?_, fun _ _ => rfl⟩
  · have e : o' = { o with trees := o.trees ++ (s.heap.yieldViews n els).2 } := by
      have : (if j = j then some { o with trees := o.trees ++ (s.heap.yieldViews n els).2 } else s.projects j) = some o' := ho'
      rw [if_pos rfl] at this
      injection this with this
      exact this.symm
    rw [e] at ht
    rcases List.mem_append.1 ht with ht | ht
    · obtain ⟨h3, h4⟩ := w.held j o ho t ht
      exact ⟨Nat.lt_of_lt_of_le h3 c.tlen, by rw [c.tlab t h3]; exact h4⟩
    · obtain ⟨h3, h4⟩ := hv t ht
      exact ⟨h4, c.tnew t h3 h4⟩
  · exact if_neg hi

variable [FloatEnv]

theorem act_acts (w : SetApart own s lt lc) {o : Opened} (ho : s.projects j = some o) (a : Action)
    (hb : ∀ ref, Brings a ref → own ref = j) : ∃ lt' lc', Acts own j s lt lc (s.act j o a).1 lt' lc' := by
  have same : ∃ lt' lc', Acts own j s lt lc s lt' lc' := ⟨lt, lc, .refl w⟩
  cases a with
  | parse f r => exact same
  | make r e => exact same
  | save =>
    unfold act
    dsimp only
    split <;> exact same
  | insert t pos ref =>
    unfold act
    dsimp only
    cases ht : o.trees[t]? with
    | none => exact same
    | some n =>
      obtain ⟨h1, h2⟩ := w.held j o ho n (List.mem_of_getElem? ht)
      obtain ⟨lc', c⟩ := ch_insert (j := j) w.heap h1 h2 pos ref (s.store ref).id (hb ref rfl)
      exact ⟨lt, lc', acts_heap w c⟩
  | append t ref =>
    unfold act
    dsimp only
    cases ht : o.trees[t]? with
    | none => exact same
    | some n =>
      obtain ⟨h1, h2⟩ := w.held j o ho n (List.mem_of_getElem? ht)
      obtain ⟨lc', c⟩ := ch_insert (j := j) w.heap h1 h2 (s.heap.lst n).length ref (s.store ref).id (hb ref rfl)
      exact ⟨lt, lc', acts_heap w c⟩
  | pop t id pos =>
    unfold act
    dsimp only
    cases ht : o.trees[t]? with
    | none => exact same
    | some n =>
      obtain ⟨h1, h2⟩ := w.held j o ho n (List.mem_of_getElem? ht)
      have c := ch_pop (j := j) w.heap h1 h2 id pos
      dsimp only
      split
      · next hp => rw [hp] at c; exact ⟨lt, lc, acts_heap w c⟩
      · next hp => rw [hp] at c; exact ⟨lt, lc, acts_heap w c⟩
  | divide t sep ids =>
    unfold act
    dsimp only
    cases ht : o.trees[t]? with
    | none => exact same
    | some n =>
      exact acts_give w ho (List.mem_of_getElem? ht) _ (fun el hel a ha => (divideLoop_sublist hel).subset ha)
  | subtrees t select rep =>
    unfold act
    dsimp only
    cases ht : o.trees[t]? with
    | none => exact same
    | some n =>
      exact acts_give w ho (List.mem_of_getElem? ht) _ (fun el hel a ha => by
        have := (subtreesLoop_sublist hel).subset ha
        rwa [runSelect_fst] at this)
  | group t ids =>
    unfold act
    dsimp only
    cases ht : o.trees[t]? with
    | none => exact same
    | some n => exact acts_give w ho (List.mem_of_getElem? ht) _ (fun el hel => groupLists_sub hel)
  | separate t id =>
    unfold act
    dsimp only
    cases ht : o.trees[t]? with
    | none => exact same
    | some n =>
      exact acts_give w ho (List.mem_of_getElem? ht) _ (fun el hel a ha => by
        obtain ⟨b, hb, rfl⟩ := List.mem_map.1 hel
        rw [List.mem_singleton.1 ha]
        exact (List.mem_filter.1 hb).1)
  | subtree t select =>
    unfold act
    dsimp only
    cases ht : o.trees[t]? with
    | none => exact same
    | some n =>
      exact acts_give w ho (List.mem_of_getElem? ht) [(s.heap.lst n).filter fun a => select (s.event a)] (fun el hel a ha => by
        rw [List.mem_singleton.1 hel] at ha
        exact (List.mem_filter.1 ha).1)
  | assign t i v =>
    unfold act
    dsimp only
    cases ht : o.trees[t]? with
    | none => exact same
    | some n =>
      dsimp only
      cases hi : (s.heap.lst n)[i]? with
      | none => exact same
      | some a =>
        obtain ⟨h1, h2⟩ := w.held j o ho n (List.mem_of_getElem? ht)
        obtain ⟨h3, h4⟩ := w.heap.lst n h1 a (List.mem_of_getElem? hi)
        refine ⟨lt, lc, .refl w.heap, fun o ho => w.held j o ho, fun _ _ => rfl, fun ref hr => if_neg ?_⟩
        rintro rfl
        exact hr (by rw [w.heap.ref a h3, h4, h2])
  | header f c q =>
    refine ⟨lt, lc, .refl w.heap, fun o' ho' t ht => ?_, fun i hi => if_neg hi, fun _ _ => rfl⟩
    have : (if j = j then some { o with format := f, channelCount := c, ppq := q } else s.projects j) = some o' := ho'
    rw [if_pos rfl] at this
    injection this with this
    rw [← this] at ht
    exact w.held j o ho t ht

end

/-! ### Loading -/

namespace Heap

theorem load_refs {evs : List (Nat × Nat)} {c : Cell}
    (hc : c ∈ evs.zipIdx.map fun x => (⟨(x.2 : Int), x.1.1, x.1.2⟩ : Cell)) : ∃ x ∈ evs, c.ref = x.1 := by
  obtain ⟨x, hx, rfl⟩ := List.mem_map.1 hc
  exact ⟨x.1, (List.mem_zipIdx hx).2.2 ▸ List.getElem_mem .., rfl⟩

theorem ch_load {own : Nat → Nat} {j : Nat} {h : Heap} {lt lc : Nat → Nat} (s : HSep own h lt lc) (evs : List (Nat × Nat))
    (he : ∀ x ∈ evs, own x.1 = j) : ∃ lt' lc', Ch own j h lt lc (h.load evs).1 lt' lc' ∧ (h.load evs).2 = h.trees.length ∧
      (h.load evs).1.trees.length = h.trees.length + 1 := by
  have c1 := ch_cells (j := j) s (evs.zipIdx.map fun x => ⟨x.2, x.1.1, x.1.2⟩) (fun c hc => by
    obtain ⟨x, h1, h2⟩ := load_refs hc
    rw [h2]; exact he x h1)
  obtain ⟨c2, h1, h2⟩ := ch_newTree (j := j) c1.sep (par := none) (init := List.range' h.cells.length evs.length)
    (fun p hp => by cases hp) (fun a ha => by
      rw [List.mem_range'_1] at ha
      refine ⟨by simp; omega, ?_⟩
      unfold label; rw [if_neg (by omega)])
  exact ⟨_, _, c1.trans c2, h1, h2⟩

theorem ext_load {own : Nat → Nat} {h q : Heap} {lt lc lu ld : Nat → Nat} {f g : Nat → Nat} {j : Nat} (s : HSim h q f g)
    (wh : HSep own h lt lc) (wq : HSep own q lu ld) (evs : List (Nat × Nat)) (he : ∀ x ∈ evs, own x.1 = j) :
    ∃ f' g', Ext h q f g (h.load evs).1 (q.load evs).1 f' g' ∧ (h.load evs).2 = f' (q.load evs).2 := by
  have hc : ∀ c ∈ (evs.zipIdx.map fun x => (⟨x.2, x.1.1, x.1.2⟩ : Cell)), own c.ref = j := fun c hc => by
    obtain ⟨x, h1, h2⟩ := load_refs hc
    rw [h2]; exact he x h1
  have c1 := ch_cells (j := j) wh _ hc
  have c2 := ch_cells (j := j) wq _ hc
  have e1 := ext_cells s wq (evs.zipIdx.map fun x => (⟨x.2, x.1.1, x.1.2⟩ : Cell))
  have e2 := ext_newTree e1.sim c1.sep c2.sep (par := none) (init := List.range' q.cells.length evs.length)
    (fun p hp => by cases hp) (fun a ha => by
      rw [List.mem_range'_1] at ha
      simp; omega)
  have hr : (List.range' q.cells.length evs.length).map (renumber q.cells.length h.cells.length g) =
      List.range' h.cells.length evs.length := by
    apply List.ext_getElem
    · simp
    · intro i h1 h2
      simp only [List.length_map, List.length_range'] at h1
      simp only [List.getElem_map, List.getElem_range']
      rw [renumber_new (by omega)]
      omega
  rw [hr] at e2
  refine ⟨_, _, e1.trans e2, ?_⟩
  have h1 : (h.load evs).2 = h.trees.length := rfl
  have h2 : (q.load evs).2 = q.trees.length := rfl
  rw [h1, h2]
  show _ = renumber q.trees.length h.trees.length f q.trees.length
  rw [renumber_new (by omega)]
  omega

end Heap

/-! ### Any step -/

theorem Heap.pop_own {own : Nat → Nat} {j : Nat} {h : Heap} {lt lc : Nat → Nat} (s : HSep own h lt lc) {t : Nat}
    (ht : t < h.trees.length) (hl : lt t = j) {id : Nat} {pos : Int} {h' : Heap} {ref : Nat}
    (hp : h.pop t id pos = (h', .ok ref)) : own ref = j := by
  unfold pop at hp
  split at hp
  · cases hi : pyIndex ((h.lst t).filter fun a => (h.cell a).id == id) pos with
    | none => rw [hi] at hp; cases hp
    | some ie =>
      rw [hi] at hp
      dsimp only at hp
      have hie : ie ∈ h.lst t := (List.mem_filter.1 (pyIndex_mem hi)).1
      obtain ⟨h3, h4⟩ := s.lst t ht ie hie
      have c1 := ch_removeAll (j := j) ie (t :: h.ancestors t) s (fun u hu => by
        rcases List.mem_cons.1 hu with rfl | hu
        · exact ⟨ht, hl⟩
        · obtain ⟨h3, h4⟩ := ancestors_label s ht hu
          exact ⟨by omega, by rw [h4, hl]⟩)
      split at hp
      · cases hp
      · next h1 he =>
        rw [he] at c1
        injection hp with _ hp
        injection hp with hp
        rw [← hp, c1.sep.ref ie (Nat.lt_of_lt_of_le h3 c1.clen), h4, hl]
  · cases hp

section
variable [FloatEnv] {own : Nat → Nat} {j : Nat} {s : Process} {lt lc : Nat → Nat}

omit own j lt lc in
theorem step_parse {k : Nat} {file : Bytes} {refs : Nat → Nat} {p : Project} (hp : parseFile file = .ok p) :
    s.step k (.parse file refs) =
      ({ heap := (s.heap.load (p.events.zipIdx.map fun x => (refs x.2, x.1.id))).1,
         store := fun x => ((p.events.zipIdx.filter fun y => refs y.2 = x).map Prod.fst).headD (s.store x),
         projects := fun j => if j = k then
           some ⟨p.format, p.channelCount, p.ppq, [(s.heap.load (p.events.zipIdx.map fun x => (refs x.2, x.1.id))).2]⟩
           else s.projects j }, .done) := by
  unfold step
  dsimp only
  rw [hp]

theorem step_acts (w : SetApart own s lt lc) (a : Action) (hb : ∀ ref, Brings a ref → own ref = j) :
    ∃ lt' lc', Acts own j s lt lc (s.step j a).1 lt' lc' := by
  have same : ∃ lt' lc', Acts own j s lt lc s lt' lc' := ⟨lt, lc, .refl w⟩
  have rest : ∃ lt' lc', Acts own j s lt lc (match s.projects j with | none => (s, Outcome.nothing) | some o => s.act j o a).1 lt' lc' := by
    cases ho : s.projects j with
    | none => exact same
    | some o => exact act_acts w ho a hb
  cases a with
  | parse file refs =>
    cases hp : parseFile file with
    | error x =>
      have e : s.step j (.parse file refs) = (s, .raised x) := by unfold step; dsimp only; rw [hp]
      rw [e]; exact same
    | ok p =>
      rw [step_parse hp]
      have he : ∀ x ∈ p.events.zipIdx.map (fun x => (refs x.2, x.1.id)), own x.1 = j := fun x hx => by
        obtain ⟨y, _, rfl⟩ := List.mem_map.1 hx
        exact hb _ ⟨_, rfl⟩
      obtain ⟨lt', lc', c, h1, h2⟩ := ch_load (j := j) w.heap _ he
      refine ⟨lt', lc', c, fun o ho t ht => ?_, fun i hi => if_neg hi, fun ref hr => ?_⟩
      · simp only [if_pos] at ho
        injection ho with ho
        rw [← ho] at ht
        have ht' := List.mem_singleton.1 ht
        rw [ht', h1]
        exact ⟨by dsimp only; omega, c.tnew _ (Nat.le_refl _) (by omega)⟩
      · dsimp only
        have : (p.events.zipIdx.filter fun y => decide (refs y.2 = ref)) = [] := by
          rw [List.filter_eq_nil_iff]
          intro y _
          simp only [decide_eq_true_eq]
          intro e
          exact hr (hb ref ⟨_, e.symm⟩)
        rw [this]
        rfl
  | make ref e =>
    refine ⟨lt, lc, .refl w.heap, fun o ho => w.held j o ho, fun _ _ => rfl, fun r hr => if_neg ?_⟩
    rintro rfl
    exact hr (hb r rfl)
  | save => exact rest
  | insert => exact rest
  | append => exact rest
  | pop => exact rest
  | divide => exact rest
  | subtrees => exact rest
  | group => exact rest
  | separate => exact rest
  | subtree => exact rest
  | assign => exact rest
  | header => exact rest

end

/-! ### A project by itself -/

/-- The project `k` in the process `s` is like in the process `u`. -/
structure Same (own : Nat → Nat) (k : Nat) (s u : Process) (f g : Nat → Nat) : Prop where
  heap : HSim s.heap u.heap f g
  store : ∀ ref, own ref = k → s.store ref = u.store ref
  project : s.projects k = (u.projects k).map fun o => { o with trees := o.trees.map f }

section
variable {own : Nat → Nat} {k : Nat} {s u : Process} {f g : Nat → Nat} {lt lc lu ld : Nat → Nat}

theorem Same.event (m : Same own k s u f g) (wu : SetApart own u lu ld) {a : Nat} (ha : a < u.heap.cells.length) (hk : ld a = k) :
    s.event (g a) = u.event a := by
  unfold Process.event
  rw [m.heap.cell a ha]
  exact m.store _ (by rw [wu.heap.ref a ha, hk])

theorem Same.events (m : Same own k s u f g) (wu : SetApart own u lu ld) {t : Nat} (ht : t < u.heap.trees.length) (hk : lu t = k) :
    s.eventsOf (f t) = u.eventsOf t := by
  unfold eventsOf
  rw [m.heap.lst t ht, List.map_map]
  refine List.map_congr_left fun a ha => ?_
  obtain ⟨h1, h2⟩ := wu.heap.lst t ht a ha
  exact m.event wu h1 (by rw [h2, hk])

/-- Acting on another project. -/
theorem Same.frame (m : Same own k s u f g) {j : Nat} (hj : j ≠ k) {s' : Process} {lt' lc' : Nat → Nat}
    (a : Acts own j s lt lc s' lt' lc') (ht : ∀ t, t < u.heap.trees.length → lt (f t) = k)
    (hc : ∀ b, b < u.heap.cells.length → lc (g b) = k) : Same own k s' u f g := by
  have tr : ∀ t, t < u.heap.trees.length → s'.heap.tree (f t) = s.heap.tree (f t) := fun t h =>
    a.ch.trees _ (m.heap.tlt t h) (by rw [ht t h]; exact fun e => hj e.symm)
  refine ⟨⟨fun t h => Nat.lt_of_lt_of_le (m.heap.tlt t h) a.ch.tlen, m.heap.tinj,
    fun b h => Nat.lt_of_lt_of_le (m.heap.clt b h) a.ch.clen, m.heap.cinj, fun t h => ?_, fun t h => ?_, fun t h => ?_,
    fun b h => ?_⟩, fun ref hr => ?_, ?_⟩
  · unfold parent; rw [tr t h]; exact m.heap.parent t h
  · unfold root; rw [tr t h]; exact m.heap.root t h
  · unfold lst; rw [tr t h]; exact m.heap.lst t h
  · rw [a.ch.cells _ (m.heap.clt b h) (by rw [hc b h]; exact fun e => hj e.symm)]
    exact m.heap.cell b h
  · rw [a.store ref (by rw [hr]; exact fun e => hj e.symm)]
    exact m.store ref hr
  · rw [a.others k fun e => hj e.symm]
    exact m.project

/-- What acting on the project itself keeps. -/
structure Both (own : Nat → Nat) (k : Nat) (s u s' u' : Process) (f g : Nat → Nat) : Prop where
  both : ∃ f' g', Ext s.heap u.heap f g s'.heap u'.heap f' g' ∧ Same own k s' u' f' g'

theorem Both.refl (m : Same own k s u f g) : Both own k s u s u f g := ⟨f, g, .refl m.heap, m⟩

theorem same_heap (m : Same own k s u f g) (wu : SetApart own u lu ld) {h' q' : Heap} {f' g' : Nat → Nat}
    (e : Ext s.heap u.heap f g h' q' f' g') : Both own k s u { s with heap := h' } { u with heap := q' } f g := by
  refine ⟨f', g', e, e.sim, m.store, ?_⟩
  show s.projects k = (u.projects k).map _
  rw [m.project]
  cases ho : u.projects k with
  | none => rfl
  | some o =>
    simp only [Option.map_some]
    congr 2
    exact List.map_congr_left fun t ht => (e.told t (wu.held k o ho t ht).1).symm

theorem same_give (m : Same own k s u f g) (ws : SetApart own s lt lc) (wu : SetApart own u lu ld) {o : Opened}
    (ho : u.projects k = some o) {n : Nat} (hn : n ∈ o.trees) (hlt : lt (f n) = k) {els : List (List Nat)} {els' : List (List Nat)}
    (hels : els' = els.map (List.map g)) (he : ∀ el ∈ els, ∀ a ∈ el, a ∈ u.heap.lst n) :
    Both own k s u (s.give k { o with trees := o.trees.map f } (s.heap.yieldViews (f n) els')).1
      (u.give k o (u.heap.yieldViews n els)).1 f g ∧
    (s.give k { o with trees := o.trees.map f } (s.heap.yieldViews (f n) els')).2 = (u.give k o (u.heap.yieldViews n els)).2 := by
  subst hels
  obtain ⟨h1, h2⟩ := wu.held k o ho n hn
  obtain ⟨f', e, hv⟩ := ext_yieldViews (j := k) els m.heap ws.heap wu.heap h1 h2 hlt
    (fun el hel a ha => by
      obtain ⟨h3, h4⟩ := wu.heap.lst n h1 a (he el hel a ha)
      exact ⟨h3, by rw [h4, h2]⟩)
    (fun el hel a ha => by
      have : g a ∈ s.heap.lst (f n) := by rw [m.heap.lst n h1]; exact List.mem_map_of_mem (he el hel a ha)
      rw [(ws.heap.lst (f n) (m.heap.tlt n h1) _ this).2, hlt])
  refine ⟨⟨f', g, e, e.sim, m.store, ?_⟩, ?_⟩
  · show (if k = k then _ else _) = Option.map _ (if k = k then _ else _)
    rw [if_pos rfl, if_pos rfl, Option.map_some, hv]
    congr 2
    rw [List.map_append]
    congr 1
    exact List.map_congr_left fun t ht => (e.told t (wu.held k o ho t ht).1).symm
  · unfold give
    dsimp only
    rw [hv, List.length_map]

variable [FloatEnv]

theorem act_same (m : Same own k s u f g) (ws : SetApart own s lt lc) (wu : SetApart own u lu ld)
    (hlt : ∀ t, t < u.heap.trees.length → lt (f t) = k) {o : Opened} (ho : u.projects k = some o) (a : Action)
    (hb : ∀ ref, Brings a ref → own ref = k) :
    Both own k s u (s.act k { o with trees := o.trees.map f } a).1 (u.act k o a).1 f g ∧
      (s.act k { o with trees := o.trees.map f } a).2 = (u.act k o a).2 := by
  have same : Both own k s u s u f g ∧ Outcome.nothing = Outcome.nothing := ⟨.refl m, rfl⟩
  have ev : ∀ n ∈ o.trees, ∀ a ∈ u.heap.lst n, s.event (g a) = u.event a := fun n hn a ha => by
    obtain ⟨h1, h2⟩ := wu.held k o ho n hn
    obtain ⟨h3, h4⟩ := wu.heap.lst n h1 a ha
    exact m.event wu h3 (by rw [h4, h2])
  have idf : ∀ n ∈ o.trees, ∀ a ∈ u.heap.lst n, s.heap.idOf (g a) = u.heap.idOf a := fun n hn a ha => by
    unfold idOf
    rw [m.heap.cell a (wu.heap.lst n (wu.held k o ho n hn).1 a ha).1]
  have lsts : ∀ n ∈ o.trees, s.heap.lst (f n) = (u.heap.lst n).map g := fun n hn => m.heap.lst n (wu.held k o ho n hn).1
  cases a with
  | parse f r => exact same
  | make r e => exact same
  | save =>
    unfold act
    dsimp only
    have e : s.toProject { o with trees := o.trees.map f } = u.toProject o := by
      unfold toProject
      cases hts : o.trees with
      | nil => rfl
      | cons t ts =>
        simp only [List.map_cons, List.head?_cons, Option.map_some, Option.getD_some]
        obtain ⟨h1, h2⟩ := wu.held k o ho t (by rw [hts]; simp)
        rw [m.events wu h1 h2]
    rw [e]
    split <;> exact ⟨.refl m, rfl⟩
  | insert t pos ref =>
    unfold act
    dsimp only
    rw [List.getElem?_map]
    cases ht : o.trees[t]? with
    | none => exact same
    | some n =>
      dsimp only [Option.map_some]
      obtain ⟨h1, h2⟩ := wu.held k o ho n (List.mem_of_getElem? ht)
      rw [m.store ref (hb ref rfl)]
      obtain ⟨g', e, h3⟩ := ext_insert (j := k) m.heap ws.heap wu.heap h1 h2 (hlt n h1) pos ref (u.store ref).id (hb ref rfl)
      exact ⟨same_heap m wu e, by rw [h3]⟩
  | append t ref =>
    unfold act
    dsimp only
    rw [List.getElem?_map]
    cases ht : o.trees[t]? with
    | none => exact same
    | some n =>
      dsimp only [Option.map_some]
      obtain ⟨h1, h2⟩ := wu.held k o ho n (List.mem_of_getElem? ht)
      rw [m.store ref (hb ref rfl)]
      unfold Heap.append
      rw [lsts n (List.mem_of_getElem? ht), List.length_map]
      obtain ⟨g', e, h3⟩ := ext_insert (j := k) m.heap ws.heap wu.heap h1 h2 (hlt n h1) (u.heap.lst n).length ref (u.store ref).id
        (hb ref rfl)
      exact ⟨same_heap m wu e, by rw [h3]⟩
  | pop t id pos =>
    unfold act
    dsimp only
    rw [List.getElem?_map]
    cases ht : o.trees[t]? with
    | none => exact same
    | some n =>
      dsimp only [Option.map_some]
      obtain ⟨h1, h2⟩ := wu.held k o ho n (List.mem_of_getElem? ht)
      obtain ⟨e, h3⟩ := ext_pop (j := k) m.heap ws.heap wu.heap h1 h2 (hlt n h1) id pos
      cases hq : u.heap.pop n id pos with
      | mk q' r =>
        cases hp : s.heap.pop (f n) id pos with
        | mk h' r' =>
          rw [hq, hp] at e h3
          dsimp only at e h3
          subst h3
          cases r' with
          | error x => exact ⟨same_heap m wu e, rfl⟩
          | ok ref =>
            refine ⟨same_heap m wu e, ?_⟩
            dsimp only
            rw [m.store ref (pop_own wu.heap h1 h2 hq)]
  | divide t sep ids =>
    unfold act
    dsimp only
    rw [List.getElem?_map]
    cases ht : o.trees[t]? with
    | none => exact same
    | some n =>
      have hn := List.mem_of_getElem? ht
      refine same_give m ws wu ho hn (hlt n (wu.held k o ho n hn).1) ?_ (fun el hel a ha => (divideLoop_sublist hel).subset ha)
      rw [lsts n hn]
      exact divideLoop_sim sep ids (u.heap.lst n) [] true (idf n hn)
  | subtrees t select rep =>
    unfold act
    dsimp only
    rw [List.getElem?_map]
    cases ht : o.trees[t]? with
    | none => exact same
    | some n =>
      have hn := List.mem_of_getElem? ht
      refine same_give m ws wu ho hn (hlt n (wu.held k o ho n hn).1) ?_ (fun el hel a ha => by
        have := (subtreesLoop_sublist hel).subset ha
        rwa [runSelect_fst] at this)
      rw [lsts n hn, runSelect_sim (u.heap.lst n) [] (fun a ha seen => by rw [ev n hn a ha])]
      exact subtreesLoop_sim _ [] rep
  | group t ids =>
    unfold act
    dsimp only
    rw [List.getElem?_map]
    cases ht : o.trees[t]? with
    | none => exact same
    | some n =>
      have hn := List.mem_of_getElem? ht
      refine same_give m ws wu ho hn (hlt n (wu.held k o ho n hn).1) ?_ (fun el hel => groupLists_sub hel)
      rw [lsts n hn]
      exact groupLists_sim _ ids (idf n hn)
  | separate t id =>
    unfold act
    dsimp only
    rw [List.getElem?_map]
    cases ht : o.trees[t]? with
    | none => exact same
    | some n =>
      have hn := List.mem_of_getElem? ht
      refine same_give m ws wu ho hn (hlt n (wu.held k o ho n hn).1) ?_ (fun el hel a ha => by
        obtain ⟨b, hb, rfl⟩ := List.mem_map.1 hel
        rw [List.mem_singleton.1 ha]
        exact (List.mem_filter.1 hb).1)
      rw [lsts n hn, filter_sim (p' := fun a => decide (u.heap.idOf a = id)) (fun a ha => by rw [idf n hn a ha])]
      simp
  | subtree t select =>
    unfold act
    dsimp only
    rw [List.getElem?_map]
    cases ht : o.trees[t]? with
    | none => exact same
    | some n =>
      have hn := List.mem_of_getElem? ht
      refine same_give m ws wu ho hn (hlt n (wu.held k o ho n hn).1) (els := [(u.heap.lst n).filter fun a => select (u.event a)])
        (els' := [(s.heap.lst (f n)).filter fun a => select (s.event a)]) ?_ (fun el hel a ha => by
          rw [List.mem_singleton.1 hel] at ha
          exact (List.mem_filter.1 ha).1)
      rw [lsts n hn, filter_sim (p' := fun a => select (u.event a)) (fun a ha => by rw [ev n hn a ha])]
      rfl
  | assign t i v =>
    unfold act
    dsimp only
    rw [List.getElem?_map]
    cases ht : o.trees[t]? with
    | none => exact same
    | some n =>
      have hn := List.mem_of_getElem? ht
      dsimp only [Option.map_some]
      rw [lsts n hn, List.getElem?_map]
      cases hi : (u.heap.lst n)[i]? with
      | none => exact same
      | some a =>
        dsimp only [Option.map_some]
        obtain ⟨h1, h2⟩ := wu.held k o ho n hn
        obtain ⟨h3, h4⟩ := wu.heap.lst n h1 a (List.mem_of_getElem? hi)
        have hown : own (u.heap.cell a).ref = k := by rw [wu.heap.ref a h3, h4, h2]
        refine ⟨⟨f, g, .refl m.heap, m.heap, fun ref hr => ?_, m.project⟩, rfl⟩
        dsimp only
        rw [m.heap.cell a h3, m.store ref hr, m.store _ hown]
  | header fm c q =>
    refine ⟨⟨f, g, .refl m.heap, m.heap, m.store, ?_⟩, rfl⟩
    show (if k = k then _ else _) = Option.map _ (if k = k then _ else _)
    rw [if_pos rfl, if_pos rfl]
    rfl

theorem step_same (m : Same own k s u f g) (ws : SetApart own s lt lc) (wu : SetApart own u lu ld)
    (hlt : ∀ t, t < u.heap.trees.length → lt (f t) = k) (a : Action) (hb : ∀ ref, Brings a ref → own ref = k) :
    Both own k s u (s.step k a).1 (u.step k a).1 f g ∧ (s.step k a).2 = (u.step k a).2 := by
  have rest : Both own k s u (match s.projects k with | none => (s, Outcome.nothing) | some o => s.act k o a).1
      (match u.projects k with | none => (u, Outcome.nothing) | some o => u.act k o a).1 f g ∧
      (match s.projects k with | none => (s, Outcome.nothing) | some o => s.act k o a).2 =
      (match u.projects k with | none => (u, Outcome.nothing) | some o => u.act k o a).2 := by
    rw [m.project]
    cases ho : u.projects k with
    | none => exact ⟨.refl m, rfl⟩
    | some o => exact act_same m ws wu hlt ho a hb
  cases a with
  | parse file refs =>
    cases hp : parseFile file with
    | error x =>
      have e : ∀ s : Process, s.step k (.parse file refs) = (s, .raised x) := fun s => by unfold step; dsimp only; rw [hp]
      rw [e, e]
      exact ⟨.refl m, rfl⟩
    | ok p =>
      rw [step_parse hp, step_parse hp]
      have he : ∀ x ∈ p.events.zipIdx.map (fun x => (refs x.2, x.1.id)), own x.1 = k := fun x hx => by
        obtain ⟨y, _, rfl⟩ := List.mem_map.1 hx
        exact hb _ ⟨_, rfl⟩
      obtain ⟨f', g', e, h1⟩ := ext_load (j := k) m.heap ws.heap wu.heap _ he
      refine ⟨⟨f', g', e, e.sim, fun ref hr => ?_, ?_⟩, rfl⟩
      · dsimp only
        rw [m.store ref hr]
      · dsimp only
        rw [if_pos rfl, if_pos rfl, h1]
        rfl
  | make ref e =>
    refine ⟨⟨f, g, .refl m.heap, m.heap, fun r hr => ?_, m.project⟩, rfl⟩
    show (if r = ref then e else s.store r) = (if r = ref then e else u.store r)
    rw [m.store r hr]
  | save => exact rest
  | insert => exact rest
  | append => exact rest
  | pop => exact rest
  | divide => exact rest
  | subtrees => exact rest
  | group => exact rest
  | separate => exact rest
  | subtree => exact rest
  | assign => exact rest
  | header => exact rest

theorem run_same (H : List (Nat × Action)) (hH : OwnObjects own H) (m : Same own k s u f g) (ws : SetApart own s lt lc)
    (wu : SetApart own u lu ld) (hlt : ∀ t, t < u.heap.trees.length → lt (f t) = k)
    (hlc : ∀ b, b < u.heap.cells.length → lc (g b) = k) :
    (∃ f' g' lu' ld', Same own k (s.run H) (u.run (H.filter fun x => x.1 = k)) f' g' ∧
      SetApart own (u.run (H.filter fun x => x.1 = k)) lu' ld') ∧
    s.outcomes k H = u.outcomes k (H.filter fun x => x.1 = k) := by
  induction H generalizing s u f g lt lc lu ld with
  | nil => exact ⟨⟨f, g, lu, ld, m, wu⟩, rfl⟩
  | cons x H ih =>
    obtain ⟨j, a⟩ := x
    have hH' : OwnObjects own H := fun s hs => hH s (List.mem_cons_of_mem _ hs)
    have hb : ∀ ref, Brings a ref → own ref = j := hH (j, a) (List.mem_cons_self ..)
    obtain ⟨lt', lc', as⟩ := step_acts (j := j) ws a hb
    by_cases hj : j = k
    · subst hj
      rw [List.filter_cons_of_pos (by simp)]
      obtain ⟨lu', ld', au⟩ := step_acts (j := j) wu a hb
      obtain ⟨⟨f', g', e, m'⟩, ho⟩ := step_same m ws wu hlt a hb
      have r := ih hH' m' (as.apart ws) (au.apart wu) (fun t ht => by
          by_cases h1 : t < u.heap.trees.length
          · rw [e.told t h1, as.ch.tlab _ (m.heap.tlt t h1)]; exact hlt t h1
          · exact as.ch.tnew _ (e.tnew t (by omega) ht) (m'.heap.tlt t ht))
        (fun b hb => by
          by_cases h1 : b < u.heap.cells.length
          · rw [e.cold b h1, as.ch.clab _ (m.heap.clt b h1)]; exact hlc b h1
          · exact as.ch.cnew _ (e.cnew b (by omega) hb) (m'.heap.clt b hb))
      refine ⟨r.1, ?_⟩
      show (if j = j then _ else _) ++ _ = (if j = j then _ else _) ++ _
      rw [if_pos rfl, if_pos rfl, ho, r.2]
    · rw [List.filter_cons_of_neg (by simpa using hj)]
      have m' := m.frame hj as hlt hlc
      have r := ih hH' m' (as.apart ws) wu (fun t ht => by rw [as.ch.tlab _ (m.heap.tlt t ht)]; exact hlt t ht)
        (fun b hb => by rw [as.ch.clab _ (m.heap.clt b hb)]; exact hlc b hb)
      refine ⟨r.1, ?_⟩
      show (if j = k then _ else _) ++ _ = _
      rw [if_neg hj, List.nil_append]
      exact r.2

omit [FloatEnv] in
theorem Same.seen (m : Same own k s u f g) (wu : SetApart own u lu ld) : s.seen k = u.seen k := by
  unfold Process.seen
  rw [m.project]
  cases ho : u.projects k with
  | none => rfl
  | some o =>
    simp only [Option.map_some, List.map_map]
    congr 4
    refine List.map_congr_left fun t ht => ?_
    obtain ⟨h1, h2⟩ := wu.held k o ho t ht
    show (s.heap.lst (f t)).map _ = (u.heap.lst t).map _
    rw [m.heap.lst t h1, List.map_map]
    refine List.map_congr_left fun a ha => ?_
    obtain ⟨h3, h4⟩ := wu.heap.lst t h1 a ha
    show (s.heap.r (g a), s.event (g a)) = _
    rw [m.event wu h3 (by rw [h4, h2]), m.heap.r h3]

end

variable [FloatEnv]

/-- **C141.**  A program has any number of projects open, makes event objects, puts them into event trees, takes events out,
splits trees, changes events and header values and saves, in any order; only, it puts no event object into two projects.  Then
what it sees of a project (what every action on it returns, raises or saves, and in the end its header values and the events and
positions in each of its trees) is what it would see if it had not opened any other project. -/
theorem C141_alone (own : Nat → Nat) (prog : List (Nat × Action)) (hown : OwnObjects own prog) (k : Nat) :
    outcomes start k prog = outcomes start k (prog.filter fun x => x.1 = k) ∧
    (start.run prog).seen k = (start.run (prog.filter fun x => x.1 = k)).seen k := by
  have no : ∀ {n : Nat} {P : Prop}, n < 0 → P := fun h => absurd h (Nat.not_lt_zero _)
  have w : SetApart own start (fun _ => 0) (fun _ => 0) :=
    ⟨⟨fun _ h => no h, fun _ h => no h, fun _ h => no h, fun _ h => no h⟩, fun _ _ h => by cases h⟩
  have m : Same own k start start id id :=
    ⟨⟨fun _ h => no h, fun _ h => no h, fun _ h => no h, fun _ h => no h, fun _ h => no h, fun _ h => no h, fun _ h => no h,
      fun _ h => no h⟩, fun _ _ => rfl, rfl⟩
  obtain ⟨⟨f', g', lu', ld', m', w'⟩, ho⟩ := run_same prog hown m w w (fun _ h => no h) (fun _ h => no h)
  exact ⟨ho, m'.seen w'⟩

/-- So the order in which actions on different projects follow each other does not matter: two programs which do the same to the
project `k`, and whatever to others, see the same of `k`. -/
theorem C141_interleaved (own own' : Nat → Nat) (prog prog' : List (Nat × Action)) (hown : OwnObjects own prog)
    (hown' : OwnObjects own' prog') (k : Nat)
    (hk : (prog.filter fun x => x.1 = k) = (prog'.filter fun x => x.1 = k)) :
    outcomes start k prog = outcomes start k prog' ∧ (start.run prog).seen k = (start.run prog').seen k := by
  obtain ⟨h1, h2⟩ := C141_alone own prog hown k
  obtain ⟨h3, h4⟩ := C141_alone own' prog' hown' k
  rw [h1, h2, h3, h4, hk]
  exact ⟨rfl, rfl⟩

/-- Two projects opened from the same file, one event object put into both of them and changed in the one. -/
def sharing (file : Bytes) : List (Nat × Action) :=
  [(1, .parse file fun i => 2 * i + 1), (1, .make 100 ⟨9, .u8, .lv (.int 1), 1⟩), (1, .insert 0 0 100),
   (0, .parse file fun i => 2 * i), (0, .insert 0 0 100), (0, .assign 0 0 (.lv (.int 5)))]

/-- A file with one event. -/
def oneEvent : Project := ⟨0, 1, 96, [⟨64, .u16, .lv (.int 0), 2⟩]⟩

theorem oneEvent_file : ∃ file, parseFile file = .ok oneEvent := by
  have hs : ∃ file, saveBytes oneEvent = .ok file := ⟨_, rfl⟩
  obtain ⟨file, hf⟩ := hs
  have hp := parse_save (p := oneEvent) (by decide) (by decide) (Demo.wellTyped_of (by decide)) (by
    intro e he
    rw [List.mem_singleton.1 he]
    exact stored_of (kind_roundtrip ⟨_, rfl, rfl⟩)) hf
  exact ⟨file, hp⟩

theorem step_insertion {s : Process} {k : Nat} {o : Opened} {t n : Nat} {pos : Int} {ref : Nat} (ho : s.projects k = some o)
    (ht : o.trees[t]? = some n) :
    (s.step k (.insert t pos ref)).1 = { s with heap := (s.heap.insert n pos ref (s.store ref).id).1 } := by
  unfold step
  dsimp only
  rw [ho]
  unfold act
  dsimp only
  rw [ht]

theorem step_assignment {s : Process} {k : Nat} {o : Opened} {t n i a : Nat} {v : Value} (ho : s.projects k = some o)
    (ht : o.trees[t]? = some n) (ha : (s.heap.lst n)[i]? = some a) :
    (s.step k (.assign t i v)).1 =
      { s with store := fun x => if x = (s.heap.cell a).ref then { s.store (s.heap.cell a).ref with value := v } else s.store x } := by
  unfold step
  dsimp only
  rw [ho]
  unfold act
  dsimp only
  rw [ht]
  dsimp only
  rw [ha]

/-- The memory with one such project. -/
def memory1 : Heap := ⟨[⟨1, 1, 64⟩, ⟨0, 100, 9⟩], [⟨none, 0, [1, 0], []⟩]⟩

/-- The memory with both. -/
def memory2 : Heap :=
  ⟨[⟨1, 1, 64⟩, ⟨0, 100, 9⟩, ⟨1, 0, 64⟩, ⟨0, 100, 9⟩], [⟨none, 0, [1, 0], []⟩, ⟨none, 1, [3, 2], []⟩]⟩

theorem sharing_first {file : Bytes} (hp : parseFile file = .ok oneEvent) :
    let s := start.run ((sharing file).take 3)
    s.heap = memory1 ∧ s.store 100 = ⟨9, .u8, .lv (.int 1), 1⟩ ∧ s.projects 1 = some ⟨0, 1, 96, [0]⟩ := by
  show _ ∧ _ ∧ _
  have e : start.run ((sharing file).take 3) =
    ((((start.step 1 (.parse file fun i => 2 * i + 1)).1.step 1 (.make 100 ⟨9, .u8, .lv (.int 1), 1⟩)).1).step 1 (.insert 0 0 100)).1 := rfl
  rw [e, step_parse hp, step_insertion (o := ⟨0, 1, 96, [0]⟩) (n := 0) rfl rfl]
  exact ⟨rfl, rfl, rfl⟩

theorem sharing_all {file : Bytes} (hp : parseFile file = .ok oneEvent) :
    let s := start.run (sharing file)
    s.heap = memory2 ∧ s.store 100 = ⟨9, .u8, .lv (.int 5), 1⟩ ∧ s.projects 1 = some ⟨0, 1, 96, [0]⟩ := by
  show _ ∧ _ ∧ _
  obtain ⟨h1, h2, h3⟩ := sharing_first hp
  have e : start.run (sharing file) = ((((start.run ((sharing file).take 3)).step 0 (.parse file fun i => 2 * i)).1.step 0
    (.insert 0 0 100)).1.step 0 (.assign 0 0 (.lv (.int 5)))).1 := rfl
  rw [e]
  generalize start.run ((sharing file).take 3) = s at h1 h2 h3
  obtain ⟨h, st, pr⟩ := s
  dsimp only at h1 h2 h3
  subst h1
  rw [step_parse hp, step_insertion (o := ⟨0, 1, 96, [1]⟩) (n := 1) rfl rfl]
  have e3 : (((oneEvent.events.zipIdx.filter fun y => decide (2 * y.2 = 100)).map Prod.fst).headD (st 100)) = st 100 := rfl
  dsimp only
  rw [e3, h2]
  have e4 : ((memory1.load (oneEvent.events.zipIdx.map fun x => (2 * x.2, x.1.id))).1.insert 1 0 100 9).1 = memory2 := rfl
  rw [e4, step_assignment (o := ⟨0, 1, 96, [1]⟩) (n := 1) (a := 3) rfl rfl rfl]
  refine ⟨rfl, ?_, ?_⟩
  · have e5 : ({ (((oneEvent.events.zipIdx.filter fun y => decide (2 * y.2 = 100)).map Prod.fst).headD (st 100)) with
      value := Value.lv (.int 5) } : Event) = ⟨9, .u8, .lv (.int 5), 1⟩ := by rw [e3, h2]
    exact e5
  · exact h3

/-- With an event object in two projects the statement is false: what is done to the one project shows in the other. -/
theorem C141_shared_refuted :
    ¬ ∀ (prog : List (Nat × Action)) (k : Nat), (start.run prog).seen k = (start.run (prog.filter fun x => x.1 = k)).seen k := by
  obtain ⟨file, hp⟩ := oneEvent_file
  intro h
  have h := h (sharing file) 1
  have e : ((sharing file).filter fun x => decide (x.1 = 1)) = (sharing file).take 3 := rfl
  rw [e] at h
  obtain ⟨h1, h2, h3⟩ := sharing_first hp
  obtain ⟨g1, g2, g3⟩ := sharing_all hp
  unfold seen at h
  rw [h3, g3] at h
  have h := congrArg (fun o => (o.bind fun x => (x.2.2.2.headD []).head?).map fun y => y.2.value) h
  dsimp only [Option.map_some, List.map_cons, List.headD_cons, Option.bind_some] at h
  unfold event at h
  rw [h1, g1] at h
  have e1 : some ((start.run (sharing file)).store 100).value = some ((start.run ((sharing file).take 3)).store 100).value := h
  rw [h2, g2] at e1
  exact absurd e1 (by decide)

/-- A program as in `C141_alone`. -/
example (file : Bytes) : OwnObjects (fun ref => ref % 2)
    [(0, .parse file fun i => 2 * i), (1, .parse file fun i => 2 * i + 1), (1, .make 101 ⟨9, .u8, .lv (.int 1), 1⟩),
     (0, .divide 0 64 [64, 0, 9]), (1, .insert 0 0 101), (0, .pop 1 64 0), (1, .assign 0 0 (.lv (.int 0))), (0, .save), (1, .save)] := by
  intro s hs ref hb
  simp only [List.mem_cons, List.not_mem_nil, or_false] at hs
  rcases hs with rfl | rfl | rfl | rfl | rfl | rfl | rfl | rfl | rfl <;> simp only [Brings] at hb <;>
    first
      | exact hb.elim
      | (obtain ⟨i, rfl⟩ := hb; dsimp only; omega)
      | (subst hb; rfl)

end PyFLP
