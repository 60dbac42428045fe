import Verif.Rack
import Verif.Props.Mixer
import Verif.Props.Playlist
/-!
# The channel rack and layers (C72 – C74)
-/

namespace PyFLP

open Spec Heap

namespace Spec

/-- Events the rack gives to a channel: of channels and of plugins. -/
def isChannelEvent (e : Entry) : Bool := channelID.has e.2.id || pluginID.has e.2.id

/-- The class of a channel with these events: 5 is an automation, 3 a layer, 0 a sampler, 2 and 4 are
instruments, but for audio clips, which have a sample and an empty internal name. -/
def classOf (evs : List Event) : ChClass :=
  match valueOf evs 21 with
  | some (.lv (.int 5)) => .automation
  | some (.lv (.int 3)) => .layer
  | some (.lv (.int 0)) => .sampler
  | some (.lv (.int 4)) | some (.lv (.int 2)) =>
    if (valueOf evs 196).isSome ∧ valueOf evs 201 = some (.str []) then .sampler else .instrument
  | _ => .channel

/-- A complete channel: it begins with its `New` event, which has its `iid`, and has a type and the number
of one of the display groups. -/
structure RackBlock (groups : List Entry) (b : List Entry) (iid : Value) (cls : ChClass) (group : Entry) : Prop where
  new : ∃ x tl, b = x :: tl ∧ x.2.id = 64 ∧ x.2.value = iid ∧ ∀ e ∈ tl, e.2.id ≠ 64
  typ : (valueOf (b.map Prod.snd) 21).isSome
  cls : cls = classOf (b.map Prod.snd)
  internal : ∀ v, valueOf (b.map Prod.snd) 201 = some v → ∃ s, v = .str s
  group : ∃ n : Nat, valueOf (b.map Prod.snd) 145 = some (.lv (.int n)) ∧ groups[n]? = some group

end Spec

/-! ### Views -/

theorem sepViews_spec {w : World} {L : Nat → Prop} (r : WReach w L) {t : Nat} (ht : L t)
    (hne : shown w.heap 0 ≠ []) (id : Nat) :
    let w' := (w.sepViews t id).1
    let us := (w.sepViews t id).2
    WReach w' (fun u => L u ∨ u ∈ us) ∧
      us.map w'.entries = ((w.entries t).filter (fun e => decide (e.2.id = id))).map (fun e => [e]) ∧
      w'.project = w.project ∧
      us = (List.range us.length).map (w.heap.trees.length + ·) ∧
      ∀ u, u < w.heap.trees.length → w'.entries u = w.entries u := by
  have hc := callViews_spec r ht hne (.separate id) (fun el hel => by
    have : el ∈ ((w.heap.lst t).filter fun a => w.heap.idOf a = id).map fun a => [a] := hel
    obtain ⟨a, ha, rfl⟩ := List.mem_map.1 this
    rw [List.singleton_sublist]
    exact (List.mem_filter.1 ha).1)
  obtain ⟨h1, h2, h3, h4, h5⟩ := hc
  have hl : ViewCall.lists w.heap t (.separate id) = ((w.heap.lst t).filter fun a => w.heap.idOf a = id).map fun a => [a] :=
    rfl
  refine ⟨h1, ?_, h3, ?_, h5⟩
  · refine h2.trans ?_
    rw [hl, List.map_map]
    have : (w.entries t).filter (fun e => decide (e.2.id = id)) =
        ((w.heap.lst t).filter fun a => w.heap.idOf a = id).map w.entry := by
      unfold World.entries
      rw [List.filter_map]
      congr 1
      apply List.filter_congr
      intro a ha
      simp [World.entry_id r ht ha]
    rw [this, List.map_map]
    rfl
  · rw [hl] at h4
    have hlen : (w.sepViews t id).2.length =
        (((w.heap.lst t).filter fun a => w.heap.idOf a = id).map fun a => [a]).length := by
      have := congrArg List.length h4
      rw [List.length_map, List.length_range] at this
      exact this
    rw [hlen]
    exact h4

theorem shown_ne_of_entries {w w' : World} (hp : w'.project = w.project) (hne : shown w.heap 0 ≠ []) :
    shown w'.heap 0 ≠ [] := by
  have h1 : (w'.events 0) = (w.events 0) := congrArg Project.events hp
  rw [World.events_eq, World.events_eq] at h1
  intro h
  rw [h] at h1
  exact hne (List.map_eq_nil_iff.1 h1.symm)

/-- The trees of the display groups and of the channels. -/
theorem rack_views {w : World} {L : Nat → Prop} (r : WReach w L) {t : Nat} (ht : L t) (hne : shown w.heap 0 ≠ []) :
    ∃ w' gs us, w.iterRack t = (w', w'.rackLoop gs us) ∧ WReach w' (fun u => (L u ∨ u ∈ gs) ∨ u ∈ us) ∧
      gs.map w'.entries = ((w.entries t).filter (fun e => decide (e.2.id = 231))).map (fun e => [e]) ∧
      us.map w'.entries = divBy (fun e : Entry => e.2.id) 64 World.rackIds (w.entries t) [] true ∧
      w'.project = w.project := by
  obtain ⟨a1, a2, a3, a4, a5⟩ := sepViews_spec r ht hne 231
  obtain ⟨b1, b2, b3, b4, b5⟩ := divViews_spec a1 (.inl ht) (shown_ne_of_entries a3 hne) 64 World.rackIds
  refine ⟨((w.sepViews t 231).1.divViews t 64 World.rackIds).1, (w.sepViews t 231).2,
    ((w.sepViews t 231).1.divViews t 64 World.rackIds).2, rfl, b1, ?_, ?_, b3.trans a3⟩
  · rw [← a2]
    apply List.map_congr_left
    intro u hu
    obtain ⟨g, _⟩ := reach_good (wreach_inv a1).1
    exact b5 u (g.lt u (.inr hu))
  · rw [b2]
    have ht' : t < w.heap.trees.length := by
      obtain ⟨g, _⟩ := reach_good (wreach_inv r).1
      exact g.lt t ht
    rw [a5 t ht']

/-! ### One channel -/

theorem firstVal_spec {w : World} {L : Nat → Prop} (r : WReach w L) {u : Nat} (hu : L u) (id : Nat) :
    w.firstVal u id = match valueOf (w.events u) id with | some v => .ok v | none => .error .keyError := by
  unfold World.firstVal
  rcases World.first_value r hu id with ⟨ref, h1, _, h2, _⟩ | ⟨h1, h2⟩
  · rw [h1, h2]
  · rw [h1, h2]

theorem class_eq (typ : Value) (name : Option Value) (sample : Bool)
    (h : ∀ v, name = some v → (v.truthy = false ↔ v = .str [])) :
    (if (sample && name.isSome) = true then
        match (match name with | some v => (.ok v : Py Value) | none => .error .keyError) with
        | .ok v => if (!v.truthy && decide (classOfType typ = .instrument)) = true then ChClass.sampler else classOfType typ
        | .error _ => classOfType typ
      else classOfType typ) =
    match some typ with
    | some (.lv (.int 5)) => .automation
    | some (.lv (.int 3)) => .layer
    | some (.lv (.int 0)) => .sampler
    | some (.lv (.int 4)) | some (.lv (.int 2)) =>
      if sample = true ∧ name = some (.str []) then .sampler else .instrument
    | _ => .channel := by
  have key : (if (sample && name.isSome) = true then
        match (match name with | some v => (.ok v : Py Value) | none => .error .keyError) with
        | .ok v => if (!v.truthy && decide (classOfType typ = .instrument)) = true then ChClass.sampler else classOfType typ
        | .error _ => classOfType typ
      else classOfType typ) =
      if classOfType typ = .instrument ∧ sample = true ∧ name = some (.str []) then .sampler else classOfType typ := by
    cases name with
    | none => simp
    | some v =>
      have hv := h v rfl
      by_cases ht : v.truthy = true
      · have : v ≠ .str [] := fun hc => by rw [hv.2 hc] at ht; cases ht
        simp [ht, this]
      · have ht : v.truthy = false := by simpa using ht
        have : v = .str [] := hv.1 ht
        subst this
        cases sample <;> simp [ht]
  rw [key]
  unfold classOfType
  by_cases h5 : typ = .lv (.int 5)
  · subst h5; simp
  by_cases h3 : typ = .lv (.int 3)
  · subst h3; simp
  by_cases h0 : typ = .lv (.int 0)
  · subst h0; simp
  by_cases h4 : typ = .lv (.int 4)
  · subst h4; simp
  by_cases h2 : typ = .lv (.int 2)
  · subst h2; simp
  simp only [h5, h3, h0, h4, h2, or_self, if_false]
  split <;> simp_all

theorem channelOf_block {w : World} {L : Nat → Prop} (r : WReach w L) {u : Nat} (hu : L u) {gs : List Nat}
    {groups : List Entry} (hg : gs.map w.entries = groups.map fun e => [e]) {b : List Entry}
    (hb : w.entries u = b.filter isChannelEvent) {iid : Value} {cls : ChClass} {g : Entry}
    (h : RackBlock groups b iid cls g) :
    ∃ v, w.channelOf gs u = .ok ⟨u, cls, v, iid⟩ ∧ w.entries v = [g] := by
  obtain ⟨⟨x, tl, rfl, hx, hxv, htl⟩, h2, h3, h4, n, h5, h6⟩ := h
  have val : ∀ id, (channelID.has id || pluginID.has id) = true →
      valueOf (w.events u) id = valueOf ((x :: tl).map Prod.snd) id := by
    intro id hid
    rw [← World.entries_events, hb]
    unfold valueOf
    congr 1
    generalize x :: tl = l
    induction l with
    | nil => rfl
    | cons e l ih =>
      rw [List.filter_cons]
      by_cases hc : isChannelEvent e = true
      · rw [if_pos hc, List.map_cons, List.map_cons, List.find?_cons, List.find?_cons, ih]
      · rw [if_neg hc, List.map_cons, List.find?_cons]
        have : (e.2.id == id) = false := by
          rw [beq_eq_false_iff_ne]
          intro he
          unfold isChannelEvent at hc
          rw [he] at hc
          exact hc hid
        rw [this]
        exact ih
  have v64 : valueOf (w.events u) 64 = some iid := by
    rw [val 64 (by decide)]
    simp [valueOf, hx, hxv]
  have v21 := val 21 (by decide)
  have v145 := val 145 (by decide)
  have v196 := val 196 (by decide)
  have v201 := val 201 (by decide)
  obtain ⟨typ, ht⟩ := Option.isSome_iff_exists.1 h2
  rw [h5] at v145
  rw [ht] at v21
  have hgl : gs.length = groups.length := by
    have := congrArg List.length hg
    simpa using this
  obtain ⟨hn1, hn2⟩ := List.getElem?_eq_some_iff.1 h6
  have hgn : ∃ v, gs[n]? = some v ∧ w.entries v = [g] := by
    refine ⟨gs[n]'(by omega), List.getElem?_eq_getElem _, ?_⟩
    have := congrArg (fun l => l[n]?) hg
    simp only [List.getElem?_map, h6, List.getElem?_eq_getElem (show n < gs.length by omega), Option.map_some] at this
    exact Option.some.inj this
  obtain ⟨v, hv1, hv2⟩ := hgn
  refine ⟨v, ?_, hv2⟩
  have hpy : pyIndex gs (n : Int) = some v := by
    unfold pyIndex
    simp [hv1]
  unfold World.channelOf
  rw [firstVal_spec r hu, firstVal_spec r hu, firstVal_spec r hu, firstVal_spec r hu, v64, v21, v145,
    World.contains_eq r hu, World.contains_eq r hu]
  dsimp only
  rw [hpy]
  dsimp only
  congr 2
  rw [h3]
  unfold classOf
  rw [ht, ← v196, ← v201]
  rw [← v201] at h4
  have htr : ∀ v, valueOf (w.events u) 201 = some v → (v.truthy = false ↔ v = .str []) := by
    intro v hv
    obtain ⟨s, rfl⟩ := h4 v hv
    unfold Value.truthy
    cases s <;> simp
  exact class_eq typ _ _ htr

/-! ### C72 -/

theorem rackIds_has (e : Entry) : decide (e.2.id ∈ World.rackIds) = isChannelEvent e := by
  have has_iff : ∀ (l : IdEnum) (i : Nat), l.has i = decide (i ∈ l.map Prod.fst) := by
    intro l i
    unfold IdEnum.has
    rw [Bool.eq_iff_iff, decide_eq_true_iff, List.any_eq_true, List.mem_map]
    simp only [beq_iff_eq]
  unfold isChannelEvent World.rackIds
  rw [has_iff, has_iff, Bool.eq_iff_iff, decide_eq_true_iff, Bool.or_eq_true, decide_eq_true_iff, decide_eq_true_iff,
    List.mem_append]

theorem rackLoop_blocks {w : World} {L : Nat → Prop} (r : WReach w L) {gs : List Nat} {groups : List Entry}
    (hg : gs.map w.entries = groups.map fun e => [e]) (us : List Nat) : ∀ (blocks : List (List Entry)),
    us.map w.entries = blocks.map (fun b => b.filter isChannelEvent) → (∀ u ∈ us, L u) →
    (∀ b ∈ blocks, ∃ iid cls g, RackBlock groups b iid cls g) →
    ∃ cs, w.rackLoop gs us = (cs, none) ∧ cs.map Chan.tree = us ∧
      ∀ (k : Nat) (c : Chan) (b : List Entry), cs[k]? = some c → blocks[k]? = some b →
        ∃ g, RackBlock groups b c.iid c.cls g ∧ w.entries c.group = [g] ∧ w.entries c.tree = b.filter isChannelEvent := by
  induction us with
  | nil =>
    intro blocks _ _ _
    exact ⟨[], rfl, rfl, fun k c b h => by simp at h⟩
  | cons u us ih =>
    intro blocks h1 h2 h3
    cases blocks with
    | nil => simp at h1
    | cons b blocks =>
      rw [List.map_cons, List.map_cons] at h1
      obtain ⟨e1, e2⟩ := List.cons.inj h1
      obtain ⟨iid, cls, g, hb⟩ := h3 b (by simp)
      obtain ⟨v, c1, c2⟩ := channelOf_block r (h2 u (by simp)) hg e1 hb
      obtain ⟨cs, i1, i2, i3⟩ := ih blocks e2 (fun u hu => h2 u (by simp [hu])) (fun b hb => h3 b (by simp [hb]))
      refine ⟨⟨u, cls, v, iid⟩ :: cs, ?_, ?_, ?_⟩
      · unfold World.rackLoop
        rw [c1]
        dsimp only
        rw [i1]
      · rw [List.map_cons, i2]
      · intro k c b' hk hb'
        cases k with
        | zero =>
          cases hk
          cases hb'
          exact ⟨g, hb, c2, e1⟩
        | succ k => exact i3 k c b' (by simpa using hk) (by simpa using hb')

/-- C72 for racks all of whose channels are complete and begin with their `New` events: the channels are
the blocks that begin with these events, with the events of channels and plugins in them, with the right
`iid`, class and display group; `len()` is their number; no exception is raised and the project does not
change. -/
theorem C72_channels_partial {w : World} {L : Nat → Prop} (r : WReach w L) {t : Nat} (ht : L t)
    (hne : shown w.heap 0 ≠ []) {pre : List Entry} {blocks : List (List Entry)}
    (hl : w.entries t = pre ++ blocks.flatten) (hpre : ∀ e ∈ pre, isChannelEvent e = false) (hs : blocks ≠ [])
    (hb : ∀ b ∈ blocks, ∃ iid cls g, RackBlock ((w.entries t).filter fun e => decide (e.2.id = 231)) b iid cls g) :
    ∃ w' cs, w.iterRack t = (w', cs, none) ∧ cs.length = blocks.length ∧ w.lenRack t = .ok blocks.length ∧
      w'.project = w.project ∧
      (∃ L', (∀ u, L u → L' u) ∧ (∀ c ∈ cs, L' c.tree) ∧ WReach w' L') ∧
      ∀ (k : Nat) (c : Chan) (b : List Entry), cs[k]? = some c → blocks[k]? = some b →
        ∃ g, RackBlock ((w.entries t).filter fun e => decide (e.2.id = 231)) b c.iid c.cls g ∧
          w'.entries c.group = [g] ∧ w'.entries c.tree = b.filter isChannelEvent := by
  obtain ⟨w', gs, us, h1, h2, h3, h4, h5⟩ := rack_views r ht hne
  have hnew : ∀ b ∈ blocks, ∃ x tl, b = x :: tl ∧ x.2.id = 64 ∧ ∀ y ∈ tl, y.2.id ≠ 64 := by
    intro b hb'
    obtain ⟨iid, cls, g, hB⟩ := hb b hb'
    obtain ⟨x, tl, e1, e2, _, e3⟩ := hB.new
    exact ⟨x, tl, e1, e2, e3⟩
  have hpre64 : ∀ e ∈ pre, e.2.id ≠ 64 := by
    intro e he hc
    have := hpre e he
    unfold isChannelEvent at this
    rw [hc] at this
    exact absurd this (by decide)
  have hfil : (fun a : Entry => decide (a.2.id ∈ World.rackIds)) = isChannelEvent := funext rackIds_has
  have hus : us.map w'.entries = blocks.map (fun b => b.filter isChannelEvent) := by
    rw [h4, hl, divBy_first (fun e : Entry => e.2.id) 64 World.rackIds pre blocks hpre64 hnew]
    cases blocks with
    | nil => exact absurd rfl hs
    | cons b bs =>
      dsimp only
      rw [hfil, List.filter_append, List.filter_eq_nil_iff.2 (fun e he => by simp [hpre e he]), List.nil_append]
      rfl
  obtain ⟨cs, i1, i2, i3⟩ := rackLoop_blocks h2 h3 us blocks hus (fun u hu => .inr hu) hb
  have hlen : us.length = blocks.length := by
    have := congrArg List.length hus
    simpa using this
  refine ⟨w', cs, by rw [h1, i1], ?_, ?_, h5, ?_, i3⟩
  · rw [← hlen, ← i2, List.length_map]
  · have hc : ((w.entries t).filter fun e => decide (e.2.id = 64)).length = blocks.length := by
      rw [hl, List.filter_append, List.filter_eq_nil_iff.2 (fun e he => by simp [hpre64 e he]), List.nil_append]
      clear hl hus i3 hlen hb hs i1
      induction blocks with
      | nil => rfl
      | cons b bs ih =>
        obtain ⟨x, tl, rfl, hx, htl⟩ := hnew b (by simp)
        rw [List.flatten_cons, List.filter_append, List.length_append, ih (fun b hb => hnew b (by simp [hb])),
          List.filter_cons, if_pos (by simp [hx]), List.filter_eq_nil_iff.2 (fun e he => by simp [htl e he])]
        simp
        omega
    unfold World.lenRack
    have hcnt := count_entries r ht 64
    rw [hcnt]
    have hcon : w.contains t 64 = true := by
      rw [contains_iff]
      cases hf : (w.entries t).filter fun e => decide (e.2.id = 64) with
      | nil =>
        rw [hf] at hc
        exact absurd (List.eq_nil_of_length_eq_zero hc.symm) hs
      | cons e l =>
        have hm : e ∈ (w.entries t).filter fun e => decide (e.2.id = 64) := by rw [hf]; simp
        obtain ⟨m1, m2⟩ := List.mem_filter.1 hm
        refine (mem_events r ht 64).2 ⟨e.2, ?_, of_decide_eq_true m2⟩
        rw [← World.entries_events]
        exact List.mem_map_of_mem m1
    rw [if_pos hcon]
    congr 1
  · refine ⟨_, fun u hu => .inl (.inl hu), ?_, h2⟩
    intro c hc
    right
    rw [← i2]
    exact List.mem_map_of_mem hc

namespace Demo

/-- Three channels (a sampler, a layer of the third, an instrument without name) and the plugin of a mixer slot. -/
def band : Project := ⟨0, 3, 96, [
  ⟨199, .ascii, .str (PStr.lit "20.8.4"), 7⟩, ⟨231, .unicode, .str (PStr.lit "All"), 8⟩,
  ⟨64, .u16, .lv (.int 0), 2⟩, ⟨21, .u8, .lv (.int 0), 1⟩, ⟨203, .unicode, .str (PStr.lit "Kick"), 10⟩,
  ⟨145, .i32, .lv (.int 0), 4⟩,
  ⟨64, .u16, .lv (.int 1), 2⟩, ⟨21, .u8, .lv (.int 3), 1⟩, ⟨203, .unicode, .str (PStr.lit "Both"), 10⟩,
  ⟨94, .u16, .lv (.int 0), 2⟩, ⟨94, .u16, .lv (.int 2), 2⟩, ⟨145, .i32, .lv (.int 0), 4⟩,
  ⟨64, .u16, .lv (.int 2), 2⟩, ⟨21, .u8, .lv (.int 4), 1⟩, ⟨145, .i32, .lv (.int 0), 4⟩,
  ⟨98, .u16, .lv (.int 0), 2⟩, ⟨203, .unicode, .str (PStr.lit "Reverb"), 14⟩, ⟨147, .i32, .lv (.int 7), 4⟩]⟩

def rackOf (p : Project) : World × Nat := (World.ofProject p).pickView 0 channelsStep ()

theorem band_reach : WReach (rackOf band).1 (fun u => u = 0 ∨ u = (rackOf band).2) :=
  pickView_reach (.parsed band) rfl (by decide +kernel) channelsStep ()

def bandEntries : List Entry := (rackOf band).1.entries (rackOf band).2

end Demo

open Demo in
example : (rackOf band).1.entries (rackOf band).2 = bandEntries.take 1 ++ [(bandEntries.drop 1).take 4,
      (bandEntries.drop 5).take 6, bandEntries.drop 11].flatten ∧
    (∀ e ∈ bandEntries.take 1, isChannelEvent e = false) ∧
    (∀ b ∈ [(bandEntries.drop 1).take 4, (bandEntries.drop 5).take 6, bandEntries.drop 11], ∃ iid cls g,
      RackBlock (bandEntries.filter fun e => decide (e.2.id = 231)) b iid cls g) ∧
    (((rackOf band).1.iterRack (rackOf band).2).2.1.map fun c => (c.iid, c.cls)) =
      [(.lv (.int 0), .sampler), (.lv (.int 1), .layer), (.lv (.int 2), .instrument)] := by
  refine ⟨by decide +kernel, by decide +kernel, ?_, by decide +kernel⟩
  have text : ∀ b : List Entry, (∀ e ∈ b, e.2.id ≠ 201) →
      ∀ v, valueOf (b.map Prod.snd) 201 = some v → ∃ s, v = .str s := by
    intro b h v hv
    unfold valueOf at hv
    rw [List.find?_eq_none.2] at hv
    · cases hv
    · intro e he
      obtain ⟨x, hx, rfl⟩ := List.mem_map.1 he
      simpa using h x hx
  intro b hb
  rw [List.mem_cons, List.mem_cons, List.mem_singleton] at hb
  rcases hb with rfl | rfl | rfl
  · exact ⟨.lv (.int 0), .sampler, bandEntries.getD 0 default, ⟨bandEntries.getD 1 default, (bandEntries.drop 2).take 3, by decide +kernel,
      by decide +kernel, by decide +kernel, by decide +kernel⟩, by decide +kernel, by decide +kernel, text _ (by decide +kernel), 0, by decide +kernel, by decide +kernel⟩
  · exact ⟨.lv (.int 1), .layer, bandEntries.getD 0 default, ⟨bandEntries.getD 5 default, (bandEntries.drop 6).take 5, by decide +kernel,
      by decide +kernel, by decide +kernel, by decide +kernel⟩, by decide +kernel, by decide +kernel, text _ (by decide +kernel), 0, by decide +kernel, by decide +kernel⟩
  · exact ⟨.lv (.int 2), .instrument, bandEntries.getD 0 default, ⟨bandEntries.getD 11 default, bandEntries.drop 12, by decide +kernel,
      by decide +kernel, by decide +kernel, by decide +kernel⟩, by decide +kernel, by decide +kernel, text _ (by decide +kernel), 0, by decide +kernel, by decide +kernel⟩

/-- C72 is false of what the channels of a project show: the last one has the plugin events of all mixer slots, too.
Here the channel without a name gets the name of an effect, which comes after the first event of the mixer. -/
theorem C72_last_channel_refuted : ∃ (p : Project) (w' : World) (c₁ c₂ c₃ : Chan) (pre tl : List Event) (name : PStr),
    (World.ofProject p).channels.1.iterRack (World.ofProject p).channels.2 = (w', [c₁, c₂, c₃], none) ∧
    p.events = pre ++ ⟨98, .u16, .lv (.int 0), 2⟩ :: tl ∧ (∀ e ∈ tl, e.id ≠ 64) ∧
    (∀ e ∈ pre, e.value ≠ .str name) ∧ w'.displayName c₃.tree = some (.str name) := by
  refine ⟨Demo.band, ((World.ofProject Demo.band).channels.1.iterRack (World.ofProject Demo.band).channels.2).1,
    ⟨3, .sampler, 2, .lv (.int 0)⟩, ⟨4, .layer, 2, .lv (.int 1)⟩, ⟨5, .instrument, 2, .lv (.int 2)⟩,
    Demo.band.events.take 15, Demo.band.events.drop 16, PStr.lit "Reverb", ?_, by decide +kernel, by decide +kernel,
    by decide +kernel, by decide +kernel⟩
  have h : ((World.ofProject Demo.band).channels.1.iterRack (World.ofProject Demo.band).channels.2).2 =
    ([⟨3, .sampler, 2, .lv (.int 0)⟩, ⟨4, .layer, 2, .lv (.int 1)⟩, ⟨5, .instrument, 2, .lv (.int 2)⟩], none) := by
    decide +kernel
  rw [← h]

/-- C72 is false of projects without channels: iterating raises `KeyError` (and `len()` raises `NoModelsFound`). -/
theorem C72_empty_refuted {w : World} {L : Nat → Prop} (r : WReach w L) {t : Nat} (ht : L t)
    (hne : shown w.heap 0 ≠ []) (h : ∀ e ∈ w.entries t, e.2.id ≠ 64) :
    (w.iterRack t).2 = ([], some .keyError) ∧ w.lenRack t = .error .noModelsFound := by
  obtain ⟨w', gs, us, h1, h2, h3, h4, h5⟩ := rack_views r ht hne
  have e : w.entries t = w.entries t ++ ([] : List (List Entry)).flatten := by simp
  rw [e, divBy_first (fun e : Entry => e.2.id) 64 World.rackIds _ [] h (by simp)] at h4
  dsimp only at h4
  constructor
  · rw [h1]
    have hlen := congrArg List.length h4
    rw [List.length_map] at hlen
    match us, hlen with
    | [u], _ =>
      rw [List.map_cons, List.map_nil] at h4
      have hu := (List.cons.inj h4).1
      have : w'.firstVal u 64 = .error .keyError := by
        rw [firstVal_spec h2 (.inr (by simp))]
        have : valueOf (w'.events u) 64 = none := by
          unfold valueOf
          rw [List.find?_eq_none.2]
          · rfl
          · intro x hx
            rw [← World.entries_events, hu] at hx
            obtain ⟨y, hy, rfl⟩ := List.mem_map.1 hx
            simpa using h y (List.mem_filter.1 hy).1
        rw [this]
      dsimp only
      unfold World.rackLoop World.channelOf
      rw [this]
  · unfold World.lenRack
    rw [if_neg]
    intro hc
    obtain ⟨x, hx, hid⟩ := (mem_events r ht 64).1 ((contains_iff w t 64).1 hc)
    rw [← World.entries_events] at hx
    obtain ⟨y, hy, rfl⟩ := List.mem_map.1 hx
    exact h y hy hid

/-- C72 is false of events before the first `New`: they are shown as events of the first channel. -/
theorem C72_leading_refuted {w : World} {L : Nat → Prop} (r : WReach w L) {t : Nat} (ht : L t)
    (hne : shown w.heap 0 ≠ []) {pre b : List Entry} {blocks : List (List Entry)}
    (hl : w.entries t = pre ++ (b :: blocks).flatten) (hpre : ∀ e ∈ pre, e.2.id ≠ 64)
    (hb : ∀ x ∈ b :: blocks, ∃ y tl, x = y :: tl ∧ y.2.id = 64 ∧ ∀ e ∈ tl, e.2.id ≠ 64) {w' : World} {c : Chan}
    {cs : List Chan} {e : Option Exc} (h : w.iterRack t = (w', c :: cs, e)) :
    w'.entries c.tree = (pre ++ b).filter isChannelEvent := by
  obtain ⟨w'', gs, us, h1, h2, h3, h4, h5⟩ := rack_views r ht hne
  rw [h1] at h
  injection h with hw h
  subst hw
  have hfil : (fun a : Entry => decide (a.2.id ∈ World.rackIds)) = isChannelEvent := funext rackIds_has
  rw [hl, divBy_first (fun e : Entry => e.2.id) 64 World.rackIds pre (b :: blocks) hpre hb] at h4
  dsimp only at h4
  rw [hfil] at h4
  cases us with
  | nil => simp at h4
  | cons u us =>
    rw [List.map_cons] at h4
    have hu := (List.cons.inj h4).1
    unfold World.rackLoop at h
    split at h
    · cases h
    · next c' hc =>
      injection h with h _
      injection h with h _
      subst h
      have : c'.tree = u := by
        unfold World.channelOf at hc
        repeat' split at hc
        all_goals first | (cases hc; done) | (cases hc; rfl)
      rw [this, hu]

namespace Demo

/-- The first of these channels has no type; the display group of the second one is `-1`. -/
def untyped : Project := ⟨0, 2, 96, [
  ⟨231, .unicode, .str (PStr.lit "A"), 4⟩, ⟨231, .unicode, .str (PStr.lit "B"), 4⟩,
  ⟨64, .u16, .lv (.int 0), 2⟩, ⟨21, .u8, .lv (.int 0), 1⟩, ⟨145, .i32, .lv (.int (-1)), 4⟩,
  ⟨64, .u16, .lv (.int 1), 2⟩, ⟨145, .i32, .lv (.int 0), 4⟩,
  ⟨64, .u16, .lv (.int 2), 2⟩, ⟨21, .u8, .lv (.int 0), 1⟩, ⟨145, .i32, .lv (.int 0), 4⟩]⟩

end Demo

/-- C72 is false of incomplete channels: the iteration ends with `KeyError` at a channel without type, and the channels
behind it are lost.  A negative group number stands for a group counted from the last one. -/
theorem C72_incomplete_refuted : ∃ (w' : World) (c : Chan), WReach (Demo.rackOf Demo.untyped).1 (fun u => u = 0 ∨ u = (Demo.rackOf Demo.untyped).2) ∧
    (Demo.rackOf Demo.untyped).1.iterRack (Demo.rackOf Demo.untyped).2 = (w', [c], some .keyError) ∧
    (Demo.rackOf Demo.untyped).1.lenRack (Demo.rackOf Demo.untyped).2 = .ok 3 ∧
    valueOf (w'.events c.tree) 145 = some (.lv (.int (-1))) ∧ valueOf (w'.events c.group) 231 = some (.str (PStr.lit "B")) := by
  refine ⟨((Demo.rackOf Demo.untyped).1.iterRack (Demo.rackOf Demo.untyped).2).1, ⟨4, .sampler, 3, .lv (.int 0)⟩,
    pickView_reach (.parsed Demo.untyped) rfl (by decide +kernel) channelsStep (), ?_, by decide +kernel, by decide +kernel,
    by decide +kernel⟩
  have h : ((Demo.rackOf Demo.untyped).1.iterRack (Demo.rackOf Demo.untyped).2).2 =
    ([⟨4, .sampler, 3, .lv (.int 0)⟩], some .keyError) := by decide +kernel
  rw [← h]

/-! ### C73 -/

namespace Spec

/-- Names are texts.  This is so after parsing, and stays so as long as only texts are assigned. -/
def NamesAreText (evs : List Event) : Prop := ∀ e ∈ evs, e.id ∈ [192, 201, 203] → ∃ s, e.value = .str s

/-- The name shown for a channel with these events: its name (203, in old files 192) if it is not empty, else the
internal name (201). -/
def shownName (evs : List Event) : Option Value :=
  match (valueOf evs 203).or (valueOf evs 192) with
  | some (.str (c :: s)) => some (.str (c :: s))
  | _ => valueOf evs 201

/-- A number stands for an `iid`, a text for a name. -/
def Wanted (i : Subscript) (evs : List Event) : Prop :=
  match i with
  | .int n => valueOf evs 64 = some (.lv (.int n))
  | .str s => shownName evs = some (.str s)
  | .slice .. => False

end Spec

theorem valueOf_mem {evs : List Event} {id : Nat} {v : Value} (h : valueOf evs id = some v) :
    ∃ e ∈ evs, e.id = id ∧ e.value = v := by
  unfold valueOf at h
  cases hf : evs.find? fun e => e.id == id with
  | none => rw [hf] at h; cases h
  | some e =>
    rw [hf] at h
    exact ⟨e, List.mem_of_find?_eq_some hf, by simpa using List.find?_some hf, Option.some.inj h⟩

theorem read_two {w : World} {L : Nat → Prop} (r : WReach w L) {u : Nat} (hu : L u) (a b : Nat) :
    (eventProp [a, b]).read w u = .ok ((valueOf (w.events u) a).or (valueOf (w.events u) b)) := by
  unfold Descr.read World.getEvent
  dsimp only [eventProp]
  unfold World.firstOf
  rw [World.contains_eq r hu]
  rcases World.first_value r hu a with ⟨ref, h1, _, h2, _⟩ | ⟨h1, h2⟩
  · rw [h2, h1]
    rfl
  · rw [h2]
    unfold World.firstOf
    rw [World.contains_eq r hu]
    rcases World.first_value r hu b with ⟨ref, h3, _, h4, _⟩ | ⟨h3, h4⟩
    · rw [h4, h3]
      rfl
    · rw [h4]
      rfl

theorem events_sub {w : World} {L : Nat → Prop} (r : WReach w L) {u : Nat} (hu : L u) :
    ∀ e ∈ w.events u, e ∈ w.project.events := by
  intro e he
  show e ∈ w.events 0
  rw [World.events_eq] at he ⊢
  obtain ⟨x, hx, rfl⟩ := List.mem_map.1 he
  exact List.mem_map.2 ⟨x, (wreach_sub r hu).1.mem hx, rfl⟩

theorem displayName_spec {w : World} {L : Nat → Prop} (r : WReach w L) {u : Nat} (hu : L u)
    (ht : NamesAreText w.project.events) : w.displayName u = shownName (w.events u) := by
  unfold World.displayName World.channelName
  rw [read_two r hu, prop_spec r hu]
  unfold shownName
  cases h : (valueOf (w.events u) 203).or (valueOf (w.events u) 192) with
  | none => rfl
  | some v =>
    have hv : ∃ s, v = .str s := by
      cases h3 : valueOf (w.events u) 203 with
      | some x =>
        rw [h3] at h
        cases h
        obtain ⟨e, he, hid, hval⟩ := valueOf_mem h3
        obtain ⟨s, hs⟩ := ht e (events_sub r hu e he) (by rw [hid]; simp)
        exact ⟨s, by rw [← hval, hs]⟩
      | none =>
        rw [h3] at h
        obtain ⟨e, he, hid, hval⟩ := valueOf_mem h
        obtain ⟨s, hs⟩ := ht e (events_sub r hu e he) (by rw [hid]; simp)
        exact ⟨s, by rw [← hval, hs]⟩
    obtain ⟨s, rfl⟩ := hv
    cases s <;> rfl

theorem shownName_text {evs : List Event} (ht : NamesAreText evs) (n : Int) : shownName evs ≠ some (.lv (.int n)) := by
  unfold shownName
  split
  · simp
  · intro h
    obtain ⟨e, he, hid, hval⟩ := valueOf_mem h
    obtain ⟨s, hs⟩ := ht e he (by rw [hid]; simp)
    rw [hs] at hval
    cases hval

theorem rackMatch_iff {w : World} {L : Nat → Prop} (r : WReach w L) {c : Chan} (hc : L c.tree)
    (ht : NamesAreText w.project.events) (i : Subscript) :
    w.rackMatch i c = true ↔ Wanted i (w.events c.tree) := by
  unfold World.rackMatch Wanted
  cases i with
  | int n =>
    dsimp only
    rw [displayName_spec r hc ht, prop_spec r hc, Bool.or_eq_true, decide_eq_true_iff, decide_eq_true_iff]
    constructor
    · rintro (h | h)
      · exact h
      · exact absurd h (shownName_text (fun e he => ht e (events_sub r hc e he)) n)
    · exact .inl
  | str s =>
    dsimp only
    rw [displayName_spec r hc ht, decide_eq_true_iff]
  | slice a b => simp

theorem rackLoop_trees (w : World) (gs us : List Nat) : ∀ c ∈ (w.rackLoop gs us).1, c.tree ∈ us := by
  induction us with
  | nil => intro c hc; cases hc
  | cons u us ih =>
    intro c hc
    unfold World.rackLoop at hc
    split at hc
    · cases hc
    · next c' h =>
      rcases List.mem_cons.1 hc with rfl | hc
      · have : c.tree = u := by
          unfold World.channelOf at h
          repeat' split at h
          all_goals first | (cases h; done) | (cases h; rfl)
        simp [this]
      · exact List.mem_cons_of_mem _ (ih c hc)

theorem rackFind_spec (w : World) (i : Subscript) (e : Option Exc) (cs : List Chan) : ∀ seen,
    (∃ pre c post, cs = pre ++ c :: post ∧ w.rackMatch i c = true ∧ (∀ x ∈ pre, w.rackMatch i x = false) ∧
      w.rackFind i e seen cs = .ok (c, seen ++ pre ++ [c])) ∨
    ((∀ c ∈ cs, w.rackMatch i c = false) ∧ w.rackFind i e seen cs = .error (e.getD .channelNotFound)) := by
  induction cs with
  | nil => intro seen; exact .inr ⟨by simp, rfl⟩
  | cons c cs ih =>
    intro seen
    unfold World.rackFind
    by_cases h : w.rackMatch i c = true
    · rw [if_pos h]
      exact .inl ⟨[], c, cs, rfl, h, by simp, by simp⟩
    · rw [if_neg h]
      have h : w.rackMatch i c = false := by simpa using h
      rcases ih (seen ++ [c]) with ⟨pre, d, post, h1, h2, h3, h4⟩ | ⟨h1, h2⟩
      · refine .inl ⟨c :: pre, d, post, by rw [h1]; rfl, h2, ?_, by rw [h4]; simp⟩
        intro x hx
        rcases List.mem_cons.1 hx with rfl | hx
        · exact h
        · exact h3 x hx
      · refine .inr ⟨?_, h2⟩
        intro x hx
        rcases List.mem_cons.1 hx with rfl | hx
        · exact h
        · exact h1 x hx

/-- C73. `project.channels[i]` is the first channel of the iteration with this `iid`, or with this name; if none of the
channels yielded is wanted, the iteration's exception or `ChannelNotFound` is raised.  (The second component is what the
dictionary of the channels has at that time.) -/
theorem C73_get {w : World} {L : Nat → Prop} (r : WReach w L) {t : Nat} (ht : L t) (hne : shown w.heap 0 ≠ [])
    (htx : NamesAreText w.project.events) (i : Subscript) :
    ∃ w' cs e, w.iterRack t = (w', cs, e) ∧ (w.getChannel t i).1 = w' ∧ w'.project = w.project ∧
      ((∃ pre c post, cs = pre ++ c :: post ∧ Wanted i (w'.events c.tree) ∧ (∀ x ∈ pre, ¬ Wanted i (w'.events x.tree)) ∧
        (w.getChannel t i).2 = .ok (c, pre ++ [c])) ∨
      ((∀ c ∈ cs, ¬ Wanted i (w'.events c.tree)) ∧ (w.getChannel t i).2 = .error (e.getD .channelNotFound))) := by
  obtain ⟨w', gs, us, h1, h2, h3, h4, h5⟩ := rack_views r ht hne
  have htr := rackLoop_trees w' gs us
  generalize hrl : w'.rackLoop gs us = res at h1 htr
  obtain ⟨cs, e⟩ := res
  refine ⟨w', cs, e, h1, by unfold World.getChannel; rw [h1], h5, ?_⟩
  have hm : ∀ c ∈ cs, (w'.rackMatch i c = true ↔ Wanted i (w'.events c.tree)) := fun c hc =>
    rackMatch_iff h2 (.inr (htr c hc)) (by rw [h5]; exact htx) i
  have hget : (w.getChannel t i).2 = w'.rackFind i e [] cs := by unfold World.getChannel; rw [h1]
  rw [hget]
  rcases rackFind_spec w' i e cs [] with ⟨pre, c, post, g1, g2, g3, g4⟩ | ⟨g1, g2⟩
  · refine .inl ⟨pre, c, post, g1, (hm c (by rw [g1]; simp)).1 g2, ?_, by rw [g4]; rfl⟩
    intro x hx hw
    have := g3 x hx
    rw [(hm x (by rw [g1]; simp [hx])).2 hw] at this
    cases this
  · refine .inr ⟨?_, g2⟩
    intro x hx hw
    have := g1 x hx
    rw [(hm x hx).2 hw] at this
    cases this

open Demo in
example : NamesAreText (rackOf band).1.project.events ∧
    ((rackOf band).1.getChannel (rackOf band).2 (.int 1)).2.map (fun x => (x.1.tree, x.2.length)) = .ok (4, 2) ∧
    ((rackOf band).1.getChannel (rackOf band).2 (.str (PStr.lit "Kick"))).2.map (fun x => (x.1.tree, x.2.length)) = .ok (3, 1) ∧
    ((rackOf band).1.getChannel (rackOf band).2 (.int 7)).2 = .error .channelNotFound := by
  refine ⟨?_, by decide +kernel, by decide +kernel, by decide +kernel⟩
  have h : ∀ e ∈ (rackOf band).1.project.events, e.id ∈ [192, 201, 203] → (match e.value with | .str _ => true | _ => false) = true := by
    decide +kernel
  intro e he hid
  have := h e he hid
  split at this
  · exact ⟨_, by assumption⟩
  · cases this

/-! ### C74 -/


namespace Spec

/-- The numbers of the children of a layer, in order. -/
def childNumbers (evs : List Event) : List Value := (evs.filter fun e => decide (e.id = 94)).map Event.value

end Spec

theorem chanBy_spec (cs : List Chan) (v : Value) :
    (∃ pre c post, World.chanBy cs v = some c ∧ cs = pre ++ c :: post ∧ c.iid = v ∧ ∀ x ∈ post, x.iid ≠ v) ∨
    (World.chanBy cs v = none ∧ ∀ c ∈ cs, c.iid ≠ v) := by
  unfold World.chanBy
  cases h : cs.reverse.find? fun c => decide (c.iid = v) with
  | none =>
    right
    refine ⟨rfl, fun c hc => ?_⟩
    have := List.find?_eq_none.1 h c (by simpa using hc)
    simpa using this
  | some c =>
    left
    obtain ⟨h1, as, bs, h2, h3⟩ := List.find?_eq_some_iff_append.1 h
    refine ⟨bs.reverse, c, as.reverse, rfl, ?_, of_decide_eq_true h1, ?_⟩
    · have := congrArg List.reverse h2
      simpa using this
    · intro x hx
      have := h3 x (by simpa using hx)
      simpa using this

theorem childValues {w : World} {L : Nat → Prop} (r : WReach w L) {u : Nat} (hu : L u) :
    ((w.heap.get u [94]).map fun ref => (w.ev ref).value) = childNumbers (w.events u) := by
  rw [get_entries r hu, List.map_map]
  unfold childNumbers
  rw [← World.entries_events, List.filter_map, List.map_map]
  apply List.map_congr_left
  intro e he
  exact congrArg Event.value (entry_ev (List.mem_filter.1 he).1)

/-- C74 for a layer whose children are all among the channels that have been yielded (`cs`): iterating over the layer
yields, for each of the numbers it stores, in their order, the channel with this number, the last one if there are
several; `len()` is the number of children; `layer[i]` is the first child with this `iid`. -/
theorem C74_layer_partial {w : World} {L : Nat → Prop} (r : WReach w L) {u : Nat} (hu : L u) {cs : List Chan}
    (h : ∀ v ∈ childNumbers (w.events u), ∃ c ∈ cs, c.iid = v) :
    ∃ l, w.iterLayer cs u = (l, none) ∧ l.map Chan.iid = childNumbers (w.events u) ∧ l.length = w.lenLayer u ∧
      (∀ c ∈ l, ∃ pre post, cs = pre ++ c :: post ∧ ∀ x ∈ post, x.iid ≠ c.iid) ∧
      ∀ i : Int, (∃ pre c post, l = pre ++ c :: post ∧ w.prop c.tree 64 = some (.lv (.int i)) ∧
          (∀ x ∈ pre, w.prop x.tree 64 ≠ some (.lv (.int i))) ∧ w.getChild cs u i = .ok c) ∨
        ((∀ c ∈ l, w.prop c.tree 64 ≠ some (.lv (.int i))) ∧ w.getChild cs u i = .error .channelNotFound) := by
  have key : ∀ vs : List Value, (∀ v ∈ vs, ∃ c ∈ cs, c.iid = v) → ∃ l, World.childLoop cs vs = (l, none) ∧
      l.map Chan.iid = vs ∧ ∀ c ∈ l, ∃ pre post, cs = pre ++ c :: post ∧ ∀ x ∈ post, x.iid ≠ c.iid := by
    intro vs
    induction vs with
    | nil => intro _; exact ⟨[], rfl, rfl, by simp⟩
    | cons v vs ih =>
      intro hv
      obtain ⟨l, i1, i2, i3⟩ := ih fun v hm => hv v (by simp [hm])
      rcases chanBy_spec cs v with ⟨pre, c, post, h1, h2, h3, h4⟩ | ⟨h1, h2⟩
      · refine ⟨c :: l, ?_, by rw [List.map_cons, h3, i2], ?_⟩
        · unfold World.childLoop
          rw [h1]
          dsimp only
          rw [i1]
        · intro x hx
          rcases List.mem_cons.1 hx with rfl | hx
          · exact ⟨pre, post, h2, by rw [h3]; exact h4⟩
          · exact i3 x hx
      · obtain ⟨c, hc, hcv⟩ := hv v (by simp)
        exact absurd hcv (h2 c hc)
  obtain ⟨l, h1, h2, h3⟩ := key _ h
  have hit : w.iterLayer cs u = (l, none) := by
    unfold World.iterLayer
    rw [childValues r hu, h1]
  refine ⟨l, hit, h2, ?_, h3, ?_⟩
  · have e : l.length = (childNumbers (w.events u)).length := by rw [← h2, List.length_map]
    rw [e]
    unfold World.lenLayer
    rw [count_entries r hu]
    unfold childNumbers
    rw [← World.entries_events, List.filter_map, List.length_map, List.length_map]
    rfl
  · intro i
    unfold World.getChild
    rw [hit]
    dsimp only
    have : ∀ l : List Chan, (∃ pre c post, l = pre ++ c :: post ∧ w.prop c.tree 64 = some (.lv (.int i)) ∧
          (∀ x ∈ pre, w.prop x.tree 64 ≠ some (.lv (.int i))) ∧ w.layerFind (.lv (.int i)) none l = .ok c) ∨
        ((∀ c ∈ l, w.prop c.tree 64 ≠ some (.lv (.int i))) ∧
          w.layerFind (.lv (.int i)) none l = .error .channelNotFound) := by
      intro l
      induction l with
      | nil => exact .inr ⟨by simp, rfl⟩
      | cons c l ih =>
        unfold World.layerFind
        by_cases hc : w.prop c.tree 64 = some (.lv (.int i))
        · rw [if_pos hc]
          exact .inl ⟨[], c, l, rfl, hc, by simp, rfl⟩
        · rw [if_neg hc]
          rcases ih with ⟨pre, d, post, g1, g2, g3, g4⟩ | ⟨g1, g2⟩
          · refine .inl ⟨c :: pre, d, post, by rw [g1]; rfl, g2, ?_, g4⟩
            intro x hx
            rcases List.mem_cons.1 hx with rfl | hx
            · exact hc
            · exact g3 x hx
          · refine .inr ⟨?_, g2⟩
            intro x hx
            rcases List.mem_cons.1 hx with rfl | hx
            · exact hc
            · exact g1 x hx
    exact this l

/-- C74 is false of all other layers: at the first child that is not there, `KeyError` is raised. -/
theorem C74_missing_refuted {w : World} {L : Nat → Prop} (r : WReach w L) {u : Nat} (hu : L u) {cs : List Chan}
    {pre post : List Value} {v : Value} (hn : childNumbers (w.events u) = pre ++ v :: post) (h : ∀ c ∈ cs, c.iid ≠ v)
    (hp : ∀ v ∈ pre, ∃ c ∈ cs, c.iid = v) :
    (w.iterLayer cs u).2 = some .keyError ∧ (w.iterLayer cs u).1.length = pre.length := by
  unfold World.iterLayer
  rw [childValues r hu, hn]
  clear hn
  induction pre with
  | nil =>
    rw [List.nil_append]
    unfold World.childLoop
    rcases chanBy_spec cs v with ⟨_, c, _, h1, h2, h3, _⟩ | ⟨h1, h2⟩
    · exact absurd h3 (h c (by rw [h2]; simp))
    · rw [h1]
      exact ⟨rfl, rfl⟩
  | cons a pre ih =>
    rw [List.cons_append]
    unfold World.childLoop
    obtain ⟨i1, i2⟩ := ih fun v hv => hp v (by simp [hv])
    rcases chanBy_spec cs a with ⟨_, c, _, h1, _⟩ | ⟨h1, h2⟩
    · rw [h1]
      exact ⟨i1, by rw [List.length_cons, List.length_cons, i2]⟩
    · obtain ⟨c, hc, hca⟩ := hp a (by simp)
      exact absurd hca (h2 c hc)

/-- C74 is false of layers taken from the rack by number: their children that come later in the rack are not there yet.
Here the second child of `project.channels[1]` is; after a complete iteration it is found. -/
theorem C74_subscript_refuted : ∃ (w' : World) (cs : List Chan) (c : Chan) (seen : List Chan),
    (Demo.rackOf Demo.band).1.iterRack (Demo.rackOf Demo.band).2 = (w', cs, none) ∧
    (Demo.rackOf Demo.band).1.getChannel (Demo.rackOf Demo.band).2 (.int 1) = (w', .ok (c, seen)) ∧ c ∈ cs ∧
    childNumbers (w'.events c.tree) = [.lv (.int 0), .lv (.int 2)] ∧ cs.map Chan.iid = [.lv (.int 0), .lv (.int 1), .lv (.int 2)] ∧
    (w'.iterLayer cs c.tree).2 = none ∧ (w'.iterLayer seen c.tree).2 = some .keyError := by
  refine ⟨((Demo.rackOf Demo.band).1.iterRack (Demo.rackOf Demo.band).2).1,
    ((Demo.rackOf Demo.band).1.iterRack (Demo.rackOf Demo.band).2).2.1, ⟨4, .layer, 2, .lv (.int 1)⟩,
    [⟨3, .sampler, 2, .lv (.int 0)⟩, ⟨4, .layer, 2, .lv (.int 1)⟩], ?_, ?_, by decide +kernel, by decide +kernel,
    by decide +kernel, by decide +kernel, by decide +kernel⟩
  · have : ((Demo.rackOf Demo.band).1.iterRack (Demo.rackOf Demo.band).2).2.2 = none := by decide +kernel
    rw [← this]
  · have : ((Demo.rackOf Demo.band).1.getChannel (Demo.rackOf Demo.band).2 (.int 1)).2 =
      .ok (⟨4, .layer, 2, .lv (.int 1)⟩, [⟨3, .sampler, 2, .lv (.int 0)⟩, ⟨4, .layer, 2, .lv (.int 1)⟩]) := by decide +kernel
    rw [← this]
    rfl

/-- The layer of `Demo.band` is such a layer after a complete iteration. -/
example : ∃ c ∈ ((Demo.rackOf Demo.band).1.iterRack (Demo.rackOf Demo.band).2).2.1, c.cls = .layer ∧
    childNumbers ((((Demo.rackOf Demo.band).1.iterRack (Demo.rackOf Demo.band).2).1).events c.tree) ≠ [] ∧
    ∀ v ∈ childNumbers ((((Demo.rackOf Demo.band).1.iterRack (Demo.rackOf Demo.band).2).1).events c.tree),
      ∃ d ∈ ((Demo.rackOf Demo.band).1.iterRack (Demo.rackOf Demo.band).2).2.1, d.iid = v := by
  refine ⟨⟨4, .layer, 2, .lv (.int 1)⟩, by decide +kernel, rfl, by decide +kernel, ?_⟩
  have h1 : childNumbers ((((Demo.rackOf Demo.band).1.iterRack (Demo.rackOf Demo.band).2).1).events 4) =
      [.lv (.int 0), .lv (.int 2)] := by decide +kernel
  have h2 : ((Demo.rackOf Demo.band).1.iterRack (Demo.rackOf Demo.band).2).2.1 =
      [⟨3, .sampler, 2, .lv (.int 0)⟩, ⟨4, .layer, 2, .lv (.int 1)⟩, ⟨5, .instrument, 2, .lv (.int 2)⟩] := by decide +kernel
  rw [show (⟨4, .layer, 2, .lv (.int 1)⟩ : Chan).tree = 4 from rfl, h1, h2]
  intro v hv
  simp at hv ⊢
  rcases hv with rfl | rfl <;> simp

end PyFLP
