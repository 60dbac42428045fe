import Verif.Props.Exact
import Verif.Props.Counts
import Verif.Props.Mixer
import Verif.Props.Slices
/-!
# More collections in full (C53, C58, C59, C62, C96, C97)

What the properties of time markers, tracks, inserts, slots and channel classes are for every project and state, also where the
properties as stated do not hold.
-/

namespace PyFLP

open Spec Heap

/-! ### Time markers (C53) -/

/-- C53, for every pattern, arrangement and state: there are as many markers as the most frequent kind of marker event occurs.  The
`k`-th marker shows exactly the `k`-th event of each of the four kinds, as far as there is one, in the order of the project. -/
theorem C53_exact {w : World} {L : Nat → Prop} (r : WReach w L) {u : Nat} (hu : L u) (hne : shown w.heap 0 ≠ []) :
    let w' := (w.timeMarkers u).1
    let vs := (w.timeMarkers u).2
    let kind : Nat → List Entry := fun id => (w.entries u).filter fun e => decide (e.2.id = id)
    (∀ id ∈ [33, 34, 148, 205], (kind id).length ≤ vs.length) ∧
    (vs = [] ∨ ∃ id ∈ [33, 34, 148, 205], (kind id).length = vs.length) ∧
    (∀ (k v : Nat), vs[k]? = some v → (w'.entries v).Sublist (w.entries u) ∧
      ∀ e, e ∈ w'.entries v ↔ ∃ id ∈ [33, 34, 148, 205], (kind id)[k]? = some e) ∧
    WReach w' (fun v => L v ∨ v ∈ vs) ∧ w'.project = w.project := by
  have hr := (wreach_inv r).1
  obtain ⟨c1, c2, c3⟩ := C28_group hr hu [33, 34, 148, 205] (by decide)
  have hs := C29_views_are_selections hr hu (.group [33, 34, 148, 205] (by decide))
  let f : Ev → Entry := fun x => (x.1, w.ev x.1)
  have hoccf : ∀ id, (w.entries u).filter (fun e => decide (e.2.id = id)) =
      ((shown w.heap u).filter fun e => decide (e.2 = id)).map f := by
    intro id
    rw [World.entries_eq, List.filter_map]
    congr 1
    apply List.filter_congr
    intro x hx
    simp only [Function.comp_def, (events_shown r hu x hx).2]
  have hent : ∀ v, (w.timeMarkers u).1.entries v = (shown (w.heap.group u [33, 34, 148, 205]).1 v).map f := fun v =>
    World.entries_eq _ v
  have hview := WReach.view r hu hne (.group [33, 34, 148, 205] (by decide))
  obtain ⟨g, _⟩ := reach_good hr
  have hlen : ∀ id, ((w.entries u).filter fun e => decide (e.2.id = id)).length =
      ((shown w.heap u).filter fun e => decide (e.2 = id)).length := fun id => by rw [hoccf, List.length_map]
  refine ⟨fun id hid => ?_, ?_, fun k v hv => ⟨?_, fun e => ?_⟩, hview, ?_⟩
  · have := c1 id hid
    rw [List.length_map, ← hlen] at this
    exact this
  · rcases c2 with c2 | ⟨id, hid, c2⟩
    · exact .inl (List.map_eq_nil_iff.1 c2)
    · rw [List.length_map, ← hlen] at c2
      exact .inr ⟨id, hid, c2⟩
  · rw [hent, World.entries_eq]
    exact (hs v (List.mem_of_getElem? hv)).1.map f
  · have hmem := c3 k (shown (w.heap.group u [33, 34, 148, 205]).1 v) (by
      rw [List.getElem?_map]
      change Option.map _ (w.timeMarkers u).2[k]? = _
      rw [hv]
      rfl)
    rw [hent]
    simp only [hoccf, List.getElem?_map, Option.map_eq_some_iff]
    constructor
    · intro he
      obtain ⟨x, hx, rfl⟩ := List.mem_map.1 he
      obtain ⟨id, hid, hg⟩ := (hmem x).1 hx
      exact ⟨id, hid, x, hg, rfl⟩
    · rintro ⟨id, hid, x, hg, rfl⟩
      exact List.mem_map.2 ⟨x, (hmem x).2 ⟨id, hid, hg⟩, rfl⟩
  · unfold World.project
    rw [World.events_eq, World.events_eq]
    have : shown (w.timeMarkers u).1.heap 0 = shown w.heap 0 :=
      shown_view (g.lt u hu) (.group [33, 34, 148, 205] (by decide)) (g.lt 0 g.vρ)
    rw [this]
    rfl

open Demo in
/-- Two markers of which only the second one has a name: the first one shows it. -/
example : WReach (World.ofProject unnamed) (· = 0) ∧ shown (World.ofProject unnamed).heap 0 ≠ [] ∧
    ((World.ofProject unnamed).timeMarkers 0).2 = [1, 2] ∧
    (((World.ofProject unnamed).timeMarkers 0).2.map fun v => (((World.ofProject unnamed).timeMarkers 0).1.events v).map Event.id) =
      [[148, 205], [148]] :=
  ⟨.parsed _, by decide +kernel, by decide +kernel, by decide +kernel⟩

/-! ### Tracks and slots (C58, C62) -/

namespace Spec

/-- Where `divide` begins another part: events with the id of the separator, but the first one. -/
def begins (sep : Nat) (before : List Entry) (e : Entry) : Bool := e.2.id == sep && before.any fun x => x.2.id == sep

/-- Events of slots and plugins. -/
def isSlotEvent (e : Entry) : Bool := decide (e.2.id ∈ [98, 128, 155, 201, 203, 212, 213])

end Spec

theorem divAt_exact (sep : Nat) (ids : List Nat) (l : List Entry) : ∀ (before el : List Entry) (s : List Entry) (ss : List (List Entry)),
    cutBefore (begins sep) before l = s :: ss →
    divBy (fun e : Entry => e.2.id) sep ids l el (!before.any fun x => x.2.id == sep) =
      (el ++ s.filter fun e => decide (e.2.id ∈ ids)) :: ss.map fun p => p.filter fun e => decide (e.2.id ∈ ids) := by
  induction l with
  | nil =>
    intro before el s ss h
    cases h
    simp [divBy]
  | cons e l ih =>
    intro before el s ss h
    obtain ⟨s', ss', h'⟩ := cutBefore_cons (begins sep) l (before ++ [e])
    rw [cutBefore, h'] at h
    dsimp only at h
    rw [divBy]
    cases he : (begins sep) before e with
    | true =>
      rw [he, if_pos rfl] at h
      cases h
      have h1 : e.2.id = sep := by unfold begins at he; simp at he; exact he.1
      have h2 : (before.any fun x => x.2.id == sep) = true := by
        unfold begins at he
        rw [Bool.and_eq_true] at he
        exact he.2
      have h3 := ih (before ++ [e]) (if e.2.id ∈ ids then [e] else []) s' ss' h'
      rw [List.any_append, h2] at h3
      rw [if_pos ⟨h1, by rw [h2]; rfl⟩, List.filter_nil, List.append_nil, List.map_cons]
      simp only [Bool.true_or, Bool.not_true] at h3
      rw [h3, List.filter_cons]
      by_cases hm : e.2.id ∈ ids <;> simp [hm]
    | false =>
      rw [he, if_neg (by decide)] at h
      cases h
      have hn : ¬ (e.2.id = sep ∧ (!before.any fun x => x.2.id == sep) = false) := by
        rintro ⟨h1, h2⟩
        unfold begins at he
        rw [h1] at he
        simp only [Bool.not_eq_false'] at h2
        rw [h2] at he
        simp at he
      rw [if_neg hn]
      have h3 := ih (before ++ [e]) (if e.2.id ∈ ids then el ++ [e] else el) _ _ h'
      rw [List.any_append] at h3
      have e1 : (!((before.any fun x => x.2.id == sep) || [e].any fun x => x.2.id == sep)) =
          ((!before.any fun x => x.2.id == sep) && e.2.id != sep) := by
        simp [bne]
      rw [e1] at h3
      rw [h3, List.filter_cons]
      by_cases hm : e.2.id ∈ ids <;> simp [hm]

theorem divViews_exact {w : World} {L : Nat → Prop} (r : WReach w L) {t : Nat} (ht : L t) (hne : shown w.heap 0 ≠ []) (sep : Nat)
    (ids : List Nat) :
    (w.divViews t sep ids).2.map (w.divViews t sep ids).1.entries =
      (cutBefore (begins sep) [] (w.entries t)).map fun p => p.filter fun e => decide (e.2.id ∈ ids) := by
  obtain ⟨_, h2, _⟩ := divViews_spec r ht hne sep ids
  obtain ⟨s, ss, hs⟩ := cutBefore_cons (begins sep) (w.entries t) []
  have := divAt_exact sep ids (w.entries t) [] [] s ss hs
  rw [h2, hs]
  exact this

theorem begins_length (sep : Nat) (l : List Entry) : ∀ before,
    (cutBefore (begins sep) before l).length =
      (if before.any fun x => x.2.id == sep then 1 + (l.filter fun e => decide (e.2.id = sep)).length
        else max 1 (l.filter fun e => decide (e.2.id = sep)).length) := by
  induction l with
  | nil => intro before; simp [cutBefore]
  | cons e l ih =>
    intro before
    obtain ⟨s, ss, hs⟩ := cutBefore_cons (begins sep) l (before ++ [e])
    have hl := ih (before ++ [e])
    rw [hs, List.any_append] at hl
    rw [cutBefore, hs]
    dsimp only
    unfold begins
    by_cases h1 : e.2.id = sep
    · cases h2 : before.any fun x => x.2.id == sep
      · simp [h1, h2] at hl ⊢; omega
      · simp [h1, h2] at hl ⊢; omega
    · cases h2 : before.any fun x => x.2.id == sep
      · simp [h1, h2] at hl ⊢; omega
      · simp [h1, h2] at hl ⊢; omega

/-- C58, for every arrangement and state: cut the events before every data event of a track but the first one.  Each part is a track,
which shows the track events of the part; so there is always at least one track, and the first one shows what comes before its data
event. -/
theorem C58_exact {w : World} {L : Nat → Prop} (r : WReach w L) {u : Nat} (hu : L u) (hne : shown w.heap 0 ≠ []) :
    let w' := (w.trackViews u).1
    let us := (w.trackViews u).2
    us.map w'.entries = (cutBefore (begins 238) [] (w.entries u)).map (fun p => p.filter isTrackEvent) ∧
    us.length = max 1 ((w.entries u).filter fun e => decide (e.2.id = 238)).length ∧
    WReach w' (fun v => L v ∨ v ∈ us) ∧ w'.project = w.project := by
  obtain ⟨h1, _, h3, _⟩ := divViews_spec r hu hne 238 [239, 238]
  have h := divViews_exact r hu hne 238 [239, 238]
  refine ⟨h, ?_, h1, h3⟩
  have := congrArg List.length h
  rw [List.length_map, List.length_map, begins_length] at this
  exact this

/-- C62, for every insert and state: cut the events before every index event of a slot but the first one.  Each part is a slot, which
shows the slot and plugin events of the part. -/
theorem C62_exact {w : World} {L : Nat → Prop} (r : WReach w L) {u : Nat} (hu : L u) (hne : shown w.heap 0 ≠ []) :
    let w' := (w.slotViews u).1
    let us := (w.slotViews u).2
    us.map w'.entries = (cutBefore (begins 98) [] (w.entries u)).map (fun p => p.filter isSlotEvent) ∧
    us.length = max 1 ((w.entries u).filter fun e => decide (e.2.id = 98)).length ∧
    WReach w' (fun v => L v ∨ v ∈ us) ∧ w'.project = w.project := by
  obtain ⟨h1, _, h3, _⟩ := divViews_spec r hu hne 98 [98, 128, 155, 201, 203, 212, 213]
  have h := divViews_exact r hu hne 98 [98, 128, 155, 201, 203, 212, 213]
  refine ⟨h, ?_, h1, h3⟩
  have := congrArg List.length h
  rw [List.length_map, List.length_map, begins_length] at this
  exact this

/-! ### Inserts (C59, C96) -/

namespace Spec

/-- `Output` events. -/
def isOutput (_ : List Entry) (e : Entry) : Bool := e.2.id == 147

end Spec

theorem insertStep_eq (before : List Entry) (e : Entry) :
    (insertStep () e.2.id).1 = if isOutput before e then some false else if isInsertEvent e then some true else none := by
  unfold insertStep isOutput isInsertEvent
  by_cases h : e.2.id = 147
  · simp [h]
  · rw [if_neg h, insertID_has h]
    simp only [beq_eq_false_iff_ne.2 h, Bool.false_eq_true, if_false]
    split <;> rfl

theorem cutInserts_exact (l : List Entry) : ∀ (before el : List Entry) (n : Nat) (s : List Entry) (ss : List (List Entry)),
    cutBefore isOutput before l = s :: ss →
    cutBy insertStep (fun e : Entry => e.2.id) () l el (n : Int) =
      (((el ++ s.filter fun e => isInsertEvent e || e.2.id == 147) ::
        ss.map fun p => p.filter fun e => isInsertEvent e || e.2.id == 147).dropLast).take n := by
  induction l with
  | nil =>
    intro before el n s ss h
    cases h
    simp [cutBy]
  | cons e l ih =>
    intro before el n s ss h
    obtain ⟨s', ss', h'⟩ := cutBefore_cons isOutput l (before ++ [e])
    rw [cutBefore, h'] at h
    dsimp only at h
    rw [cutBy]
    cases n with
    | zero => simp
    | succ n =>
      rw [if_neg (by omega), insertStep_eq before]
      cases he : isOutput before e with
      | true =>
        rw [he, if_pos rfl] at h
        cases h
        have hq : (isInsertEvent e || e.2.id == 147) = true := by
          unfold isOutput at he; simp [he]
        simp only [if_true]
        have := ih (before ++ [e]) [e] n s' ss' h'
        rw [show ((n + 1 : Nat) : Int) - 1 = (n : Int) by omega]
        change el :: cutBy insertStep (fun e : Entry => e.2.id) () l [e] (n : Int) = _
        rw [this]
        rw [List.filter_nil, List.append_nil, List.map_cons, List.filter_cons, if_pos hq]
        rfl
      | false =>
        rw [he, if_neg (by decide)] at h
        cases h
        have h147 : (e.2.id == 147) = false := he
        simp only [if_false, Bool.false_eq_true]
        cases ha : isInsertEvent e with
        | true =>
          simp only [if_true]
          change cutBy insertStep (fun e : Entry => e.2.id) () l (el ++ [e]) ((n + 1 : Nat) : Int) = _
          rw [ih (before ++ [e]) (el ++ [e]) (n + 1) _ _ h', List.filter_cons, if_pos (by simp [ha])]
          simp
        | false =>
          simp only [if_false, Bool.false_eq_true]
          change cutBy insertStep (fun e : Entry => e.2.id) () l el ((n + 1 : Nat) : Int) = _
          rw [ih (before ++ [e]) el (n + 1) _ _ h', List.filter_cons, if_neg (by simp [ha, h147])]

theorem outputs_length (l : List Entry) : ∀ before,
    (cutBefore isOutput before l).length = 1 + (l.filter fun e => decide (e.2.id = 147)).length := by
  induction l with
  | nil => intro before; simp [cutBefore]
  | cons e l ih =>
    intro before
    obtain ⟨s, ss, hs⟩ := cutBefore_cons isOutput l (before ++ [e])
    have hl := ih (before ++ [e])
    rw [hs] at hl
    rw [cutBefore, hs]
    dsimp only
    unfold isOutput
    by_cases h1 : e.2.id = 147
    · simp [h1] at hl ⊢; omega
    · simp [h1] at hl ⊢; omega

/-- C59, for every mixer and state: cut the events before every `Output` event.  The inserts are the first parts, without the very
last one, as many as the version allows; each shows the insert, plugin and slot events of its part, and the `Output` event it begins
with, which is that of the insert before. -/
theorem C59_exact {w : World} {L : Nat → Prop} (r : WReach w L) {t : Nat} (ht : L t) (hne : shown w.heap 0 ≠ []) (v : FLVersion) :
    let w' := (w.iterInserts t v).1
    let us := (w.iterInserts t v).2
    us.map w'.entries = (((cutBefore isOutput [] (w.entries t)).dropLast).take (maxInserts v)).map
      (fun p => p.filter fun e => isInsertEvent e || e.2.id == 147) ∧
    WReach w' (fun u => L u ∨ u ∈ us) ∧ w'.project = w.project := by
  obtain ⟨h1, h2, h3, _⟩ := subViews_spec r ht hne insertStep () (maxInserts v : Int)
  obtain ⟨s, ss, hs⟩ := cutBefore_cons isOutput (w.entries t) []
  refine ⟨?_, h1, h3⟩
  refine h2.trans ?_
  rw [cutInserts_exact (w.entries t) [] [] (maxInserts v) s ss hs, hs, List.nil_append, List.map_take, ← List.map_cons,
    List.map_dropLast]

/-- C96, for every mixer and state: the iteration gives as many inserts as there are `Output` events, at most `max_inserts`; `len()` is
the number of flag events (`C96_len`). -/
theorem C96_exact {w : World} {L : Nat → Prop} (r : WReach w L) {t : Nat} (ht : L t) (hne : shown w.heap 0 ≠ []) (v : FLVersion) :
    (w.iterInserts t v).2.length = min (maxInserts v) ((w.events t).filter fun e => decide (e.id = 147)).length := by
  obtain ⟨h, _⟩ := C59_exact r ht hne v
  have := congrArg List.length h
  rw [List.length_map, List.length_map, List.length_take, List.length_dropLast, outputs_length] at this
  rw [this, ← World.entries_events, List.filter_map, List.length_map]
  change min _ (1 + _ - 1) = min _ (List.filter (fun e : Entry => decide (e.2.id = 147)) (w.entries t)).length
  omega

/-! ### Classes of channels (C97) -/

/-- C97, for every rack and state: iterating over the automations, instruments, layers or samplers gives the channels of this class
among those the rack yields before its exception, if any, in their order and with their events, and raises what the rack raises. -/
theorem C97_exact {w : World} {L : Nat → Prop} (r : WReach w L) {t : Nat} (ht : L t) (hne : shown w.heap 0 ≠ [])
    (htext : ∀ e ∈ w.entries t, e.2.id = 201 → ∃ s, e.2.value = .str s) {groups : List Entry} {parts : List (List Entry)}
    (hgr : groups = (w.entries t).filter fun e => decide (e.2.id = 231))
    (hparts : parts = cutBefore beginsChannel [] (w.entries t)) (cls : ChClass) :
    ∃ w' cs err n, w.iterClass t cls = (w', cs, err) ∧ w'.project = w.project ∧
      (∀ b ∈ parts.take n, ∃ q, channelResult groups b = .ok q) ∧
      cs.map (fun c => w'.entries c.tree) =
        ((parts.take n).filter fun b => decide (classOf (b.map Prod.snd) = cls)).map (fun b => b.filter isChannelEvent) ∧
      (∀ c ∈ cs, c.cls = cls) ∧
      (match err with
      | none => n = parts.length
      | some x => ∃ b, parts[n]? = some b ∧ channelResult groups b = .error x) := by
  obtain ⟨-, w', cs, err, h1, h2, -, h4, h5, h6⟩ := C72_exact r ht hne htext hgr hparts
  have hcls : ∀ (b : List Entry) iid c g, channelResult groups b = .ok (iid, c, g) → c = classOf (b.map Prod.snd) := by
    intro b iid c g h
    unfold channelResult at h
    repeat' split at h
    all_goals first | (cases h; done) | (cases h; rfl)
  refine ⟨w', World.channelsOf cls cs, err, cs.length, ?_, h2, ?_, ?_, ?_, h6⟩
  · unfold World.iterClass
    rw [h1]
  · intro b hb
    obtain ⟨k, hk⟩ := List.getElem?_of_mem hb
    rw [List.getElem?_take] at hk
    split at hk
    · next hlt =>
      obtain ⟨b', g, hb', hr, _⟩ := h5 k (cs[k]) (List.getElem?_eq_getElem hlt)
      rw [hk] at hb'
      cases hb'
      exact ⟨_, hr⟩
    · cases hk
  · obtain ⟨f1, f2⟩ := filter_blocks (fun c : Chan => decide (c.cls = cls)) (fun b => decide (classOf (b.map Prod.snd) = cls))
      (fun c b => c.cls = classOf (b.map Prod.snd) ∧ w'.entries c.tree = b.filter isChannelEvent)
      (fun c b h => by rw [h.1]) cs (parts.take cs.length) (by rw [List.length_take]; omega) (fun k c b hc hb => by
        obtain ⟨b', g, hb', hr, _, g3⟩ := h5 k c hc
        rw [List.getElem?_take] at hb
        split at hb
        · rw [hb] at hb'
          cases hb'
          exact ⟨hcls _ _ _ _ hr, g3⟩
        · cases hb)
    apply List.ext_getElem?
    intro k
    rw [List.getElem?_map, List.getElem?_map]
    unfold World.channelsOf
    cases hc : (cs.filter fun c => decide (c.cls = cls))[k]? with
    | none =>
      have := List.getElem?_eq_none_iff.1 hc
      rw [List.getElem?_eq_none (by omega)]
      rfl
    | some c =>
      cases hb : ((parts.take cs.length).filter fun b => decide (classOf (b.map Prod.snd) = cls))[k]? with
      | none =>
        have := List.getElem?_eq_none_iff.1 hb
        obtain ⟨hlt, _⟩ := List.getElem?_eq_some_iff.1 hc
        omega
      | some b => exact congrArg some (f2 k c b hc hb).2
  · intro c hc
    simpa using (List.mem_filter.1 hc).2

open Demo in
/-- Cases of C58, C59, C62, C96 and C97: an arrangement with two tracks, a mixer with two inserts, an insert with three slots, a rack. -/
example : (∃ w' us, albumWorld.1.iterArrangements albumWorld.2 = (w', .ok us) ∧ shown w'.heap 0 ≠ [] ∧
      (us.map fun u => (cutBefore (begins 238) [] (w'.entries u)).length) = [2, 1]) ∧
    (cutBefore isOutput [] (consoleWorld.1.entries consoleWorld.2)).length = 3 ∧
    (cutBefore (begins 98) [] (slotWorld.entries 0)).length = 3 ∧
    ((rackOf band).1.iterClass (rackOf band).2 .layer).2.2 = none := by
  refine ⟨⟨(albumWorld.1.iterArrangements albumWorld.2).1, [2, 3], ?_, by decide +kernel, by decide +kernel⟩, by decide +kernel,
    by decide +kernel, by decide +kernel⟩
  have : (albumWorld.1.iterArrangements albumWorld.2).2 = .ok [2, 3] := by decide +kernel
  rw [← this]

end PyFLP
