import Verif.Props.Survival
/-!
# What is not edited survives any number of rounds of opening, editing and saving (C149)
-/

namespace PyFLP

open Spec Heap

variable [FloatEnv]

namespace Spec

/-- An event with an id of numbers of one, two or four bytes has a class of such numbers. -/
def OfItsId (e : Event) : Prop :=
  (e.id < 64 → e.kind ∈ [.bool, .i8, .u8]) ∧ (64 ≤ e.id → e.id < 128 → e.kind ∈ [.i16, .u16]) ∧
    (128 ≤ e.id → e.id < 192 → e.kind ∈ [.f32, .i32, .u32, .u16t, .color])

/-- The event number `i` of the file `f`, left alone in any number of rounds of opening, editing and saving, is the event number `j` of
the file `g`.  The events that are inserted have a class of their id (`OfItsId`); the constructors do not see to that (C10). -/
inductive Carried (f : Bytes) (i : Nat) : Bytes → Nat → Prop
  | start : Carried f i f i
  | round {g g' : Bytes} {j k : Nat} {p : Project} {w : World} {L : Nat → Prop} {n : Nat} {c d : List Nat} (r : Carried f i g j)
      (opened : parseFile g = .ok p) (edited : Edited p w L n c d) (untouched : j ∉ c) (place : (w.refs 0)[k]? = some j)
      (inserted : ∀ e ∈ w.store.drop p.events.length, OfItsId e) (saved : saveBytes w.project = .ok g') :
      Carried f i g' k

end Spec

omit [FloatEnv] in
/-- No edit changes the id or the class of an event. -/
theorem edited_tags {p : Project} {w : World} {L : Nat → Prop} {n : Nat} {c d : List Nat} (r : Edited p w L n c d) :
    (w.store.take p.events.length).map (fun e => (e.id, e.kind)) = p.events.map fun e => (e.id, e.kind) := by
  induction r with
  | opened => exact congrArg _ (List.take_length)
  | view _ _ _ _ ih => exact ih
  | pop _ _ _ ih => exact ih
  | @insert w L n c d t pos h' r ht e hi ih =>
    show ((w.store ++ [e]).take _).map _ = _
    rw [List.take_append_of_le_length (by have := (edited_refs r).1; omega)]
    exact ih
  | @assign w L n c d r ref v ih =>
    rw [← ih]
    show ((w.store.set ref _).take _).map _ = _
    rw [List.take_set, List.map_set]
    apply List.ext_getElem?
    intro i
    rw [List.getElem?_set]
    split
    · next h =>
      subst h
      split
      · next hl =>
        rw [List.length_map] at hl
        rw [List.getElem?_map, List.getElem?_eq_getElem hl]
        have h2 := hl
        rw [List.length_take] at h2
        have : w.ev ref = (w.store.take p.events.length)[ref] := by
          unfold World.ev
          rw [List.getD_eq_getElem?_getD, List.getElem?_eq_getElem (by omega), List.getElem_take]
          rfl
        rw [← this]
        rfl
      · next hl =>
        rw [List.getElem?_eq_none (by omega)]
    · rfl
  | header _ _ _ _ ih => exact ih

omit [FloatEnv] in
theorem ofItsId_width {e : Event} (h : OfItsId e) : ∀ m, fixedSize e.id = some m → e.kind.width = some m := by
  intro m hm
  obtain ⟨h1, h2, h3⟩ := h
  unfold fixedSize at hm
  split at hm
  · next q =>
    cases hm
    have := h1 q
    simp only [List.mem_cons, List.not_mem_nil, or_false] at this
    rcases this with h | h | h <;> rw [h] <;> rfl
  · split at hm
    · next q1 q =>
      cases hm
      have := h2 (by omega) q
      simp only [List.mem_cons, List.not_mem_nil, or_false] at this
      rcases this with h | h <;> rw [h] <;> rfl
    · split at hm
      · next q1 q2 q =>
        cases hm
        have := h3 (by omega) q
        simp only [List.mem_cons, List.not_mem_nil, or_false] at this
        rcases this with h | h | h | h | h <;> rw [h] <;> rfl
      · cases hm

/-- The events of a parsed project have a class of their id. -/
theorem parsed_width {before : List Event} {fs : List (Nat × Bytes)} {evs : List Event} (h : Decoded before fs evs)
    (hid : ∀ f ∈ fs, f.1 < 256) : ∀ e ∈ evs, ∀ m, fixedSize e.id = some m → e.kind.width = some m := by
  induction h with
  | nil => simp
  | @cons before f e fs evs d t ih =>
    intro e' he'
    rcases List.mem_cons.1 he' with rfl | he'
    · have hst : StateAt before ⟨lastStr 201 before, textKind before⟩ := ⟨rfl, rfl⟩
      have hk : kindOf before e'.id = some e'.kind := by rw [d.id]; exact d.kind
      exact (resolve_facts (by rw [d.id]; exact hid f (by simp)) (okStr_textKind before) ((resolve_kindOf hst).2 hk)).2
    · exact ih (fun f hf => hid f (by simp [hf])) e' he'

/-- Everything that is written has the size that belongs to its id. -/
theorem edited_sizes {p : Project} {w : World} {L : Nat → Prop} {n : Nat} {c d : List Nat} (r : Edited p w L n c d)
    (hp : ∀ e ∈ p.events, ∀ m, fixedSize e.id = some m → e.kind.width = some m)
    (hi : ∀ e ∈ w.store.drop p.events.length, OfItsId e) {g : Bytes} (hs : saveBytes w.project = .ok g) :
    ∀ f ∈ w.project.events.map Event.fr, FrameOK f := by
  obtain ⟨g0, g1, d0, d1, q0, q1, t0, t1, t2, t3, e4, -, -, -, e5, e6⟩ := saveBytes_ok hs
  have hstore : ∀ e ∈ w.store, ∀ m, fixedSize e.id = some m → e.kind.width = some m := by
    intro e he
    rw [← List.take_append_drop p.events.length w.store] at he
    rcases List.mem_append.1 he with h | h
    · have h1 := List.mem_map_of_mem (f := fun e : Event => (e.id, e.kind)) h
      rw [edited_tags r] at h1
      obtain ⟨e', h2, h3⟩ := List.mem_map.1 h1
      rw [Prod.mk.injEq] at h3
      rw [← h3.1, ← h3.2]
      exact hp e' h2
    · exact ofItsId_width (hi e h)
  intro f hf
  obtain ⟨e, he, rfl⟩ := List.mem_map.1 hf
  obtain ⟨pid, ppay⟩ := e6 e he
  have hmem : e ∈ w.store := by
    obtain ⟨x, hx, rfl⟩ := List.mem_map.1 (show e ∈ (w.refs 0).map w.ev from he)
    rw [World.refs_eq] at hx
    obtain ⟨y, hy, rfl⟩ := List.mem_map.1 hx
    have hlt := ((wreach_inv r.reach).2 y hy).1
    unfold World.ev
    rw [List.getD_eq_getElem?_getD, List.getElem?_eq_getElem hlt]
    exact List.getElem_mem hlt
  have hl : e.pay.length < 2 ^ 63 := by
    have h7 := frames_mem_length (fs := w.project.events.map Event.fr) (f := e.fr) hf
    have h8 : e.fr.2.length = e.pay.length := rfl
    have := dword_lt t0 t1 t2 t3
    omega
  have hb : ∀ m, fixedSize e.id = some m → e.pay.length = m := fun m hm => build_width (hstore e hmem m hm) ppay
  refine ⟨pid, ?_, ?_, ?_, fun _ => hl⟩
  · intro h; exact hb 1 (by simp [fixedSize, show e.id < 64 from h])
  · rintro ⟨h1, h2⟩
    have h1 : 64 ≤ e.id := h1
    have h2 : e.id < 128 := h2
    exact hb 2 (by unfold fixedSize; rw [if_neg (by omega), if_pos h2])
  · rintro ⟨h1, h2⟩
    have h1 : 128 ≤ e.id := h1
    have h2 : e.id < 192 := h2
    exact hb 4 (by unfold fixedSize; rw [if_neg (by omega), if_neg (by omega), if_pos h2])

/-- **C149**, rounds: an event whose class is the same wherever it stands and whose data is in the form that is written, left alone in
any number of rounds of opening, editing in any other way and saving, still has the same id and data. -/
theorem C149_rounds {f g : Bytes} {i j : Nat} (h : Carried f i g j) {fs : List (Nat × Bytes)} (hs : Splits (f.drop 22) fs)
    {x : Nat × Bytes} (hx : fs[i]? = some x) {k : Kind} (hk : ∀ before, kindOf before x.1 = some k) (hc : canonPayload k x.2) :
    ∃ gs, Splits (g.drop 22) gs ∧ gs[j]? = some x := by
  induction h with
  | start => exact ⟨fs, hs, hx⟩
  | @round g g' j k' p w L n c d r opened edited untouched place inserted saved ih =>
    obtain ⟨gs, hg, hgx⟩ := ih
    obtain ⟨f0, f1, c0, c1, p0, p1, s0, s1, s2, s3, data, h1, -, -, -, -, -, -, -, gs', hs', hd⟩ := parse_iff.1 opened
    have : gs' = gs := by
      rw [h1] at hg
      exact splits_unique hs' hg
    subst this
    have hl := decoded_length hd
    have hj : j < p.events.length := by rw [hl]; exact (List.getElem?_eq_some_iff.1 hgx).1
    obtain ⟨fs1, y, fs2, e1, e2, e3⟩ := decoded_split hd (pre := p.events.take j) (e := p.events[j]) (post := p.events.drop (j + 1))
      (by rw [← List.drop_eq_getElem_cons hj, List.take_append_drop])
    have hy : y = x := by
      have hl1 := decoded_length e2
      rw [List.length_take, Nat.min_eq_left (by omega)] at hl1
      rw [e1, List.getElem?_append_right (by omega), ← hl1, Nat.sub_self] at hgx
      exact Option.some.inj hgx
    subst hy
    have hkind : p.events[j].kind = k := by
      have := e3.kind
      rw [hk] at this
      exact (Option.some.inj this).symm
    have hpay : p.events[j].payload = .ok y.2 := by
      unfold Event.payload
      rw [e3.len]
      exact kind_canon e3.value (by rw [hkind]; exact hc)
    obtain ⟨-, -, i3⟩ := edited_refs edited
    have hev : w.ev j = p.events[j] := by
      unfold World.ev
      rw [List.getD_eq_getElem?_getD, i3 j hj untouched, List.getElem?_eq_getElem hj]
      rfl
    obtain ⟨g0, g1, d0, d1, q0, q1, t0, t1, t2, t3, e4, -, -, -, e5, e6⟩ := saveBytes_ok saved
    refine ⟨w.project.events.map Event.fr, ?_, ?_⟩
    · rw [e4]
      exact splits_frames (edited_sizes edited (parsed_width hd (splits_ids hs')) inserted saved)
    · show (((w.refs 0).map w.ev).map Event.fr)[k']? = _
      rw [List.map_map, List.getElem?_map, place, Option.map_some, Function.comp_apply, hev]
      unfold Event.fr
      rw [pay_eq hpay, e3.id]

/-- **C149**, rounds, events the library does not know. -/
theorem C149_rounds_unknown {f g : Bytes} {i j : Nat} (h : Carried f i g j) {fs : List (Nat × Bytes)} (hs : Splits (f.drop 22) fs)
    {x : Nat × Bytes} (hx : fs[i]? = some x) (h1 : enumType enums x.1 = none) (h2 : 208 ≤ x.1) (h3 : x.1 ∉ [213, 231, 239, 241]) :
    ∃ gs, Splits (g.drop 22) gs ∧ gs[j]? = some x := by
  simp only [List.mem_cons, List.not_mem_nil, or_false, not_or] at h3
  exact C149_rounds h hs hx (fun before => kindOf_unknown h1 h2 h3.1 h3.2.1 h3.2.2.1 h3.2.2.2) trivial

open SurvivalDemo in
/-- The last event of the demo project is of an unknown kind: it is carried through the round in which a channel is renamed, an event
inserted and a channel removed. -/
example : ∃ g, Carried smallFile 4 g 4 ∧ g.length = 54 := by
  obtain ⟨L, hL⟩ := shrunk_edited
  refine ⟨_, .round .start small_opened hL (by decide) (by decide +kernel) ?_ shrunk_saved, rfl⟩
  have : shrunk.store.drop small.events.length = [⟨254, .unknown, .bytes [9], 1⟩] := by decide +kernel
  rw [this]
  intro e he
  simp only [List.mem_cons, List.not_mem_nil, or_false] at he
  subst he
  exact ⟨fun h => absurd h (by decide), fun _ h => absurd h (by decide), fun _ h => absurd h (by decide)⟩

end PyFLP
