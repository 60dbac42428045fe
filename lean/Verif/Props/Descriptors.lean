import Verif.DescriptorLemmas
import Verif.Demo
/-!
# Properties of model properties (C32 – C37)
-/

namespace PyFLP

open Spec Heap

/-! ### C32 -/

/-- The event list with another value of the `i`-th event. -/
theorem set_id {evs : List Event} {i : Nat} {e : Event} {v : Value} (h : evs[i]? = some e) :
    (evs.set i { e with value := v }).map Event.id = evs.map Event.id := by
  apply List.ext_getElem
  · simp
  · intro j j1 j2
    obtain ⟨h1, h2⟩ := List.getElem?_eq_some_iff.1 h
    simp only [List.getElem_map, List.getElem_set]
    by_cases e : i = j
    · subst e; rw [if_pos rfl, h2]
    · rw [if_neg e]

/-- C32. Assigning to an event property changes the value of exactly one event of the
project, the one the property stands for; the header values, the number, order, ids and
types of all events and the values of all other events stay the same; reading the
property gives the assigned value. -/
theorem C32_event_property {w w' : World} {L : Nat → Prop} (r : WReach w L) {t : Nat} (ht : L t) (ids : List Nat)
    (default : Option Value) (v : Value) (h : (eventProp ids default).write w t v = (w', .ok ())) :
    ∃ k e, Target (w.events t) ids k e ∧
      w'.events t = (w.events t).set k { e with value := v } ∧
      (∃ i, w.project.events[i]? = some e ∧
        w'.project = { w.project with events := w.project.events.set i { e with value := v } }) ∧
      (eventProp ids default).read w' t = .ok (some v) ∧ WReach w' L := by
  rcases getEvent_spec r ht ids with ⟨k, ref, h1, h2, h3, h4⟩ | ⟨h0, h1, h2⟩ | ⟨h0, h1, h2⟩ | ⟨h0, h1, h2⟩
  · obtain ⟨ref', g1, g2, g3, g4, ⟨i, i1, i2, i3⟩, g5⟩ :=
      write_spec r ht (eventProp ids default) rfl v (k := k) (e := w.ev ref) h4
    have hrr : ref' = ref := by rw [h2] at g2; exact (Option.some.inj g2).symm
    subst hrr
    rw [h] at g5
    injection g5 with g5 g6
    refine ⟨k, w.ev ref', h4, ?_, ⟨i, i2, ?_⟩, ?_, ?_⟩
    · rw [g5]; exact events_setEv _ (refs_nodup r ht) h2 h3
    · rw [g5]; exact i3 _
    · unfold Descr.read
      have : w'.getEvent t (eventProp ids default).ids = .ok (some ref') := by
        rw [getEvent_congr (w := w) (by rw [g5]; rfl)]; exact h1
      rw [this, g5]
      show Except.ok (some ((w.setEv ref' { w.ev ref' with value := v }).ev ref').value) = _
      rw [World.ev_setEv, if_pos ⟨rfl, h3⟩]
    · rw [g5]; exact .assign r _ _
  · unfold Descr.write at h
    rw [show (eventProp ids default).ids = ids from rfl, h1] at h
    cases h
  · unfold Descr.write at h
    rw [show (eventProp ids default).ids = ids from rfl, h2] at h
    cases h
  · unfold Descr.write at h
    rw [show (eventProp ids default).ids = ids from rfl, h2] at h
    cases h

/-- A property whose event exists can be assigned. -/
theorem C32_event_property_writable {w : World} {L : Nat → Prop} (r : WReach w L) {t : Nat} (ht : L t)
    (ids : List Nat) (default : Option Value) (v : Value) {k : Nat} {e : Event}
    (hT : Target (w.events t) ids k e) : ∃ w', (eventProp ids default).write w t v = (w', .ok ()) := by
  obtain ⟨ref, -, -, -, -, -, g5⟩ := write_spec r ht (eventProp ids default) rfl v hT
  exact ⟨_, g5⟩

section
variable [FloatEnv]

theorem eventsBytes_split {a b : List Event} {body : Bytes} (h : eventsBytes (a ++ b) = .ok body) :
    ∃ x y, eventsBytes a = .ok x ∧ eventsBytes b = .ok y ∧ body = x ++ y := by
  induction a generalizing body with
  | nil => exact ⟨[], body, rfl, h, rfl⟩
  | cons e a ih =>
    obtain ⟨x, y, h1, h2, rfl⟩ := seqBuild_inv (show seqBuild e.toBytes (eventsBytes (a ++ b)) = .ok body from h)
    obtain ⟨p, q, h3, h4, rfl⟩ := ih h2
    refine ⟨x ++ p, q, seqBuild_ok h1 h3, h4, by simp⟩

theorem save_split {p : Project} {file : Bytes} (h : saveBytes p = .ok file) :
    ∃ hdr body, channelLen p.events ≠ .error .noModelsFound ∧ hdr.length = 14 ∧
      packHeader p.format (channelStarts p.events) p.ppq = .ok hdr ∧ eventsBytes p.events = .ok body ∧
      file = hdr ++ magicDt ++ leBytes 4 body.length ++ body := by
  unfold saveBytes at h
  split at h
  · cases h
  · next n hn =>
    split at h
    · cases h
    · next hdr hh =>
      split at h
      · cases h
      · next body hb =>
        rw [channelLen_eq] at hn
        have hn' : n = channelStarts p.events := by
          split at hn
          · cases hn
          · cases hn; rfl
        subst hn'
        obtain ⟨f0, f1, c0, c1, p0, p1, hhh, -⟩ := packHeader_ok hh
        unfold assemble at h
        split at h
        · injection h with h
          exact ⟨hdr, body, by rw [channelLen_eq, hn]; simp, by rw [hhh]; rfl, hh, hb, h.symm⟩
        · cases h

/-- C32, for the saved file: header (up to the data size) and all other events of the
file are the same bytes. -/
theorem C32_saved_file {w w' : World} {L : Nat → Prop} (r : WReach w L) {t : Nat} (ht : L t) (ids : List Nat)
    (default : Option Value) (v : Value) (h : (eventProp ids default).write w t v = (w', .ok ()))
    {before after : Bytes} (hb : saveBytes w.project = .ok before) (ha : saveBytes w'.project = .ok after) :
    ∃ k e pre x y post, Target (w.events t) ids k e ∧ e.toBytes = .ok x ∧
      Event.toBytes { e with value := v } = .ok y ∧ before.take 18 = after.take 18 ∧
      before.drop 22 = pre ++ x ++ post ∧ after.drop 22 = pre ++ y ++ post := by
  obtain ⟨k, e, hT, _, ⟨i, hi, hp⟩, _, _⟩ := C32_event_property r ht ids default v h
  obtain ⟨i1, i2⟩ := List.getElem?_eq_some_iff.1 hi
  obtain ⟨hdr, body, _, l1, p1, b1, rfl⟩ := save_split hb
  rw [hp] at ha
  obtain ⟨hdr', body', _, l1', p1', b1', rfl⟩ := save_split ha
  have hcs : channelStarts (w.project.events.set i { e with value := v }) = channelStarts w.project.events := by
    have key : ∀ l : List Event, channelStarts l = ((l.map Event.id).filter fun j => decide (j = 64)).length := by
      intro l
      unfold channelStarts
      rw [List.filter_map, List.length_map]
      rfl
    rw [key, key, set_id hi]
  dsimp only at p1' b1'
  rw [hcs, p1] at p1'
  injection p1' with p1'
  subst p1'
  have hs : w.project.events = w.project.events.take i ++ e :: w.project.events.drop (i + 1) := by
    rw [← i2]; simp
  have hs' : w.project.events.set i { e with value := v } =
      w.project.events.take i ++ { e with value := v } :: w.project.events.drop (i + 1) := by
    rw [List.set_eq_take_append_cons_drop, if_pos i1]
  rw [hs] at b1
  rw [hs'] at b1'
  obtain ⟨a1, a2, h1, h2, rfl⟩ := eventsBytes_split b1
  obtain ⟨a1', a2', h1', h2', rfl⟩ := eventsBytes_split b1'
  rw [h1] at h1'; injection h1' with h1'; subst h1'
  obtain ⟨x, z, g1, g2, rfl⟩ := seqBuild_inv (show seqBuild _ _ = .ok _ from h2)
  obtain ⟨y, z', g1', g2', rfl⟩ := seqBuild_inv (show seqBuild _ _ = .ok _ from h2')
  rw [g2] at g2'; injection g2' with g2'; subst g2'
  have drop22 : ∀ body : Bytes, (hdr ++ magicDt ++ leBytes 4 body.length ++ body).drop 22 = body := by
    intro body
    have : (hdr ++ magicDt ++ leBytes 4 body.length).length = 22 := by
      simp [l1, leBytes_length, magicDt]
    exact List.drop_left' this
  have take18 : ∀ body : Bytes, (hdr ++ magicDt ++ leBytes 4 body.length ++ body).take 18 = hdr ++ magicDt := by
    intro body
    rw [List.append_assoc]
    exact List.take_left' (by simp [l1, magicDt])
  refine ⟨k, e, a1, x, y, z, hT, g1, g1', ?_, ?_, ?_⟩
  · rw [take18, take18]
  · rw [drop22]; simp
  · rw [drop22]; simp

end

namespace Demo

/-- The demo project, parsed. -/
def world : World := World.ofProject project

theorem world_reach : WReach world (· = 0) := .parsed _

/-- Name of the channel (`channel.py:1222`). -/
def name : Descr Value := eventProp [203, 192]

/-- The state after renaming. -/
def renamed : World := (name.write world 0 (.str (PStr.lit "Sub"))).1

end Demo

open Demo in
example : WReach world (· = 0) ∧ name.write world 0 (.str (PStr.lit "Sub")) = (renamed, .ok ()) ∧
    renamed.project.events[6]? = some ⟨203, .unicode, .str (PStr.lit "Sub"), 10⟩ ∧
    renamed.project.events.take 6 = world.project.events.take 6 :=
  ⟨world_reach, pair_eq (by decide +kernel), by decide +kernel, by decide +kernel⟩

/-! ### C33 -/

/-- C33, for properties with event ids: if the model has none of the events, reading gives
the default and assigning raises `PropertyCannotBeSet` and changes nothing. -/
theorem C33_absent_partial {α : Type} {w : World} {L : Nat → Prop} (r : WReach w L) {t : Nat} (ht : L t) (d : Descr α)
    (hids : d.ids ≠ []) (none : ∀ e ∈ w.events t, e.id ∉ d.ids) :
    d.read w t = .ok d.default ∧
    ∀ v, d.write w t v = (w, .error .propertyCannotBeSet) := by
  have hg : w.getEvent t d.ids = .ok Option.none := by
    rcases getEvent_spec r ht d.ids with ⟨k, ref, h1, h2, h3, h4⟩ | ⟨_, h1, _⟩ | ⟨h0, _⟩ | ⟨h0, _⟩
    · rcases h4 with ⟨h0, _⟩ | ⟨a, b, p, q, g1, g2, g3, g4, g5⟩
      · exact absurd h0 hids
      · exact absurd (by rw [g1]; simp) (none (w.ev ref) (by rw [g3]; simp))
    · exact h1
    · exact absurd h0 hids
    · exact absurd h0 hids
  unfold Descr.read Descr.write
  rw [hg]
  refine ⟨rfl, fun v => ?_⟩
  dsimp only
  split <;> rfl

/-- C33: read-only properties refuse every assignment. -/
theorem C33_readonly {α : Type} (w : World) (t : Nat) (d : Descr α) (h : d.readonly = true) (v : α) :
    d.write w t v = (w, .error .propertyCannotBeSet) := by
  unfold Descr.write
  rw [if_pos h]

open Demo in
example : WReach world (· = 0) ∧ (eventProp [160] (some (.lv (.int 7)))).ids ≠ [] ∧
    (∀ e ∈ world.events 0, e.id ∉ (eventProp [160] (some (.lv (.int 7)))).ids) ∧
    (eventProp [5] none true).readonly = true :=
  ⟨world_reach, by decide, by decide +kernel, rfl⟩

/-- C33 is false for properties without event ids (`Polyphony.max`, `channel.py:974`, is
one): on a model without the event, reading and writing raise `IndexError`. -/
theorem C33_idless_refuted {w : World} {L : Nat → Prop} (r : WReach w L) {t : Nat} (ht : L t)
    (key : String) (default : Option LV) (hempty : w.events t = []) :
    (structProp [] key default).read w t = .error .indexError ∧
    ∀ v, (structProp [] key default).write w t v = (w, .error .indexError) := by
  have hg : w.getEvent t (structProp [] key default).ids = .error .indexError := by
    rcases getEvent_spec r ht [] with ⟨k, ref, h1, h2, h3, h4⟩ | ⟨h0, _⟩ | ⟨_, _, h1⟩ | ⟨_, h1, _⟩
    · rcases h4 with ⟨_, h5, _⟩ | ⟨a, b, p, q, g1, _⟩
      · rw [hempty] at h5; cases h5
      · simp at g1
    · exact absurd rfl h0
    · exact h1
    · rw [hempty] at h1; simp at h1
  unfold Descr.read Descr.write
  rw [hg]
  exact ⟨rfl, fun _ => rfl⟩

namespace Demo

/-- `channel.polyphony` (`channel.py:1400`) of a channel without that event. -/
def polyphony : World × Nat := nestedProp [221] world 0

theorem polyphony_reach : WReach polyphony.1 (fun u => u = 0 ∨ u ∈ [polyphony.2]) :=
  .view world_reach rfl (by decide +kernel) (.subtree fun a => decide (world.heap.idOf a ∈ [221]))

example : (polyphony.1).events polyphony.2 = [] := by decide +kernel

end Demo

/-! ### C34 and C35 -/

namespace Spec

/-- The flag word of an event is `n`: its value, or the field `key` of a struct event. -/
def FlagWord (e : Event) (key : String) (n : Nat) : Prop :=
  (e.kind.isStruct = false ∧ e.value = .lv (.int n)) ∨
  (e.kind.isStruct = true ∧ ∃ r, e.value = .fields r ∧ Rec.lookup r key = some (some (.int n)))

end Spec

theorem lookup_update {r : Rec} {key : String} {old : Option LV} (h : Rec.lookup r key = some old) (x : Option LV) :
    Rec.lookup (Rec.update r key x) key = some x ∧ (Rec.update r key x).map Prod.fst = r.map Prod.fst ∧
    ∀ key', key' ≠ key → Rec.lookup (Rec.update r key x) key' = Rec.lookup r key' := by
  induction r with
  | nil => cases h
  | cons p r ih =>
    obtain ⟨n, v⟩ := p
    unfold Rec.update
    by_cases e : n = key
    · rw [if_pos e]
      refine ⟨by unfold Rec.lookup; rw [if_pos e], rfl, fun key' hk => ?_⟩
      unfold Rec.lookup
      rw [if_neg (by rw [e]; exact Ne.symm hk), if_neg (by rw [e]; exact Ne.symm hk)]
    · rw [if_neg e]
      unfold Rec.lookup at h
      rw [if_neg e] at h
      obtain ⟨i1, i2, i3⟩ := ih h
      refine ⟨by unfold Rec.lookup; rw [if_neg e]; exact i1, by simp [i2], fun key' hk => ?_⟩
      unfold Rec.lookup
      by_cases e' : n = key'
      · rw [if_pos e', if_pos e']
      · rw [if_neg e', if_neg e']; exact i3 key' hk

/-- What a flag property does to the event. -/
theorem flag_set {ver : PyVer} {members flag : Nat} {ids : List Nat} {key : String} {inverted : Bool}
    {default : Option Bool} {e : Event} {n : Nat} (hw : FlagWord e key n) (b : Bool) :
    ∃ (e' : Event) (m : Nat), (flagProp ver members flag ids key inverted default).set e b = .ok e' ∧
      ((m : Int) = if b != inverted then flagOr n flag else flagAndNot ver members n flag) ∧ FlagWord e' key m ∧
      (∃ v, e' = { e with value := v }) ∧
      (flagProp ver members flag ids key inverted default).get e' = .ok (some (flagIn m flag != inverted)) := by
  have hm : ∃ m : Nat, (m : Int) = if b != inverted then flagOr n flag else flagAndNot ver members n flag := by
    by_cases hb : (b != inverted) = true
    · exact ⟨_, by rw [if_pos hb]; rfl⟩
    · rw [if_neg hb]
      cases ver
      · exact ⟨_, rfl⟩
      · exact ⟨_, rfl⟩
  obtain ⟨m, hm⟩ := hm
  rcases hw with ⟨h1, h2⟩ | ⟨h1, r, h2, h3⟩
  · refine ⟨{ e with value := .lv (.int m) }, m, ?_, hm, .inl ⟨h1, rfl⟩, ⟨_, rfl⟩, ?_⟩
    · simp only [flagProp, h1, h2, Bool.false_eq_true, if_false, flagWrite, flagWord, Except.map, ← hm]
    · simp only [flagProp, h1, Bool.false_eq_true, if_false]
      rfl
  · obtain ⟨u1, u2, u3⟩ := lookup_update h3 (some (.int m))
    refine ⟨{ e with value := .fields (Rec.update r key (some (.int m))) }, m, ?_, hm, .inr ⟨h1, _, rfl, u1⟩,
      ⟨_, rfl⟩, ?_⟩
    · simp only [flagProp, h1, if_true, structGet, structSet, h2, h3, flagWrite, flagWord, Except.map, ← hm]
    · simp only [flagProp, h1, if_true, structGet, u1]
      rfl

theorem le_allBits {members flag : Nat} (h : flag &&& members = flag) :
    ∃ k, allBits members = 2 ^ k - 1 ∧ flag < 2 ^ k ∧ members < 2 ^ k := by
  refine ⟨if members = 0 then 0 else Nat.log2 members + 1, rfl, ?_⟩
  have hlt : members < 2 ^ (if members = 0 then 0 else Nat.log2 members + 1) := by
    split
    · next e => subst e; decide
    · exact Nat.lt_log2_self
  refine ⟨?_, hlt⟩
  have : flag ≤ members := by rw [← h]; exact Nat.and_le_right
  omega

/-- The bits of the new word. -/
theorem flag_bits {ver : PyVer} {members flag n m : Nat} (hf : flag ≠ 0) (hsub : flag &&& members = flag) {on : Bool}
    (hm : (m : Int) = if on then flagOr n flag else flagAndNot ver members n flag) :
    (∀ i, flag.testBit i = true → m.testBit i = on) ∧
    (on = true ∨ ver = .upTo310 → ∀ i, flag.testBit i = false → m.testBit i = n.testBit i) ∧
    (∀ i, i < Nat.log2 members + 1 → flag.testBit i = false → m.testBit i = n.testBit i) := by
  obtain ⟨k, k1, k2, k3⟩ := le_allBits hsub
  cases on with
  | true =>
    rw [if_pos rfl] at hm
    have hm' : m = n ||| flag := by
      have : (m : Int) = ((n ||| flag : Nat) : Int) := hm
      exact Int.ofNat.inj this
    subst hm'
    refine ⟨fun i hi => by simp [hi], fun _ i hi => by simp [hi], fun i _ hi => by simp [hi]⟩
  | false =>
    rw [if_neg (by simp)] at hm
    cases ver with
    | upTo310 =>
      have hm' : m = n ^^^ (n &&& flag) := by
        have : (m : Int) = ((n ^^^ (n &&& flag) : Nat) : Int) := hm
        exact Int.ofNat.inj this
      subst hm'
      refine ⟨fun i hi => by simp [hi], fun _ i hi => by simp [hi], fun i _ hi => by simp [hi]⟩
    | from311 =>
      have hm' : m = n &&& (allBits members - flag) := by
        have : (m : Int) = ((n &&& (allBits members - flag) : Nat) : Int) := hm
        exact Int.ofNat.inj this
      subst hm'
      have hc : ∀ i, (allBits members - flag).testBit i = (decide (i < k) && !flag.testBit i) := by
        intro i
        have : allBits members - flag = 2 ^ k - (flag + 1) := by rw [k1]; omega
        rw [this, Nat.testBit_two_pow_sub_succ k2]
      refine ⟨fun i hi => by simp [hc, hi], (fun h => by rcases h with h | h <;> cases h), fun i hlt hi => ?_⟩
      have hik : i < k := by
        have hne : members ≠ 0 := by
          rintro rfl
          rw [Nat.and_zero] at hsub
          exact hf hsub.symm
        have h2 : 2 ^ (Nat.log2 members) ≤ members := Nat.log2_self_le hne
        have : Nat.log2 members < k := by
          apply (Nat.pow_lt_pow_iff_right (a := 2) (by omega)).1
          omega
        omega
      simp [hc, hi, hik]

/-- The number of the flag word after assigning `b`, and the event that has it. -/
theorem flag_write {w : World} {L : Nat → Prop} (r : WReach w L) {t : Nat} (ht : L t) (ver : PyVer)
    (members flag : Nat) (ids : List Nat) (key : String) (inverted : Bool) (default : Option Bool) {k : Nat}
    {e : Event} {n : Nat} (hT : Target (w.events t) ids k e) (hw : FlagWord e key n) (b : Bool) :
    ∃ w' e' m, (flagProp ver members flag ids key inverted default).write w t b = (w', .ok ()) ∧
      (∃ v, e' = { e with value := v }) ∧ w'.events t = (w.events t).set k e' ∧
      (∃ i, w.project.events[i]? = some e ∧
        w'.project = { w.project with events := w.project.events.set i e' }) ∧
      FlagWord e' key m ∧
      ((m : Int) = if b != inverted then flagOr n flag else flagAndNot ver members n flag) ∧
      (flagProp ver members flag ids key inverted default).read w' t = .ok (some (flagIn m flag != inverted)) := by
  obtain ⟨e', m, s1, s2, s3, s4, s5⟩ := flag_set (ver := ver) (members := members) (flag := flag) (ids := ids)
    (inverted := inverted) (default := default) hw b
  obtain ⟨ref, g1, g2, g3, g4, ⟨i, i1, i2, i3⟩, g5⟩ :=
    write_spec r ht (flagProp ver members flag ids key inverted default) rfl b hT
  rw [s1] at g5
  refine ⟨w.setEv ref e', e', m, g5, s4, events_setEv _ (refs_nodup r ht) g2 g3, ⟨i, i2, i3 e'⟩, s3, s2, ?_⟩
  unfold Descr.read
  rw [getEvent_congr (w := w) (w' := w.setEv ref _) rfl, g4]
  dsimp only
  rw [World.ev_setEv, if_pos ⟨rfl, g3⟩]
  exact s5

/-- C34. Whatever the flag word is, assigning `b` to a flag property of an existing event
succeeds, and reading gives `b`. -/
theorem C34_flag_readback {w : World} {L : Nat → Prop} (r : WReach w L) {t : Nat} (ht : L t) (ver : PyVer)
    (members flag : Nat) (ids : List Nat) (key : String) (inverted : Bool) (default : Option Bool) {k : Nat}
    {e : Event} {n : Nat} (hT : Target (w.events t) ids k e) (hw : FlagWord e key n) (hf : flag ≠ 0)
    (member : flag &&& members = flag) (b : Bool) :
    ∃ w', (flagProp ver members flag ids key inverted default).write w t b = (w', .ok ()) ∧
      (flagProp ver members flag ids key inverted default).read w' t = .ok (some b) := by
  obtain ⟨w', e', m, h1, _, _, _, _, h2, h3⟩ := flag_write r ht ver members flag ids key inverted default hT hw b
  refine ⟨w', h1, ?_⟩
  rw [h3]
  obtain ⟨b1, _⟩ := flag_bits hf member h2
  have hin : flagIn m flag = (b != inverted) := by
    unfold flagIn
    rw [Int.toNat_natCast]
    cases hon : b != inverted with
    | true =>
      rw [beq_iff_eq]
      apply Nat.eq_of_testBit_eq
      intro i
      rw [Nat.testBit_and]
      cases hi : flag.testBit i with
      | true => rw [b1 i hi, hon]; rfl
      | false => simp
    | false =>
      rw [beq_eq_false_iff_ne]
      intro hc
      apply hf
      rw [← hc]
      apply Nat.eq_of_testBit_eq
      intro i
      rw [Nat.testBit_and, Nat.zero_testBit]
      cases hi : flag.testBit i with
      | true => rw [b1 i hi, hon]; rfl
      | false => simp
  rw [hin]
  cases b <;> cases inverted <;> rfl

/-- C35 where it holds: assigning a flag property changes no other bit of the flag word if
the flag is being set, or on Python up to 3.10; on later versions, clearing a flag keeps
all other bits up to the highest bit of a member.  Missing: the higher bits, which
are lost on Python 3.11 and later (`C35_flag_frame_refuted`). -/
theorem C35_flag_frame_partial {w : World} {L : Nat → Prop} (r : WReach w L) {t : Nat} (ht : L t) (ver : PyVer)
    (members flag : Nat) (ids : List Nat) (key : String) (inverted : Bool) (default : Option Bool) {k : Nat}
    {e : Event} {n : Nat} (hT : Target (w.events t) ids k e) (hw : FlagWord e key n) (hf : flag ≠ 0)
    (member : flag &&& members = flag) (b : Bool) :
    ∃ w' e' m, (flagProp ver members flag ids key inverted default).write w t b = (w', .ok ()) ∧
      w'.events t = (w.events t).set k e' ∧ FlagWord e' key m ∧
      (∃ i, w.project.events[i]? = some e ∧
        w'.project = { w.project with events := w.project.events.set i e' }) ∧
      ((b != inverted) = true ∨ ver = .upTo310 → ∀ i, flag.testBit i = false → m.testBit i = n.testBit i) ∧
      (∀ i, i < Nat.log2 members + 1 → flag.testBit i = false → m.testBit i = n.testBit i) := by
  obtain ⟨w', e', m, h1, _, h2, h3, h4, h5, _⟩ :=
    flag_write r ht ver members flag ids key inverted default hT hw b
  obtain ⟨_, b2, b3⟩ := flag_bits hf member h5
  exact ⟨w', e', m, h1, h2, h4, h3, b2, b3⟩

namespace Demo

/-- A channel with effect flags (`ChannelID.FXFlags`) that have an unknown bit 15. -/
def fxProject : Project := ⟨0, 1, 96, [⟨64, .u16, .lv (.int 0), 2⟩, ⟨70, .u16, .lv (.int 0x8004), 2⟩]⟩

/-- `FX.clip` (`channel.py:416-420, 677`): `_FXFlags` has the members 1, 2, 4 and 256. -/
def clip (ver : PyVer) : Descr Bool := flagProp ver 263 4 [70]

example : WReach (World.ofProject fxProject) (· = 0) ∧
    Target ((World.ofProject fxProject).events 0) [70] 1 ⟨70, .u16, .lv (.int 0x8004), 2⟩ ∧
    FlagWord ⟨70, .u16, .lv (.int 0x8004), 2⟩ "flags" 0x8004 ∧ 4 ≠ 0 ∧ 4 &&& 263 = 4 :=
  ⟨.parsed _, .inr ⟨[], [], [⟨64, .u16, .lv (.int 0), 2⟩], [], rfl, by simp, by decide +kernel, by simp, rfl⟩,
    .inl ⟨rfl, rfl⟩, by decide, by decide⟩

end Demo

open Demo in
/-- C35 is false on Python 3.11 and later: clearing `FX.clip` also clears the unknown bit
15 of the flag word. -/
theorem C35_flag_frame_refuted :
    ∃ w', (clip .from311).write (World.ofProject fxProject) 0 false = (w', .ok ()) ∧
      (World.ofProject fxProject).project.events[1]? = some ⟨70, .u16, .lv (.int 0x8004), 2⟩ ∧
      w'.project.events[1]? = some ⟨70, .u16, .lv (.int 0), 2⟩ :=
  ⟨((clip .from311).write (World.ofProject fxProject) 0 false).1, pair_eq (by decide +kernel),
    by decide +kernel, by decide +kernel⟩

/-! ### C36 -/

/-- C36. Assigning to a struct property whose field is present replaces exactly that field
of the one event; reading gives the value.  An absent field refuses with
`PropertyCannotBeSet`, an unknown one with `KeyError`; nothing changes then. -/
theorem C36_struct_property {w : World} {L : Nat → Prop} (r : WReach w L) {t : Nat} (ht : L t) (ids : List Nat)
    (key : String) (default : Option LV) {k : Nat} {e : Event} {rec : Rec}
    (hT : Target (w.events t) ids k e) (hv : e.value = .fields rec) (v : LV) :
    (∀ old, Rec.lookup rec key = some (some old) →
      ∃ w' rec', (structProp ids key default).write w t v = (w', .ok ()) ∧
        rec'.map Prod.fst = rec.map Prod.fst ∧ Rec.lookup rec' key = some (some v) ∧
        (∀ key', key' ≠ key → Rec.lookup rec' key' = Rec.lookup rec key') ∧
        w'.events t = (w.events t).set k { e with value := .fields rec' } ∧
        (∃ i, w.project.events[i]? = some e ∧
          w'.project = { w.project with events := w.project.events.set i { e with value := .fields rec' } }) ∧
        (structProp ids key default).read w' t = .ok (some v)) ∧
    (Rec.lookup rec key = some none →
      (structProp ids key default).write w t v = (w, .error .propertyCannotBeSet)) ∧
    (Rec.lookup rec key = none → (structProp ids key default).write w t v = (w, .error .keyError)) := by
  obtain ⟨ref, g1, g2, g3, g4, ⟨i, i1, i2, i3⟩, g5⟩ :=
    write_spec r ht (structProp ids key default) rfl v hT
  refine ⟨fun old ho => ?_, fun hn => ?_, fun hn => ?_⟩
  · obtain ⟨u1, u2, u3⟩ := lookup_update ho (some v)
    have hs : (structProp ids key default).set e v = .ok { e with value := .fields (Rec.update rec key (some v)) } := by
      simp only [structProp, structSet, hv, ho]
    rw [hs] at g5
    refine ⟨_, Rec.update rec key (some v), g5, u2, u1, u3, events_setEv _ (refs_nodup r ht) g2 g3,
      ⟨i, i2, i3 _⟩, ?_⟩
    unfold Descr.read
    rw [getEvent_congr (w := w) (w' := w.setEv ref _) rfl, g4]
    dsimp only
    rw [World.ev_setEv, if_pos ⟨rfl, g3⟩]
    simp only [structProp, structGet, u1]
  · have hs : (structProp ids key default).set e v = .error .propertyCannotBeSet := by
      simp only [structProp, structSet, hv, hn]
    rw [hs] at g5
    exact g5
  · have hs : (structProp ids key default).set e v = .error .keyError := by
      simp only [structProp, structSet, hv, hn]
    rw [hs] at g5
    exact g5

open Demo in
/-- `BooBass.mid`. -/
example : WReach world (· = 0) ∧ ∃ e rec, Target (world.events 0) [213] 4 e ∧ e.value = .fields rec ∧
    Rec.lookup rec "mid" = some (some (.int 65535)) :=
  ⟨world_reach, ⟨213, .struct .booBass, .fields [("_u1", some (.bytes [1, 0, 0, 0])), ("bass", some (.int 7)),
    ("mid", some (.int 65535)), ("high", some (.int 0))], 16⟩, _,
    .inr ⟨[], [], world.project.events.take 4, world.project.events.drop 5, rfl, by simp, by decide +kernel,
      by decide +kernel, by decide +kernel⟩, rfl, by decide⟩

/-! ### C37 -/

section
variable [FloatEnv]

theorem structBuild_append {cx : Ctx} {fs gs : Fields} {r s : Rec} (h : fs.length = r.length) :
    structBuild cx (fs ++ gs) (r ++ s) = seqBuild (structBuild cx fs r) (structBuild cx gs s) := by
  induction fs generalizing r with
  | nil =>
    cases r with
    | nil =>
      show structBuild cx gs s = _
      cases hb : structBuild cx gs s with
      | error e => rfl
      | ok b => rfl
    | cons => cases h
  | cons f fs ih =>
    cases r with
    | nil => cases h
    | cons p r =>
      obtain ⟨n, f⟩ := f
      obtain ⟨n', v⟩ := p
      have hi := ih (r := r) (by simpa using h)
      simp only [List.cons_append, structBuild]
      by_cases e : n = n'
      · rw [if_pos e, if_pos e]
        cases hb : fldBuild cx f v with
        | error x => rfl
        | ok b =>
          dsimp only
          rw [hi]
          cases structBuild cx fs r with
          | error x => rfl
          | ok c =>
            cases structBuild cx gs s with
            | error x => rfl
            | ok d => simp [seqBuild]
      · rw [if_neg e, if_neg e]; rfl

omit [FloatEnv] in
theorem intBuild_misfit {w : Nat} {s : Bool} {v : Int} (h : intFits w s v = false) :
    intBuild w s v = .error .formatFieldError := by
  unfold intBuild; rw [if_neg (by rw [h]; simp)]

/-- C37 is false for the optional fields, which are most of the fields: a number that does
not fit is written exactly like a missing field, so the bytes of all later fields
move up. -/
theorem C37_optional_dropped_refuted {cx : Ctx} {pre post : Fields} {rpre rpost : Rec} {key : String} {w : Nat}
    {sg : Bool} {v : Int} (hl : pre.length = rpre.length) (misfit : intFits w sg v = false) :
    structBuild cx (pre ++ (key, .opt (.int w sg)) :: post) (rpre ++ (key, some (.int v)) :: rpost) =
      structBuild cx (pre ++ (key, .opt (.int w sg)) :: post) (rpre ++ (key, none) :: rpost) := by
  rw [structBuild_append hl, structBuild_append hl]
  congr 1
  simp only [structBuild, if_true]
  have h1 : fldBuild cx (.opt (.int w sg)) (some (.int v)) = .ok [] := by
    simp only [fldBuild, leafBuild, intBuild_misfit misfit]
  have h2 : fldBuild cx (.opt (.int w sg)) none = .ok [] := rfl
  rw [h1, h2]

namespace Demo

/-- Fruity delay of a channel (`DelayEvent`, `channel.py:122-129`). -/
def delay : Event := ⟨209, .struct .delay, .fields [("feedback", some (.int 1)), ("pan", some (.int 2)),
  ("pitch_shift", some (.int 3)), ("echoes", some (.int 4)), ("time", some (.int 5))], 20⟩

end Demo

open Demo in
/-- A witness: setting the feedback of a delay to `2 ** 32` is accepted, the event is
written without an error, and reading it again shows every field with the value of the
next one and the last field missing. -/
theorem C37_witness_refuted :
    ∃ e bs, structSet delay "feedback" (some (.int (2 ^ 32))) = .ok e ∧ e.payload = .ok bs ∧
      Kind.parse e.kind bs = .ok (.fields [("feedback", some (.int 2)), ("pan", some (.int 3)),
        ("pitch_shift", some (.int 4)), ("echoes", some (.int 5)), ("time", none)]) :=
  ⟨_, [2, 0, 0, 0, 3, 0, 0, 0, 4, 0, 0, 0, 5, 0, 0, 0], rfl, rfl, rfl⟩

theorem required_rejected {e : Event} {s : SName} {r r' : Rec} {key : String} {w : Nat} {sg : Bool}
    {v : Int} (hk : e.kind = .struct s) {pre post : Fields}
    (hf : s.fields = pre ++ (key, .req (.int w sg)) :: post)
    (hr : r' = Rec.update r key (some (.int v))) (hn : r.map Prod.fst = s.fields.map Prod.fst)
    (fresh : key ∉ pre.map Prod.fst) (misfit : intFits w sg v = false) :
    (∃ x, Event.payload { e with value := .fields r' } = .error x) ∧
    (∃ x, Event.toBytes { e with value := .fields r' } = .error x) ∧
    ∀ p : Project, { e with value := .fields r' } ∈ p.events → ∃ x, saveBytes p = .error x := by
  have hpay : ∃ x, Event.payload { e with value := .fields r' } = .error x := by
    show ∃ x, Kind.build e.kind e.len (.fields r') = .error x
    rw [hk]
    show ∃ x, structBuild ⟨e.len⟩ s.fields r' = .error x
    -- split the record like the fields
    have hsplit : ∃ rpre old rpost, r' = rpre ++ (key, some (.int v)) :: rpost ∧ rpre.length = pre.length ∧
        r = rpre ++ (key, old) :: rpost := by
      rw [hf] at hn
      subst hr
      clear hf
      induction pre generalizing r with
      | nil =>
        cases r with
        | nil => simp at hn
        | cons p r =>
          obtain ⟨n, o⟩ := p
          simp only [List.nil_append, List.map_cons, List.cons.injEq] at hn
          obtain ⟨rfl, _⟩ := hn
          exact ⟨[], o, r, by simp [Rec.update], rfl, rfl⟩
      | cons f pre ih =>
        cases r with
        | nil => simp at hn
        | cons p r =>
          obtain ⟨n, o⟩ := p
          simp only [List.cons_append, List.map_cons, List.cons.injEq] at hn
          simp only [List.map_cons, List.mem_cons, not_or] at fresh
          obtain ⟨rpre, old, rpost, h1, h2, h3⟩ := ih hn.2 fresh.2
          refine ⟨(n, o) :: rpre, old, rpost, ?_, by simp [h2], by rw [h3]; rfl⟩
          unfold Rec.update
          rw [if_neg (by rw [hn.1]; exact fun h => fresh.1 h.symm), h1]
          rfl
    obtain ⟨rpre, old, rpost, h1, h2, _⟩ := hsplit
    rw [hf, h1, structBuild_append h2.symm]
    have hmid : structBuild ⟨e.len⟩ ((key, .req (.int w sg)) :: post) ((key, some (.int v)) :: rpost) =
        .error .formatFieldError := by
      simp only [structBuild, if_true, fldBuild, leafBuild, intBuild_misfit misfit]
    rw [hmid]
    cases structBuild ⟨e.len⟩ pre rpre with
    | error x => exact ⟨x, rfl⟩
    | ok b => exact ⟨_, rfl⟩
  have hto : ∃ x, Event.toBytes { e with value := .fields r' } = .error x := by
    obtain ⟨x, hx⟩ := hpay
    unfold Event.toBytes
    split
    · exact ⟨_, rfl⟩
    · rw [hx]; exact ⟨x, rfl⟩
  refine ⟨hpay, hto, fun p hp => ?_⟩
  cases hs : saveBytes p with
  | error x => exact ⟨x, rfl⟩
  | ok file =>
    obtain ⟨_, body, _, _, _, hb, _⟩ := save_split hs
    obtain ⟨h1, _⟩ := eventsBytes_ok hb
    obtain ⟨x, hx⟩ := hpay
    have := (h1 _ hp).2
    rw [hx] at this
    cases this

/-- C37 for required integer fields (all native plugin parameters, notes, playlist items):
a number that does not fit makes serialising the event fail. -/
theorem C37_required_rejected_partial {e e' : Event} {s : SName} {r : Rec} {key : String} {w : Nat} {sg : Bool}
    {v : Int} {pre post : Fields} (hk : e.kind = .struct s) (hv : e.value = .fields r)
    (hn : r.map Prod.fst = s.fields.map Prod.fst) (hf : s.fields = pre ++ (key, .req (.int w sg)) :: post)
    (fresh : key ∉ pre.map Prod.fst) (hset : (structProp [e.id] key).set e (.int v) = .ok e')
    (misfit : intFits w sg v = false) :
    (∃ x, e'.toBytes = .error x) ∧ ∀ p : Project, e' ∈ p.events → ∃ x, saveBytes p = .error x := by
  have he : e' = { e with value := .fields (Rec.update r key (some (.int v))) } := by
    simp only [structProp, structSet, hv] at hset
    split at hset
    · cases hset
    · cases hset
    · cases hset; rfl
  rw [he]
  exact (required_rejected hk hf rfl hn fresh misfit).2

/-- `BooBass.bass = 2 ** 32`. -/
example : SName.booBass.fields = [("_u1", .ifLen 16 (.rawC 4))] ++ ("bass", .req u32) ::
      [("mid", .req u32), ("high", .req u32)] ∧
    [("_u1", some (LV.bytes [1, 0, 0, 0])), ("bass", some (.int 7)), ("mid", some (.int 65535)),
      ("high", some (.int 0))].map Prod.fst = SName.booBass.fields.map Prod.fst ∧
    "bass" ∉ ([("_u1", Fld.ifLen 16 (.rawC 4))] : Fields).map Prod.fst ∧ intFits 4 false (2 ^ 32) = false :=
  ⟨rfl, rfl, by decide, by decide⟩

end

end PyFLP
