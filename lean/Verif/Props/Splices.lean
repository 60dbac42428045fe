import Verif.Props.Bytewise
/-!
# What one edit does to the saved file (C147)

An assignment of any value, a removal and an insertion each change the bytes of one event; around them only the size of the event data
and the number of channels in the header may change.
-/

namespace PyFLP

open Spec Heap

namespace Spec

/-- The file `after` is the file `before` with the bytes `new` in the place of the bytes `old`, which start at `place`; the header
(22 bytes) is the same but for the size of the data, which fits, and the number of channels. -/
structure Spliced (before after : Bytes) (place : Nat) (old new : Bytes) : Prop where
  /-- the events before and after stay as they are -/
  parts : ∃ front back, 22 + front.length = place ∧ before.drop 22 = front ++ old ++ back ∧ after.drop 22 = front ++ new ++ back
  header : 22 ≤ before.length ∧ 22 ≤ after.length
  /-- magic, size of the header and format -/
  start : after.take 10 = before.take 10
  /-- PPQ and magic -/
  middle : bytesAt after 12 6 = bytesAt before 12 6
  /-- the size of the event data -/
  size : littleEndian (bytesAt before 18 4) + 22 = before.length ∧ littleEndian (bytesAt after 18 4) + 22 = after.length

/-- The number of channels in the header of a file. -/
def channelsIn (file : Bytes) : Nat := littleEndian (bytesAt file 10 2)

/-- The bytes of the `i`-th event of the project start at this place of its file. -/
def EventStart [FloatEnv] (p : Project) (i start : Nat) : Prop :=
  ∃ raws : List Bytes, (p.events.take i).map Event.toBytes = raws.map .ok ∧ start = 22 + (raws.map List.length).sum

end Spec

variable [FloatEnv]

omit [FloatEnv] in
theorem channelStarts_append (a b : List Event) : channelStarts (a ++ b) = channelStarts a + channelStarts b := by
  unfold channelStarts
  rw [List.filter_append, List.length_append]

omit [FloatEnv] in
theorem word_pair {a b c d : UInt8} (h : word a b = word c d) : a = c ∧ b = d := by
  unfold word at h
  have h1 := a.toNat_lt
  have h2 := c.toNat_lt
  exact ⟨UInt8.toNat_inj.1 (by omega), UInt8.toNat_inj.1 (by omega)⟩

omit [FloatEnv] in
theorem sword_pair {a b c d : UInt8} (h : sword a b = sword c d) : a = c ∧ b = d := by
  apply word_pair
  have h1 := a.toNat_lt
  have h2 := b.toNat_lt
  have h3 := c.toNat_lt
  have h4 := d.toNat_lt
  have h5 : word a b < 65536 := by unfold word; omega
  have h6 : word c d < 65536 := by unfold word; omega
  unfold sword at h
  split at h <;> split at h <;> omega

/-- The header of a saved file. -/
theorem saved_parts {p : Project} {file : Bytes} (h : saveBytes p = .ok file) :
    ∃ f0 f1 c0 c1 p0 p1 s0 s1 s2 s3 body,
      file = [70, 76, 104, 100, 6, 0, 0, 0, f0, f1, c0, c1, p0, p1, 70, 76, 100, 116, s0, s1, s2, s3] ++ body ∧
      sword f0 f1 = p.format ∧ word c0 c1 = channelStarts p.events ∧ word p0 p1 = p.ppq ∧
      dword s0 s1 s2 s3 = body.length ∧ eventsBytes p.events = .ok body := by
  obtain ⟨hdr, body, -, k1, k2, k3, rfl⟩ := save_split h
  obtain ⟨⟨f0, f1, c0, c1, p0, p1, s0, s1, s2, s3, raws, e1, e2, e3, e4, e5, -⟩, -⟩ := C03_saved_header p _ h
  have hl : (hdr ++ magicDt ++ leBytes 4 body.length).length = 22 := by simp [k1, magicDt]
  have hb : body = raws.flatten := by
    have := congrArg (List.drop 22) e1
    rw [← hl, List.drop_left] at this
    rw [hl] at this
    exact this
  subst hb
  exact ⟨f0, f1, c0, c1, p0, p1, s0, s1, s2, s3, _, e1, e2, e3, e4, e5, k3⟩

/-- Two projects that differ in a part of their events. -/
theorem spliced {p q : Project} {before after : Bytes} (hp : saveBytes p = .ok before) (hq : saveBytes q = .ok after)
    (hf : q.format = p.format) (hppq : q.ppq = p.ppq) {a x y b : List Event} (hpe : p.events = a ++ x ++ b) (hqe : q.events = a ++ y ++ b) :
    ∃ (raws : List Bytes) (old new : Bytes), a.map Event.toBytes = raws.map .ok ∧ eventsBytes x = .ok old ∧ eventsBytes y = .ok new ∧
      Spliced before after (22 + (raws.map List.length).sum) old new ∧
      channelsIn before + channelStarts y = channelsIn after + channelStarts x := by
  obtain ⟨f0, f1, c0, c1, p0, p1, s0, s1, s2, s3, body, e1, e2, e3, e4, e5, e6⟩ := saved_parts hp
  obtain ⟨f0', f1', c0', c1', p0', p1', s0', s1', s2', s3', body', g1, g2, g3, g4, g5, g6⟩ := saved_parts hq
  rw [hpe] at e6 e3
  rw [hqe] at g6 g3
  obtain ⟨u, z, h1, h2, rfl⟩ := eventsBytes_split e6
  obtain ⟨fr, old, h3, h4, rfl⟩ := eventsBytes_split h1
  obtain ⟨u', z', i1, i2, rfl⟩ := eventsBytes_split g6
  obtain ⟨fr', new, i3, i4, rfl⟩ := eventsBytes_split i1
  rw [h2] at i2; cases i2
  rw [h3] at i3; cases i3
  have hraws : ∀ {l : List Event} {x : Bytes}, eventsBytes l = .ok x →
      ∃ raws : List Bytes, l.map Event.toBytes = raws.map .ok ∧ (raws.map List.length).sum = x.length := by
    intro l
    induction l with
    | nil => intro x hx; cases hx; exact ⟨[], rfl, rfl⟩
    | cons q l ih =>
      intro x hx
      obtain ⟨u, v, q1, q2, rfl⟩ := seqBuild_inv (show seqBuild q.toBytes (eventsBytes l) = .ok x from hx)
      obtain ⟨raws, r1, r2⟩ := ih q2
      exact ⟨u :: raws, by simp [q1, r1], by simp [r2]⟩
  obtain ⟨raws, r1, r2⟩ := hraws h3
  have hfmt : f0' = f0 ∧ f1' = f1 := by
    have : sword f0' f1' = sword f0 f1 := by rw [g2, e2, hf]
    exact sword_pair this
  have hq' : p0' = p0 ∧ p1' = p1 := by
    have : word p0' p1' = word p0 p1 := by rw [g4, e4, hppq]
    exact word_pair this
  obtain ⟨rfl, rfl⟩ := hfmt
  obtain ⟨rfl, rfl⟩ := hq'
  refine ⟨raws, old, new, r1, h4, i4, ⟨⟨fr, z, by rw [r2], by rw [e1]; rfl, by rw [g1]; rfl⟩, by rw [e1, g1]; simp, by rw [e1, g1]; rfl,
    by rw [e1, g1]; rfl, ?_, ?_⟩, ?_⟩
  · rw [e1]
    show littleEndian [s0, s1, s2, s3] + 22 = _
    simp only [littleEndian, List.length_append, List.length_cons, List.length_nil] at e5 ⊢
    simp only [dword] at e5
    omega
  · rw [g1]
    show littleEndian [s0', s1', s2', s3'] + 22 = _
    simp only [littleEndian, List.length_append, List.length_cons, List.length_nil] at g5 ⊢
    simp only [dword] at g5
    omega
  · have b1 : channelsIn before = word c0 c1 := by
      rw [e1]
      show littleEndian [c0, c1] = _
      simp [littleEndian, word]
    have b2 : channelsIn after = word c0' c1' := by
      rw [g1]
      show littleEndian [c0', c1'] = _
      simp [littleEndian, word]
    rw [b1, b2, e3, g3]
    simp only [channelStarts_append]
    omega

theorem eventsBytes_one {e : Event} {bs : Bytes} (h : eventsBytes [e] = .ok bs) : e.toBytes = .ok bs := by
  obtain ⟨u, v, q1, q2, rfl⟩ := seqBuild_inv (show seqBuild e.toBytes (eventsBytes []) = .ok bs from h)
  cases q2
  rw [List.append_nil]; exact q1

omit [FloatEnv] in
theorem channelStarts_one (e : Event) : channelStarts [e] = if e.id = 64 then 1 else 0 := by
  unfold channelStarts
  by_cases h : e.id = 64 <;> simp [h]

/-- The project after a removal: one event is missing. -/
theorem popped_events {w : World} {L : Nat → Prop} (r : WReach w L) {t id : Nat} {n : Int} {h' : Heap} {x : Nat} (ht : L t)
    (hp : w.heap.pop t id n = (h', .ok x)) :
    ∃ i, (w.refs 0)[i]? = some x ∧ x ∈ w.refs t ∧ (w.ev x).id = id ∧ w.project.events = w.project.events.take i ++ [w.ev x] ++ w.project.events.drop (i + 1) ∧
      ({ w with heap := h' } : World).project.events = w.project.events.take i ++ w.project.events.drop (i + 1) := by
  obtain ⟨hr, hinv⟩ := wreach_inv r
  have h21 := C21_pop_through_view hr ht id n
  cases hpp : plainPop (shown w.heap t) id n with
  | error e => rw [hpp] at h21; rw [h21.1] at hp; cases hp
  | ok res =>
    obtain ⟨ev, l'⟩ := res
    rw [hpp] at h21
    obtain ⟨h'', q1, -, q3, q4, -, q6, -⟩ := h21
    rw [hp] at q1
    injection q1 with q1 q1'
    subst q1
    cases q1'
    obtain ⟨g, hn⟩ := reach_good hr
    obtain ⟨c1, -, -⟩ := g.chain_facts t ht
    obtain ⟨m1, m2⟩ := q6 0 c1
    have hnr : (w.refs 0).Nodup := (wreach_sub r ht).2
    have hx : ev.1 ∈ w.refs 0 := by rw [World.refs_eq]; exact List.mem_map.2 ⟨ev, m1, rfl⟩
    obtain ⟨i, i1, i2⟩ := List.mem_iff_getElem.1 hx
    have hi : (w.refs 0)[i]? = some ev.1 := List.getElem?_eq_some_iff.2 ⟨i1, i2⟩
    have hrefs : w.refs 0 = (w.refs 0).take i ++ [ev.1] ++ (w.refs 0).drop (i + 1) := by
      rw [List.append_assoc, ← i2, List.singleton_append, ← List.drop_eq_getElem_cons i1, List.take_append_drop]
    have hnew : ({ w with heap := h' } : World).refs 0 = (w.refs 0).take i ++ (w.refs 0).drop (i + 1) := by
      have e1 : ({ w with heap := h' } : World).refs 0 = (w.refs 0).filter fun y => y ≠ ev.1 := by
        rw [World.refs_eq, World.refs_eq]
        dsimp only
        rw [m2, List.filter_map]
        rfl
      rw [e1]
      have hnr' := hnr
      rw [hrefs, List.append_assoc, List.nodup_append] at hnr'
      obtain ⟨-, n2, n3⟩ := hnr'
      conv => lhs; rw [hrefs]
      rw [List.append_assoc, List.filter_append, List.singleton_append, List.filter_cons_of_neg (by simp)]
      rw [List.singleton_append, List.nodup_cons] at n2
      congr 1
      · rw [List.filter_eq_self]
        intro y hy
        simp only [ne_eq, decide_eq_true_eq]
        exact n3 y hy ev.1 (by simp)
      · rw [List.filter_eq_self]
        intro y hy
        simp only [ne_eq, decide_eq_true_eq]
        rintro rfl
        exact n2.1 hy
    refine ⟨i, hi, ?_, ?_, ?_, ?_⟩
    · rw [World.refs_eq]; exact List.mem_map.2 ⟨ev, q4, rfl⟩
    · rw [(hinv ev m1).2, q3]
    · show w.events 0 = (w.events 0).take i ++ _ ++ (w.events 0).drop (i + 1)
      unfold World.events
      conv => lhs; rw [hrefs]
      simp only [List.map_append, List.map_take, List.map_drop, List.map_cons, List.map_nil]
    · show World.events _ 0 = (w.events 0).take i ++ (w.events 0).drop (i + 1)
      unfold World.events
      rw [hnew, List.map_append, List.map_take, List.map_drop]
      rfl

omit [FloatEnv] in
theorem raws_unique {l : List Event} [FloatEnv] {a b : List Bytes} (h : l.map Event.toBytes = a.map .ok) (h' : l.map Event.toBytes = b.map .ok) : a = b :=
  List.map_inj_right (fun _ _ h => Except.ok.inj h) |>.1 (h.symm.trans h')

theorem eventStart_unique {p : Project} {i s s' : Nat} (h : EventStart p i s) (h' : EventStart p i s') : s = s' := by
  obtain ⟨a, a1, rfl⟩ := h
  obtain ⟨b, b1, rfl⟩ := h'
  rw [raws_unique a1 b1]

theorem eventsBytes_append {a b : List Event} {x y : Bytes} (hx : eventsBytes a = .ok x) (hy : eventsBytes b = .ok y) :
    eventsBytes (a ++ b) = .ok (x ++ y) := by
  induction a generalizing x with
  | nil => cases hx; exact hy
  | cons q l ih =>
    obtain ⟨u, v, q1, q2, rfl⟩ := seqBuild_inv (show seqBuild q.toBytes (eventsBytes l) = .ok x from hx)
    show seqBuild q.toBytes (eventsBytes (l ++ b)) = _
    rw [List.append_assoc]
    exact seqBuild_ok q1 (ih q2)

/-- A project with some of the events of one that can be saved. -/
theorem save_fewer {p q : Project} {before : Bytes} (hp : saveBytes p = .ok before) (hf : q.format = p.format) (hq : q.ppq = p.ppq)
    (hc : channelStarts q.events ≠ 0) (hle : channelStarts q.events ≤ channelStarts p.events) {body : Bytes} (hb : eventsBytes q.events = .ok body)
    (hl : ∀ b, eventsBytes p.events = .ok b → body.length ≤ b.length) : ∃ after, saveBytes q = .ok after := by
  unfold saveBytes at hp ⊢
  rw [channelLen_eq] at hp ⊢
  rw [if_neg hc]
  have h0 : channelStarts p.events ≠ 0 := by omega
  rw [if_neg h0] at hp
  dsimp only at hp ⊢
  have hpack : ∃ hdr, packHeader q.format (channelStarts q.events) q.ppq = .ok hdr := by
    rw [hf, hq]
    cases hk : packHeader p.format (channelStarts p.events) p.ppq with
    | error x => rw [hk] at hp; cases hp
    | ok hdr =>
      unfold packHeader at hk ⊢
      split at hk
      · next f c p' h1 h2 h3 =>
        have h2' : ∃ c', intBuild 2 false (channelStarts q.events : Int) = .ok c' := by
          unfold intBuild at h2 ⊢
          split at h2
          · next hfit =>
            simp only [intFits, Bool.false_eq_true, if_false, decide_eq_true_eq] at hfit
            rw [if_pos]
            · exact ⟨_, rfl⟩
            · simp only [intFits, Bool.false_eq_true, if_false, decide_eq_true_eq]
              omega
          · cases h2
        obtain ⟨c', h2'⟩ := h2'
        rw [h1, h2', h3]
        exact ⟨_, rfl⟩
      · cases hk
  obtain ⟨hdr, hpack⟩ := hpack
  rw [hpack, hb]
  dsimp only
  cases hk : packHeader p.format (channelStarts p.events) p.ppq with
  | error x => rw [hk] at hp; cases hp
  | ok hdr' =>
    rw [hk] at hp
    dsimp only at hp
    cases he : eventsBytes p.events with
    | error x => rw [he] at hp; cases hp
    | ok b =>
      rw [he] at hp
      dsimp only at hp
      have := hl b he
      unfold assemble at hp ⊢
      split at hp
      · rw [if_pos (by omega)]; exact ⟨_, rfl⟩
      · cases hp

/-- The bytes of one event of a project that can be saved. -/
theorem saved_event {p : Project} {file : Bytes} (h : saveBytes p = .ok file) {a b : List Event} {e : Event} (he : p.events = a ++ [e] ++ b) :
    ∃ (raws : List Bytes) (raw x y : Bytes), a.map Event.toBytes = raws.map .ok ∧ e.toBytes = .ok raw ∧ eventsBytes a = .ok x ∧ eventsBytes b = .ok y ∧
      eventsBytes p.events = .ok (x ++ raw ++ y) := by
  obtain ⟨raws, old, new, h1, h2, -⟩ := spliced h h rfl rfl he he
  obtain ⟨f0, f1, c0, c1, p0, p1, s0, s1, s2, s3, body, -, -, -, -, -, e6⟩ := saved_parts h
  rw [he] at e6 ⊢
  obtain ⟨u, z, k1, k2, rfl⟩ := eventsBytes_split e6
  obtain ⟨fr, old', k3, k4, rfl⟩ := eventsBytes_split k1
  exact ⟨raws, old', fr, z, h1, eventsBytes_one k4, k3, k2, e6⟩

theorem channels_of {p : Project} {file : Bytes} (h : saveBytes p = .ok file) : channelsIn file = channelStarts p.events := by
  obtain ⟨f0, f1, c0, c1, p0, p1, s0, s1, s2, s3, body, e1, -, e3, -⟩ := saved_parts h
  rw [← e3, e1]
  show littleEndian [c0, c1] = _
  simp [littleEndian, word]

/-- **C147**, removals: a successful `pop` (or `remove`) through any view that is up to date takes the bytes of the event that it
returns out of the saved file.  All other bytes of events stay as they are and in their order; of the header only the size of the data
changes, and the number of channels, which is one less exactly if the event is that of a new channel.  The project can still be saved
unless the last channel was removed. -/
theorem C147_remove {w : World} {L : Nat → Prop} (r : WReach w L) {t id : Nat} {n : Int} {h' : Heap} {x : Nat} (ht : L t)
    (hp : w.heap.pop t id n = (h', .ok x)) {before : Bytes} (hb : saveBytes w.project = .ok before) :
    ∃ i start raw, (w.refs 0)[i]? = some x ∧ x ∈ w.refs t ∧ (w.ev x).id = id ∧ (w.ev x).toBytes = .ok raw ∧ EventStart w.project i start ∧
      (∀ after, saveBytes ({ w with heap := h' } : World).project = .ok after → Spliced before after start raw [] ∧
        channelsIn before = channelsIn after + if id = 64 then 1 else 0) ∧
      ((∃ after, saveBytes ({ w with heap := h' } : World).project = .ok after) ↔ ¬ (id = 64 ∧ channelsIn before = 1)) := by
  obtain ⟨i, i1, i2, i3, i4, i5⟩ := popped_events r ht hp
  obtain ⟨raws, raw, x', y', a1, a2, a3, a4, a5⟩ := saved_event hb i4
  have hc : channelStarts w.project.events = channelStarts ({ w with heap := h' } : World).project.events + if id = 64 then 1 else 0 := by
    rw [i5]
    conv => lhs; rw [i4]
    simp only [channelStarts_append, channelStarts_one, i3]
    omega
  refine ⟨i, _, raw, i1, i2, i3, a2, ⟨raws, a1, rfl⟩, fun after ha => ?_, ?_⟩
  · obtain ⟨raws', old, new, s1, s2, s3, s4, -⟩ := spliced hb ha rfl rfl (y := []) i4 (by rw [List.append_nil]; exact i5)
    rw [raws_unique a1 s1]
    have : old = raw := by
      have := eventsBytes_one s2
      rw [a2] at this
      exact (Except.ok.inj this).symm
    cases s3
    rw [this] at s4
    exact ⟨s4, by rw [channels_of hb, channels_of ha, hc]⟩
  · rw [channels_of hb, hc]
    constructor
    · rintro ⟨after, ha⟩ ⟨h1, h2⟩
      rw [if_pos h1] at h2
      unfold saveBytes at ha
      rw [channelLen_eq, if_pos (by omega)] at ha
      cases ha
    · intro hne
      have h0 : channelStarts w.project.events ≠ 0 := by
        intro h0
        unfold saveBytes at hb
        rw [channelLen_eq, if_pos h0] at hb
        cases hb
      refine save_fewer hb rfl rfl (q := ({ w with heap := h' } : World).project) ?_ (by omega) (body := x' ++ y') (by rw [i5]; exact eventsBytes_append a3 a4) ?_
      · intro hz
        rw [hz] at hc hne
        split at hc
        · next h64 => exact hne ⟨h64, by rw [if_pos h64]⟩
        · exact h0 hc
      · intro b hb'
        rw [a5] at hb'
        cases hb'
        simp only [List.length_append]
        omega

/-- **C147**, insertions: a successful `insert` of a new event through any view that is up to date puts its bytes into the saved file and
leaves all other bytes of events as they are. -/
theorem C147_insert {w : World} {L : Nat → Prop} (r : WReach w L) {t : Nat} (ht : L t) {pos : Int} {h' : Heap} {e : Event}
    (hi : w.heap.insert t pos w.store.length e.id = (h', .ok ())) {before after : Bytes} (hb : saveBytes w.project = .ok before)
    (ha : saveBytes ({ w with heap := h', store := w.store ++ [e] } : World).project = .ok after) :
    ∃ i start raw, i ≤ w.project.events.length ∧
      ({ w with heap := h', store := w.store ++ [e] } : World).project.events[i]? = some e ∧ e.toBytes = .ok raw ∧ EventStart w.project i start ∧
      Spliced before after start [] raw ∧ channelsIn after = channelsIn before + if e.id = 64 then 1 else 0 := by
  obtain ⟨k, hk⟩ := inserted_events r ht hi
  have hk' : ({ w with heap := h', store := w.store ++ [e] } : World).project.events =
      w.project.events.take k ++ [e] ++ w.project.events.drop k := by rw [hk]; simp
  obtain ⟨raws, old, new, s1, s2, s3, s4, s5⟩ := spliced hb ha rfl rfl (x := []) (by rw [List.append_nil, List.take_append_drop]) hk'
  cases s2
  have htake : w.project.events.take (min k w.project.events.length) = w.project.events.take k := by
    rw [← List.take_eq_take_min]
  refine ⟨min k w.project.events.length, _, new, Nat.min_le_right _ _, ?_, eventsBytes_one s3, ⟨raws, by rw [htake]; exact s1, rfl⟩, s4, ?_⟩
  · rw [hk, List.getElem?_append_right (by simp), List.length_take]
    simp
  · rw [channelStarts_one] at s5
    have : channelStarts [] = 0 := rfl
    omega

/-- **C147**, assignments: giving any event object of the project another value replaces the bytes of this event, whatever their number,
and leaves all other bytes of events as they are. -/
theorem C147_assign {w : World} {L : Nat → Prop} (r : WReach w L) {ref i : Nat} (hi : (w.refs 0)[i]? = some ref) (v : Value)
    {before after : Bytes} (hb : saveBytes w.project = .ok before)
    (ha : saveBytes (w.setEv ref { w.ev ref with value := v }).project = .ok after) :
    ∃ start raw raw', (w.ev ref).toBytes = .ok raw ∧ Event.toBytes { w.ev ref with value := v } = .ok raw' ∧ EventStart w.project i start ∧
      Spliced before after start raw raw' ∧ channelsIn after = channelsIn before := by
  have hinv := (wreach_inv r).2
  have hn : (w.refs 0).Nodup := by
    obtain ⟨g, hn⟩ := reach_good (wreach_inv r).1
    rw [World.refs_eq]; exact hn
  have hlt : ref < w.store.length := by
    have := List.mem_of_getElem? hi
    rw [World.refs_eq] at this
    obtain ⟨x, x1, rfl⟩ := List.mem_map.1 this
    exact (hinv x x1).1
  obtain ⟨i1, i2⟩ := List.getElem?_eq_some_iff.1 hi
  have hlen : i < w.project.events.length := by
    show i < (w.events 0).length
    unfold World.events
    rw [List.length_map]; exact i1
  have hev : w.project.events[i] = w.ev ref := by
    show (w.events 0)[i]'_ = _
    simp only [World.events, List.getElem_map, i2]
  have hq := events_setEv { w.ev ref with value := v } hn hi hlt
  have h1 : w.project.events = w.project.events.take i ++ [w.ev ref] ++ w.project.events.drop (i + 1) := by
    rw [List.append_assoc, ← hev, List.singleton_append, ← List.drop_eq_getElem_cons hlen, List.take_append_drop]
  have h2 : (w.setEv ref { w.ev ref with value := v }).project.events =
      w.project.events.take i ++ [{ w.ev ref with value := v }] ++ w.project.events.drop (i + 1) := by
    show (w.setEv ref { w.ev ref with value := v }).events 0 = _
    rw [hq, List.append_assoc, List.singleton_append]
    rw [List.set_eq_take_append_cons_drop, if_pos (show i < (w.events 0).length from hlen)]
    rfl
  obtain ⟨raws, old, new, s1, s2, s3, s4, s5⟩ := spliced hb ha rfl rfl h1 h2
  refine ⟨_, old, new, eventsBytes_one s2, eventsBytes_one s3, ⟨raws, s1, rfl⟩, s4, ?_⟩
  rw [channelStarts_one, channelStarts_one] at s5
  dsimp only at s5
  omega


omit [FloatEnv] in
/-- Properties of the table change the value of an event and nothing else of it. -/
theorem set_value (ver : PyVer) (ids : List Nat) (d : Option Value) (a : Access) {e e' : Event} {x : a.type}
    (h : (a.descr ver ids d).set e x = .ok e') : ∃ v, e' = { e with value := v } := by
  have fld : ∀ {key x e'}, structSet e key x = .ok e' → ∃ v, e' = { e with value := v } := by
    intro key x e' h
    unfold structSet at h
    split at h
    · split at h <;> cases h
      exact ⟨_, rfl⟩
    · split at h <;> cases h
      exact ⟨_, rfl⟩
    · cases h
  cases a with
  | event => cases h; exact ⟨_, rfl⟩
  | field key => exact fld h
  | flag members bits key inverted =>
    simp only [Access.descr, flagProp] at h
    split at h
    · split at h
      · cases h
      · split at h
        · cases h
        · exact fld h
    · split at h
      · split at h <;> cases h
        exact ⟨_, rfl⟩
      · cases h

/-- **C147**, properties: a successful assignment to any property of the table replaces the bytes of the event it belongs to. -/
theorem C147_property {w w' : World} {L : Nat → Prop} (r : WReach w L) {t : Nat} (ht : L t) (ver : PyVer) (p : PropRow) {k : Nat} {e : Event}
    (hT : Target (w.events t) p.ids k e) (x : p.type) (h : p.write ver w t x = (w', .ok ())) {before after : Bytes}
    (hb : saveBytes w.project = .ok before) (ha : saveBytes w'.project = .ok after) :
    ∃ i start raw raw', w.project.events[i]? = some e ∧ e.toBytes = .ok raw ∧ EventStart w.project i start ∧
      Spliced before after start raw raw' ∧ channelsIn after = channelsIn before := by
  have hids : (p.descr ver).ids = p.ids := (show ∀ a, (Access.descr ver p.ids p.default a).ids = p.ids from fun a => by cases a <;> rfl) p.acc
  have hro : (p.descr ver).readonly = false := (show ∀ a, (Access.descr ver p.ids p.default a).readonly = false from fun a => by cases a <;> rfl) p.acc
  obtain ⟨ref, g1, -, -, -, ⟨i, i1, i2, -⟩, g5⟩ := write_spec r ht (p.descr ver) hro x (by rw [hids]; exact hT)
  have h' : (p.descr ver).write w t x = (w', .ok ()) := h
  rw [g5] at h'
  cases hs : (p.descr ver).set e x with
  | error y => rw [hs] at h'; cases h'
  | ok e' =>
    rw [hs] at h'
    injection h' with h' _
    subst h'
    obtain ⟨v, rfl⟩ := set_value ver p.ids p.default p.acc hs
    subst g1
    obtain ⟨start, raw, raw', s1, -, s3, s4, s5⟩ := C147_assign r i1 v hb ha
    exact ⟨i, start, raw, raw', i2, s1, s3, s4, s5⟩

open Demo in
/-- The demo project: taking out the event of its second channel takes its bytes out of the file, which then says one channel; inserting
it again before the last event, or giving the name of the first channel another text, replaces bytes at one place. -/
example : (∃ h' x after start raw, world.heap.pop 0 64 1 = (h', .ok x) ∧ saveBytes ({ world with heap := h' } : World).project = .ok after ∧
      Spliced file after start raw [] ∧ raw = [64, 1, 0] ∧ channelsIn after = 1) ∧
    (∃ h', world.heap.insert 0 3 world.store.length 64 = (h', .ok ())) ∧
    ∃ w', (⟨"Channel", "name", [203, 192], [], .event, none⟩ : PropRow).write .from311 world 0 (.str (PStr.lit "Sub")) = (w', .ok ()) := by
  refine ⟨?_, ⟨_, Prod.ext rfl (by decide +kernel)⟩, ⟨_, Prod.ext rfl (by decide +kernel)⟩⟩
  obtain ⟨h', x, hp⟩ : ∃ h' x, world.heap.pop 0 64 1 = (h', .ok x) := ⟨_, 7, Prod.ext rfl (by decide +kernel)⟩
  obtain ⟨i, start, raw, g1, g2, g3, g4, g5, g6, g7⟩ := C147_remove world_reach rfl hp saved
  have hc : channelsIn file = 2 := by decide +kernel
  obtain ⟨after, ha⟩ := g7.2 (by rw [hc]; simp)
  obtain ⟨k1, k2⟩ := g6 after ha
  rw [hc, if_pos rfl] at k2
  refine ⟨h', x, after, start, raw, hp, ha, k1, ?_, by omega⟩
  have hx : x = 7 := by
    have := congrArg Prod.snd hp
    have h7 : (world.heap.pop 0 64 1).2 = .ok 7 := by decide +kernel
    rw [h7] at this
    exact (Except.ok.inj this).symm
  subst hx
  have : (world.ev 7).toBytes = .ok [64, 1, 0] := by
    have h7 : world.ev 7 = ⟨64, .u16, .lv (.int 1), 2⟩ := by decide +kernel
    rw [h7]; rfl
  rw [this] at g4
  exact (Except.ok.inj g4).symm

end PyFLP
