import Verif.Props.Descriptors
import Verif.Props.Structured
import Verif.Props.Project
import Verif.Props.Equality
/-!
# Exact statements: absent events (C33), numbers that do not fit (C37), shared events (C41), equality of models (C93)
-/

namespace PyFLP

open Spec Heap

/-! ### C33 -/

/-- C33, every property in every state: what reading gives and what assigning does.  A property with ids whose events are
all missing has its default and refuses assignments; one without ids raises `IndexError` on a model without events and
`LookupError` on a model with several; all others go to the event they stand for, and no other event changes. -/
theorem C33_exact {α : Type} {w : World} {L : Nat → Prop} (r : WReach w L) {t : Nat} (ht : L t) (d : Descr α) :
    (d.ids ≠ [] ∧ (∀ e ∈ w.events t, e.id ∉ d.ids) ∧ d.read w t = .ok d.default ∧
      ∀ v, d.write w t v = (w, .error .propertyCannotBeSet)) ∨
    (d.ids = [] ∧ w.events t = [] ∧ d.read w t = .error .indexError ∧
      ∀ v, d.write w t v = (w, .error (if d.readonly then .propertyCannotBeSet else .indexError))) ∨
    (d.ids = [] ∧ 1 < (w.events t).length ∧ d.read w t = .error .lookupError ∧
      ∀ v, d.write w t v = (w, .error (if d.readonly then .propertyCannotBeSet else .lookupError))) ∨
    ∃ k e, Target (w.events t) d.ids k e ∧ d.read w t = d.get e ∧
      ∀ v, (d.readonly = true → d.write w t v = (w, .error .propertyCannotBeSet)) ∧
        (d.readonly = false → ∀ err, d.set e v = .error err → d.write w t v = (w, .error err)) ∧
        (d.readonly = false → ∀ e', d.set e v = .ok e' → ∃ w', d.write w t v = (w', .ok ()) ∧
          w'.events t = (w.events t).set k e' ∧
          ∃ i, w.project.events[i]? = some e ∧
            w'.project = { w.project with events := w.project.events.set i e' }) := by
  rcases getEvent_spec r ht d.ids with ⟨k, ref, h1, h2, h3, h4⟩ | ⟨h0, h1, h2⟩ | ⟨h0, h1, h2⟩ | ⟨h0, h1, h2⟩
  · refine .inr (.inr (.inr ⟨k, w.ev ref, h4, ?_, fun v => ⟨fun hro => ?_, fun hro err herr => ?_, fun hro e' he' => ?_⟩⟩))
    · unfold Descr.read; rw [h1]
    · exact C33_readonly w t d hro v
    · obtain ⟨_, _, _, _, _, _, g⟩ := write_spec r ht d hro v h4
      rw [g, herr]
    · obtain ⟨ref', g1, g2, g3, g4, ⟨i, i1, i2, i3⟩, g⟩ := write_spec r ht d hro v h4
      rw [g, he']
      exact ⟨_, rfl, events_setEv e' (refs_nodup r ht) g2 g3, i, i2, i3 e'⟩
  · refine .inl ⟨h0, h2, ?_, fun v => ?_⟩
    · unfold Descr.read; rw [h1]
    · unfold Descr.write; rw [h1]; dsimp only; split <;> rfl
  · refine .inr (.inl ⟨h0, h1, ?_, fun v => ?_⟩)
    · unfold Descr.read; rw [h2]
    · unfold Descr.write; rw [h2]; dsimp only; split <;> rfl
  · refine .inr (.inr (.inl ⟨h0, h1, ?_, fun v => ?_⟩))
    · unfold Descr.read; rw [h2]
    · unfold Descr.write; rw [h2]; dsimp only; split <;> rfl

open Demo in
/-- All four cases: a missing event, a property without ids on a model without and with several events, an existing event. -/
example : (eventProp [160] (some (.lv (.int 7)))).read world 0 = .ok (some (.lv (.int 7))) ∧
    (structProp [] "max").read polyphony.1 polyphony.2 = .error .indexError ∧
    (structProp [] "max").read world 0 = .error .lookupError ∧
    (name.write world 0 (.str (PStr.lit "Sub"))).2 = .ok () := by
  refine ⟨?_, ?_, ?_, ?_⟩ <;> decide +kernel

/-! ### C37 -/

namespace Spec

/-- The number that bytes stand for, least significant byte first. -/
def littleEndian : Bytes → Nat
  | [] => 0
  | b :: bs => b.toNat + 256 * littleEndian bs

/-- The bytes stand for the number; signed numbers are stored as two's complement. -/
def Encodes (signed : Bool) (bs : Bytes) (v : Int) : Prop :=
  v = littleEndian bs ∨ (signed = true ∧ v < 0 ∧ v + (256 ^ bs.length : Nat) = littleEndian bs)

/-- The numbers that `w` bytes can store. -/
def InRange (w : Nat) (signed : Bool) (v : Int) : Prop :=
  match signed with
  | true => -(256 ^ w : Nat) ≤ 2 * v ∧ 2 * v < (256 ^ w : Nat)
  | false => 0 ≤ v ∧ v < (256 ^ w : Nat)

end Spec

theorem inRange_iff (w : Nat) (sg : Bool) (v : Int) : InRange w sg v ↔ intFits w sg v = true := by
  unfold InRange intFits
  cases sg <;> simp

theorem littleEndian_eq (bs : Bytes) : littleEndian bs = leNat bs := by
  induction bs with
  | nil => rfl
  | cons b bs ih => simp only [littleEndian, leNat, ih]

theorem encodes_build {w : Nat} {sg : Bool} {v : Int} (h : InRange w sg v) :
    ∃ n, intBuild w sg v = .ok n ∧ n.length = w ∧ Encodes sg n v := by
  have hf := (inRange_iff w sg v).1 h
  have hpos : (0 : Int) < (256 ^ w : Nat) := by
    have : 0 < 256 ^ w := Nat.pow_pos (by decide)
    omega
  refine ⟨leBytes w (v % (256 ^ w : Nat)).toNat, by unfold intBuild; rw [if_pos hf], by simp, ?_⟩
  have hm1 := Int.emod_nonneg v (b := ((256 ^ w : Nat) : Int)) (by omega)
  have hm2 := Int.emod_lt_of_pos v hpos
  have hlt : (v % (256 ^ w : Nat)).toNat < 256 ^ w := by omega
  unfold Encodes
  rw [littleEndian_eq, leNat_leBytes hlt, leBytes_length]
  unfold InRange at h
  by_cases h0 : 0 ≤ v
  · left
    have : v < (256 ^ w : Nat) := by
      cases sg with
      | true => dsimp only at h; omega
      | false => exact h.2
    rw [Int.emod_eq_of_lt h0 this]
    omega
  · right
    cases sg with
    | false => exact absurd h.1 h0
    | true =>
      refine ⟨rfl, by omega, ?_⟩
      dsimp only at h
      have : v % (256 ^ w : Nat) = v + (256 ^ w : Nat) := by
        rw [← Int.add_emod_right v, Int.emod_eq_of_lt (by omega) (by omega)]
      rw [this]
      omega

section
variable [FloatEnv]

omit [FloatEnv] in
/-- A record with the names of the fields, split at a field; `Rec.update` changes the entry there. -/
theorem rec_split_at {pre post : Fields} {key : String} {f : Fld} {r : Rec}
    (hn : r.map Prod.fst = (pre ++ (key, f) :: post).map Prod.fst) (fresh : key ∉ pre.map Prod.fst) :
    ∃ rpre old rpost, r = rpre ++ (key, old) :: rpost ∧ pre.length = rpre.length ∧
      ∀ x, Rec.update r key x = rpre ++ (key, x) :: rpost := by
  induction pre generalizing r with
  | nil =>
    cases r with
    | nil => simp at hn
    | cons p r =>
      obtain ⟨n, o⟩ := p
      simp only [List.nil_append, List.map_cons, List.cons.injEq] at hn
      obtain ⟨rfl, _⟩ := hn
      exact ⟨[], o, r, rfl, rfl, fun x => by simp [Rec.update]⟩
  | cons g pre ih =>
    cases r with
    | nil => simp at hn
    | cons p r =>
      obtain ⟨n, o⟩ := p
      simp only [List.cons_append, List.map_cons, List.cons.injEq] at hn
      simp only [List.map_cons, List.mem_cons, not_or] at fresh
      obtain ⟨rpre, old, rpost, h1, h2, h3⟩ := ih hn.2 fresh.2
      refine ⟨(n, o) :: rpre, old, rpost, by rw [h1]; rfl, by simp [h2], fun x => ?_⟩
      unfold Rec.update
      rw [if_neg (by rw [hn.1]; exact fun h => fresh.1 h.symm), h3]
      rfl

theorem structBuild_cons (cx : Ctx) (key : String) (f : Fld) (fs : Fields) (x : Option LV) (r : Rec) :
    structBuild cx ((key, f) :: fs) ((key, x) :: r) = seqBuild (fldBuild cx f x) (structBuild cx fs r) := by
  simp only [structBuild, if_true]
  unfold seqBuild
  cases fldBuild cx f x <;> cases structBuild cx fs r <;> rfl

/-- C37, every field of every struct event and every number.  `p` and `q` are what the fields before and behind it are saved as.
A number in range is saved as its bytes between them.  One out of range is refused when the event is saved, if the field is
required; if it is optional, its bytes are left out and the fields behind it move.  A field that data of this size
does not have is not saved whatever its value. -/
theorem C37_exact {e : Event} {s : SName} {r : Rec} {key : String} {f : Fld} {w : Nat} {sg : Bool} {pre post : Fields}
    (hk : e.kind = .struct s) (hv : e.value = .fields r) (hn : r.map Prod.fst = s.fields.map Prod.fst)
    (hf : s.fields = pre ++ (key, f) :: post) (fresh : key ∉ pre.map Prod.fst) (hl : f.leaf = .int w sg)
    {b : Bytes} (hb : e.payload = .ok b) :
    ∃ p old q, b = p ++ old ++ q ∧ structBuild ⟨e.len⟩ pre (r.take pre.length) = .ok p ∧
      structBuild ⟨e.len⟩ post (r.drop (pre.length + 1)) = .ok q ∧
      ∀ v e', (structProp [e.id] key).set e (.int v) = .ok e' →
        (present e.len f ≠ none → InRange w sg v →
          ∃ n, e'.payload = .ok (p ++ n ++ q) ∧ n.length = w ∧ Encodes sg n v) ∧
        (¬ InRange w sg v → f = .opt (.int w sg) → e'.payload = .ok (p ++ q)) ∧
        (present e.len f ≠ none → ¬ InRange w sg v → f ≠ .opt (.int w sg) →
          (∃ x, e'.payload = .error x) ∧ ∀ pr : Project, e' ∈ pr.events → ∃ x, saveBytes pr = .error x) ∧
        (present e.len f = none → e'.payload = .ok b) := by
  obtain ⟨rpre, old, rpost, h1, h2, h3⟩ := rec_split_at (hf ▸ hn) fresh
  have pay : ∀ x, Event.payload { e with value := .fields (rpre ++ (key, x) :: rpost) } =
      seqBuild (structBuild ⟨e.len⟩ pre rpre) (seqBuild (fldBuild ⟨e.len⟩ f x) (structBuild ⟨e.len⟩ post rpost)) := by
    intro x
    show Kind.build e.kind e.len (.fields _) = _
    rw [hk]
    show structBuild ⟨e.len⟩ s.fields _ = _
    rw [hf, structBuild_append h2, structBuild_cons]
  have hbe : e = { e with value := .fields (rpre ++ (key, old) :: rpost) } := by rw [← h1, ← hv]
  rw [hbe, pay] at hb
  obtain ⟨p, oq, b1, b2, rfl⟩ := seqBuild_inv hb
  obtain ⟨o, q, b3, b4, rfl⟩ := seqBuild_inv b2
  refine ⟨p, o, q, by simp, ?_, ?_, ?_⟩
  · rw [h1, h2, List.take_left]; exact b1
  · rw [h1, h2, show rpre ++ (key, old) :: rpost = (rpre ++ [(key, old)]) ++ rpost by simp,
      show rpre.length + 1 = (rpre ++ [(key, old)]).length by simp, List.drop_left]
    exact b4
  · intro v e' hset
    have he : e' = { e with value := .fields (rpre ++ (key, some (.int v)) :: rpost) } := by
      simp only [structProp, structSet, hv] at hset
      split at hset
      · cases hset
      · cases hset
      · cases hset; rw [h3]
    have pv := pay (some (.int v))
    rw [← he, b1, b4] at pv
    have good : InRange w sg v → present e.len f ≠ none → ∃ n, fldBuild ⟨e.len⟩ f (some (.int v)) = .ok n ∧ n.length = w ∧ Encodes sg n v := by
      intro hr ha
      obtain ⟨n, n1, n2, n3⟩ := encodes_build hr
      refine ⟨n, ?_, n2, n3⟩
      cases f with
      | req l => cases hl; exact n1
      | opt l => cases hl; simp only [fldBuild, leafBuild, n1]
      | ifLen m l =>
        cases hl
        by_cases hc : e.len = m
        · simp only [fldBuild, hc, if_true, leafBuild, n1]
        · exact absurd (by simp [present, hc]) ha
      | ifNew l =>
        cases hl
        by_cases hc : e.len % 60 = 0
        · simp only [fldBuild, hc, if_true, leafBuild, n1]
        · exact absurd (by simp [present, hc]) ha
    have bad : ¬ InRange w sg v → intBuild w sg v = .error .formatFieldError := by
      intro hr
      rw [inRange_iff] at hr
      exact intBuild_misfit (by simpa using hr)
    refine ⟨fun ha hr => ?_, fun hr ho => ?_, fun ha hr ho => ?_, fun ha => ?_⟩
    · obtain ⟨n, n1, n2, n3⟩ := good hr ha
      refine ⟨n, ?_, n2, n3⟩
      rw [pv, n1]
      show Except.ok _ = _
      simp
    · subst ho
      rw [pv]
      simp only [fldBuild, leafBuild, bad hr]
      rfl
    · have hfail : fldBuild ⟨e.len⟩ f (some (.int v)) = .error .formatFieldError := by
        cases f with
        | req l => cases hl; exact bad hr
        | opt l => cases hl; exact absurd rfl ho
        | ifLen m l =>
          cases hl
          by_cases hc : e.len = m
          · simp only [fldBuild, hc, if_true, leafBuild, bad hr]
          · exact absurd (by simp [present, hc]) ha
        | ifNew l =>
          cases hl
          by_cases hc : e.len % 60 = 0
          · simp only [fldBuild, hc, if_true, leafBuild, bad hr]
          · exact absurd (by simp [present, hc]) ha
      rw [hfail] at pv
      have hpay : ∃ x, e'.payload = .error x := ⟨_, pv⟩
      refine ⟨hpay, fun pr hp => ?_⟩
      cases hs : saveBytes pr with
      | error x => exact ⟨x, rfl⟩
      | ok file =>
        obtain ⟨_, body, _, _, _, hbody, _⟩ := save_split hs
        obtain ⟨g1, _⟩ := eventsBytes_ok hbody
        obtain ⟨x, hx⟩ := hpay
        have := (g1 _ hp).2
        rw [hx] at this
        cases this
    · have hnone : ∀ x, fldBuild ⟨e.len⟩ f x = .ok [] := by
        intro x
        cases f with
        | req l => cases ha
        | opt l => cases ha
        | ifLen m l =>
          have hc : e.len ≠ m := fun h => by simp [present, h] at ha
          simp [fldBuild, hc]
        | ifNew l =>
          have hc : e.len % 60 ≠ 0 := fun h => by simp [present, h] at ha
          simp [fldBuild, hc]
      rw [pv, hnone]
      rw [hnone] at b3
      cases b3
      rfl

end

/-- The feedback of a delay: optional, so that `2 ** 32` is left out; `bass` of `BooBass`: required. -/
example : (("feedback", Fld.opt u32) ∈ SName.delay.fields) ∧ ("bass", Fld.req u32) ∈ SName.booBass.fields ∧
    ¬ InRange 4 false (2 ^ 32) ∧ InRange 4 false 7 ∧ Encodes false [7, 0, 0, 0] 7 ∧ InRange 2 true (-1) ∧ Encodes true [255, 255] (-1) := by
  refine ⟨by decide, by decide, by rw [inRange_iff]; decide, by rw [inRange_iff]; decide, .inl rfl, by rw [inRange_iff]; decide,
    .inr ⟨rfl, by decide, rfl⟩⟩

/-! ### C41 -/

theorem root_unique {w : World} {L : Nat → Prop} (r : WReach w L) {x i j : Nat} (hi : (x, i) ∈ shown w.heap 0)
    (hj : (x, j) ∈ shown w.heap 0) : i = j := by
  have h1 := (events_shown r (L0 r) _ hi).2
  have h2 := (events_shown r (L0 r) _ hj).2
  exact h1.symm.trans h2

theorem mem_refs_keep {h : Heap} {t : Nat} {rule : List Ev → Ev → Bool} {root : List Ev} (hs : shown h t = keep rule [] root) (x : Nat) :
    x ∈ (shown h t).map Prod.fst ↔ ∃ pre id post, root = pre ++ (x, id) :: post ∧ rule pre (x, id) = true := by
  rw [hs]
  constructor
  · intro hx
    obtain ⟨⟨y, id⟩, hy, rfl⟩ := List.mem_map.1 hx
    obtain ⟨pre, post, h1, h2⟩ := mem_keep.1 hy
    exact ⟨pre, id, post, h1, by simpa using h2⟩
  · rintro ⟨pre, id, post, h1, h2⟩
    exact List.mem_map.2 ⟨(x, id), mem_keep.2 ⟨pre, post, h1, by simpa using h2⟩, rfl⟩

theorem event_split_unique {l pre pre' post post' : List Ev} {e : Ev} (hn : l.Nodup) (h : l = pre ++ e :: post)
    (h' : l = pre' ++ e :: post') : pre = pre' ∧ post = post' := by
  subst h
  rcases List.append_eq_append_iff.1 h' with ⟨c, c1, c2⟩ | ⟨c, c1, c2⟩
  · cases c with
    | nil => simp at c1 c2; exact ⟨c1.symm, c2⟩
    | cons y c =>
      simp only [List.cons_append, List.cons.injEq] at c2
      rw [c2.2] at hn
      simp [List.nodup_append] at hn
  · cases c with
    | nil => simp at c1 c2; exact ⟨c1, c2.symm⟩
    | cons y c =>
      simp only [List.cons_append, List.cons.injEq] at c2
      rw [c1, ← c2.1] at hn
      simp [List.nodup_append] at hn

/-- C41. Which events are part of both the rack and the mixer: exactly the plugin events behind the first event of the mixer. -/
theorem C41_rack_mixer_exact {w wm : World} {L : Nat → Prop} (r : WReach w L) {tm : Nat} (hm : w.mixer = (wm, .ok tm)) (x : Nat) :
    (x ∈ w.channels.1.refs w.channels.2 ∧ x ∈ wm.refs tm) ↔
    ∃ pre id post, shown w.heap 0 = pre ++ (x, id) :: post ∧ id ∈ pluginIds ∧ ∃ y ∈ pre, y.2 ∈ mixerIds := by
  have hnd : (shown w.heap 0).Nodup := by
    have := refs_nodup r (L0 r)
    rw [World.refs_eq] at this
    exact (List.pairwise_map.1 this).imp fun h e => h (congrArg Prod.fst e)
  rw [World.refs_eq, World.refs_eq, mem_refs_keep (C41_channels r), mem_refs_keep (C41_mixer r hm)]
  constructor
  · rintro ⟨⟨pre, id, post, h1, h2⟩, pre', id', post', h1', h2'⟩
    obtain rfl : id = id' := root_unique (x := x) r (by rw [h1]; simp) (by rw [h1']; simp)
    obtain ⟨rfl, rfl⟩ := event_split_unique hnd h1 h1'
    refine ⟨pre, id, post, h1, ?_⟩
    have hd : mixerIds.contains id = true → (rackIds.contains id || pluginIds.contains id) = false := by
      have : ∀ i ∈ mixerIds, (rackIds.contains i || pluginIds.contains i) = false := by decide
      intro h
      exact this id (List.contains_iff_mem.1 h)
    unfold channelsRule at h2
    unfold mixerRule at h2'
    dsimp only at h2 h2'
    cases hc : mixerIds.contains id with
    | true => rw [hd hc] at h2; cases h2
    | false =>
      rw [hc, Bool.false_or, Bool.and_eq_true, List.any_eq_true] at h2'
      obtain ⟨hp, y, hy, hy'⟩ := h2'
      exact ⟨List.contains_iff_mem.1 hp, y, hy, List.contains_iff_mem.1 hy'⟩
  · rintro ⟨pre, id, post, h1, h2, y, hy, hy'⟩
    refine ⟨⟨pre, id, post, h1, ?_⟩, pre, id, post, h1, ?_⟩
    · unfold channelsRule
      simp [h2]
    · unfold mixerRule
      simp only [Bool.or_eq_true, Bool.and_eq_true, List.any_eq_true, List.contains_iff_mem]
      exact .inr ⟨h2, y, hy, hy'⟩

/-- C41. Which events are part of none of the four parts: exactly those with other ids. -/
theorem C41_rest_exact {w wa wm : World} {L : Nat → Prop} (r : WReach w L) {ta tm : Nat}
    (ha : w.arrangements = (wa, .ok ta)) (hm : w.mixer = (wm, .ok tm)) {x id : Nat} (hx : (x, id) ∈ shown w.heap 0) :
    (x ∉ w.patterns.1.refs w.patterns.2 ∧ x ∉ wa.refs ta ∧ x ∉ w.channels.1.refs w.channels.2 ∧ x ∉ wm.refs tm) ↔
    id ∉ patternIds ++ markerIds ++ arrangementIds ++ rackIds ++ pluginIds ++ mixerIds := by
  rw [World.refs_eq, World.refs_eq, World.refs_eq, World.refs_eq, mem_refs_keep (C41_patterns r),
    mem_refs_keep (C41_arrangements r ha), mem_refs_keep (C41_channels r), mem_refs_keep (C41_mixer r hm)]
  obtain ⟨pre, post, hsplit⟩ := List.append_of_mem hx
  constructor
  · rintro ⟨h1, h2, h3, h4⟩ hid
    have n1 : patternsRule pre (x, id) = false := by
      cases h : patternsRule pre (x, id) with
      | false => rfl
      | true => exact absurd ⟨pre, id, post, hsplit, h⟩ h1
    have n2 : arrangementsRule pre (x, id) = false := by
      cases h : arrangementsRule pre (x, id) with
      | false => rfl
      | true => exact absurd ⟨pre, id, post, hsplit, h⟩ h2
    have n3 : channelsRule pre (x, id) = false := by
      cases h : channelsRule pre (x, id) with
      | false => rfl
      | true => exact absurd ⟨pre, id, post, hsplit, h⟩ h3
    have n4 : mixerRule pre (x, id) = false := by
      cases h : mixerRule pre (x, id) with
      | false => rfl
      | true => exact absurd ⟨pre, id, post, hsplit, h⟩ h4
    unfold patternsRule at n1
    unfold arrangementsRule at n2
    unfold channelsRule at n3
    unfold mixerRule at n4
    have hall : (pre.all fun x => x.2 != 99) = !(pre.any fun x => x.2 == 99) := by
      simp only [List.not_any_eq_all_not]; rfl
    rw [hall] at n1
    dsimp only at n1 n2 n3 n4
    simp only [Bool.or_eq_false_iff, Bool.and_eq_false_imp] at n1 n2 n3 n4
    have no : ∀ {l : List Nat}, l.contains id = false → id ∉ l := by
      intro l hl hm
      rw [List.contains_iff_mem.2 hm] at hl
      cases hl
    have hmk : markerIds.contains id = true := by
      simp only [List.mem_append, no n1.1, no n2.1, no n3.1, no n3.2, no n4.1, or_false, false_or] at hid
      exact List.contains_iff_mem.2 hid
    have a1 := n1.2 hmk
    rw [n2.2 hmk] at a1
    cases a1
  · intro hid
    simp only [List.mem_append, not_or] at hid
    obtain ⟨⟨⟨⟨⟨i1, i2⟩, i3⟩, i4⟩, i5⟩, i6⟩ := hid
    have same : ∀ (rule : List Ev → Ev → Bool), (∀ p, rule p (x, id) = false) →
        ¬ ∃ pre id' post, shown w.heap 0 = pre ++ (x, id') :: post ∧ rule pre (x, id') = true := by
      rintro rule hr ⟨p, id', q, h1, h2⟩
      obtain rfl : id = id' := root_unique r hx (by rw [h1]; simp)
      rw [hr] at h2
      cases h2
    refine ⟨same _ fun p => ?_, same _ fun p => ?_, same _ fun p => ?_, same _ fun p => ?_⟩
    · simp [patternsRule, i1, i2]
    · simp [arrangementsRule, i3, i2]
    · simp [channelsRule, i4, i5]
    · simp [mixerRule, i6, i5]

open Demo in
/-- The song of the demonstration has one event in both (the name of the effect) and one in none (the version). -/
example : ∃ wm tm wa ta, songWorld.mixer = (wm, .ok tm) ∧ songWorld.arrangements = (wa, .ok ta) ∧
    (8 ∈ songWorld.channels.1.refs songWorld.channels.2 ∧ 8 ∈ wm.refs tm) ∧
    (0, 199) ∈ shown songWorld.heap 0 ∧ 199 ∉ patternIds ++ markerIds ++ arrangementIds ++ rackIds ++ pluginIds ++ mixerIds := by
  obtain ⟨wm, tm, h⟩ := song_mixer
  obtain ⟨wa, ta, h'⟩ := song_arrangements
  refine ⟨wm, tm, wa, ta, h, h', (C41_rack_mixer_exact song_reach h 8).2 ⟨[(0, 199), (1, 64), (2, 201), (3, 65), (4, 148), (5, 99),
    (6, 148), (7, 236)], 201, [(9, 98), (10, 147)], ?_, by decide, (7, 236), by decide, by decide⟩, ?_, by decide⟩
  · rw [song_shown]; rfl
  · rw [song_shown]; decide

/-! ### C93 -/

namespace Spec

/-- The events of a model are at these positions of its project. -/
def AtPositions (w : World) (t : Nat) (ps : List Nat) : Prop :=
  ps.map (fun i => (w.refs 0)[i]?) = (w.refs t).map some

end Spec

theorem map_r {w : World} {L : Nat → Prop} (r : WReach w L) {t : Nat} (ht : L t) :
    ∃ ps : List Nat, AtPositions w t ps ∧ (w.heap.lst t).map (fun a => (w.heap.cell a).r) = ps.map Int.ofNat := by
  obtain ⟨g, _⟩ := reach_good (wreach_inv r).1
  have key : ∀ l : List Nat, (∀ a ∈ l, a ∈ w.heap.lst 0) → ∃ ps : List Nat,
      ps.map (fun i => (w.refs 0)[i]?) = (l.map fun a => (w.heap.cell a).ref).map some ∧
      l.map (fun a => (w.heap.cell a).r) = ps.map Int.ofNat := by
    intro l
    induction l with
    | nil => intro _; exact ⟨[], rfl, rfl⟩
    | cons a l ih =>
      intro h
      obtain ⟨ps, h1, h2⟩ := ih fun b hb => h b (by simp [hb])
      obtain ⟨i, hi, hia⟩ := List.mem_iff_getElem.1 (h a (by simp))
      refine ⟨i :: ps, ?_, ?_⟩
      · rw [List.map_cons, List.map_cons, List.map_cons, h1]
        congr 1
        show ((w.heap.lst 0).map fun a => (w.heap.cell a).ref)[i]? = _
        rw [List.getElem?_map, List.getElem?_eq_getElem hi, hia]
        rfl
      · rw [List.map_cons, List.map_cons, h2]
        congr 1
        have := g.idx i hi
        rw [hia] at this
        exact this
  exact key (w.heap.lst t) fun a ha => (g.sub t ht).mem ha

theorem positions_unique {w : World} {L : Nat → Prop} (r : WReach w L) {t : Nat} {ps qs : List Nat}
    (hp : AtPositions w t ps) (hq : AtPositions w t qs) : ps = qs := by
  have hnd := refs_nodup r (L0 r)
  unfold AtPositions at hp hq
  have hlt : ∀ l : List Nat, l.map (fun i => (w.refs 0)[i]?) = (w.refs t).map some → ∀ i ∈ l, i < (w.refs 0).length := by
    intro l hl i hi
    have : (w.refs 0)[i]? ∈ (w.refs t).map some := by rw [← hl]; exact List.mem_map.2 ⟨i, hi, rfl⟩
    obtain ⟨y, _, hy⟩ := List.mem_map.1 this
    exact (List.getElem?_eq_some_iff.1 hy.symm).1
  refine map_inj_on (f := fun i => (w.refs 0)[i]?) (S := fun i => i < (w.refs 0).length) ?_ (hlt ps hp) (hlt qs hq) (hp.trans hq.symm)
  intro a b ha _ hab
  exact (List.getElem?_inj ha hnd).1 hab

theorem eqTree_positions {w w' : World} {L L' : Nat → Prop} (r : WReach w L) (r' : WReach w' L') {t t' : Nat} (ht : L t) (ht' : L' t') :
    w.eqTree t w' t' = true ↔ ∃ ps, AtPositions w t ps ∧ AtPositions w' t' ps := by
  obtain ⟨ps, h1, h2⟩ := map_r r ht
  obtain ⟨qs, h1', h2'⟩ := map_r r' ht'
  unfold World.eqTree
  rw [h2, h2', beq_iff_eq]
  constructor
  · intro h
    have : ps = qs := map_inj_on (f := Int.ofNat) (S := fun _ => True) (fun a b _ _ e => Int.ofNat.inj e) (fun _ _ => trivial)
      (fun _ _ => trivial) h
    exact ⟨ps, h1, this ▸ h1'⟩
  · rintro ⟨xs, hx, hx'⟩
    rw [positions_unique r h1 hx, positions_unique r' h1' hx']

/-- C93, two models of any projects in any states: comparing them raises `TypeError` if their classes differ; otherwise they are
equal exactly if their events are at the same positions of their projects - whatever the events are. -/
theorem C93_exact {w w' : World} {L L' : Nat → Prop} (r : WReach w L) (r' : WReach w' L') {c d : Chan} (hc : L c.tree) (hd : L' d.tree) :
    (c.cls ≠ d.cls → w.chanEq c w' d = .error .typeError) ∧
    (c.cls = d.cls → ∃ b, w.chanEq c w' d = .ok b ∧
      (b = true ↔ ∃ ps, AtPositions w c.tree ps ∧ AtPositions w' d.tree ps)) := by
  refine ⟨C93_classes_refuted w w' c d, fun hcls => ⟨w'.eqTree d.tree w c.tree, ?_, ?_⟩⟩
  · unfold World.chanEq World.chanDunderEq
    rw [if_neg (by simp [hcls]), if_pos (by simp [ChClass.isa, hcls])]
  · rw [eqTree_positions r' r hd hc]
    exact ⟨fun ⟨ps, a, b⟩ => ⟨ps, b, a⟩, fun ⟨ps, a, b⟩ => ⟨ps, b, a⟩⟩

open Demo in
/-- Two different projects with equally many events: the channels at the same positions are equal. -/
example : ∃ ps, AtPositions songWorld 0 ps ∧ AtPositions (World.ofProject { song with events := song.events.reverse }) 0 ps :=
  ⟨List.range 11, by unfold AtPositions; decide +kernel, by unfold AtPositions; decide +kernel⟩

end PyFLP
