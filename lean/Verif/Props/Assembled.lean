import Verif.Props.Copies
/-!
# C151: projects put together from events of opened files
-/

namespace PyFLP

open Spec

namespace Spec

/-- An event of a file that can be opened. -/
def FromFile [FloatEnv] (e : Event) : Prop := ∃ file p, parseFile file = .ok p ∧ e ∈ p.events

/-- Every event has the class that belongs to its place: declared classes and those of number and raw ids anywhere, texts by the closest
version before them, plugin data by the closest internal name before it. -/
def InPlace (evs : List Event) : Prop :=
  ∀ before e after, evs = before ++ e :: after → kindOf before e.id = some e.kind

/-- The events that are left if those at the places `removed` are taken out. -/
def without (removed : List Nat) (evs : List Event) : List Event :=
  (evs.zipIdx.filter fun x => decide (x.2 ∉ removed)).map Prod.fst

end Spec

/-! ### What is left -/

theorem without_concat (d : List Nat) (l : List Event) (e : Event) :
    without d (l ++ [e]) = without d l ++ if l.length ∈ d then [] else [e] := by
  unfold without
  rw [List.zipIdx_append, List.filter_append, List.map_append]
  congr 1
  by_cases h : l.length ∈ d <;> simp [h]

theorem without_take {d : List Nat} {l x y : List Event} {e : Event} (h : without d l = x ++ e :: y) :
    ∃ j, l[j]? = some e ∧ j ∉ d ∧ x = without d (l.take j) := by
  induction l using List.reverseRecOn generalizing y with
  | nil => cases x <;> cases h
  | append_singleton l e0 ih =>
    have lift : (∃ j, l[j]? = some e ∧ j ∉ d ∧ x = without d (l.take j)) →
        ∃ j, (l ++ [e0])[j]? = some e ∧ j ∉ d ∧ x = without d ((l ++ [e0]).take j) := by
      rintro ⟨j, h1, h2, h3⟩
      have hj := (List.getElem?_eq_some_iff.1 h1).1
      exact ⟨j, by rw [List.getElem?_append_left hj]; exact h1, h2, by rw [List.take_append_of_le_length (by omega)]; exact h3⟩
    rw [without_concat] at h
    split at h
    · rw [List.append_nil] at h
      exact lift (ih h)
    · next hd =>
      rcases List.eq_nil_or_concat y with rfl | ⟨y', z, rfl⟩
      · obtain ⟨q1, q2⟩ := List.append_inj' h rfl
        cases q2
        exact ⟨l.length, by simp, hd, by rw [List.take_left]; exact q1.symm⟩
      · rw [List.concat_eq_append] at h
        have : x ++ e :: (y' ++ [z]) = (x ++ e :: y') ++ [z] := by simp
        rw [this] at h
        exact lift (ih (List.append_inj' h rfl).1)

theorem lastStr_without {d : List Nat} {id : Nat} {l : List Event}
    (h : ∀ (i : Nat) (n : Event), l[i]? = some n → n.id = id → (∀ (m : Nat) (x : Event), i < m → l[m]? = some x → x.id ≠ id) → i ∉ d) :
    lastStr id (without d l) = lastStr id l := by
  induction l using List.reverseRecOn with
  | nil => rfl
  | append_singleton l e ih =>
    rw [without_concat, lastStr_append]
    by_cases he : e.id = id
    · have hk := h l.length e (by simp) he (fun m x hm hx => by
        have := (List.getElem?_eq_some_iff.1 hx).1
        simp at this
        omega)
      rw [if_neg hk, lastStr_append, if_pos he, if_pos he]
    · rw [if_neg he]
      have hi : lastStr id (without d l) = lastStr id l := ih fun i n hn hid hm => by
        have hi := (List.getElem?_eq_some_iff.1 hn).1
        refine h i n (by rw [List.getElem?_append_left hi]; exact hn) hid fun m x hlt hx => ?_
        by_cases hml : m < l.length
        · rw [List.getElem?_append_left hml] at hx
          exact hm m x hlt hx
        · rw [List.getElem?_append_right (by omega)] at hx
          have : m - l.length = 0 := by
            have := (List.getElem?_eq_some_iff.1 hx).1
            simp at this
            omega
          rw [this] at hx
          cases hx
          exact he
      split
      · rw [List.append_nil]; exact hi
      · rw [lastStr_append, if_neg he]; exact hi

theorem without_eq (d : List Nat) (l : List Event) :
    without d l = ((List.range l.length).filter fun i => decide (i ∉ d)).map fun i => l.getD i default := by
  have hz : l.zipIdx = (List.range l.length).map fun i => (l.getD i default, i) := by
    apply List.ext_getElem?
    intro i
    rw [List.getElem?_zipIdx, List.getElem?_map]
    by_cases hi : i < l.length
    · rw [List.getElem?_eq_getElem hi, List.getElem?_range hi]
      simp [List.getD_eq_getElem?_getD, List.getElem?_eq_getElem hi]
    · rw [List.getElem?_eq_none (by omega), List.getElem?_eq_none (by simpa using hi)]
      rfl
  unfold without
  rw [hz, List.filter_map, List.map_map]
  rfl

/-- After a history of views, removals and header changes the project has the events that were not removed. -/
theorem removed_events {p : Project} {w : World} {L : Nat → Prop} {d : List Nat} (r : Edited p w L 0 [] d) :
    w.project.events = without d p.events := by
  obtain ⟨h1, h2, h3⟩ := edited_refs r
  have hall : (w.refs 0).filter (fun i => decide (i < p.events.length)) = w.refs 0 := by
    refine List.filter_eq_self.2 fun i hi => ?_
    rw [World.refs_eq] at hi
    obtain ⟨y, hy, rfl⟩ := List.mem_map.1 hi
    have := ((wreach_inv r.reach).2 y hy).1
    simp
    omega
  rw [hall] at h2
  show (w.refs 0).map w.ev = _
  rw [h2, without_eq]
  refine List.map_congr_left fun i hi => ?_
  have hlt : i < p.events.length := List.mem_range.1 (List.mem_filter.1 hi).1
  unfold World.ev
  rw [List.getD_eq_getElem?_getD, h3 i hlt (by simp), List.getD_eq_getElem?_getD]

variable [FloatEnv]

theorem fromFile_decodes {e : Event} (h : FromFile e) : ∃ b f, f.1 < 256 ∧ DecodesTo b f e := by
  obtain ⟨file, p, hp, he⟩ := h
  obtain ⟨_, _, _, _, _, _, _, _, _, _, data, _, _, _, _, _, _, _, _, fs, hsp, hd⟩ := parse_iff.1 hp
  obtain ⟨pre, post, hpp⟩ := List.append_of_mem he
  obtain ⟨fs1, f, fs2, hfs, -, hdt⟩ := decoded_split hd hpp
  exact ⟨_, f, splits_ids hsp f (by rw [hfs]; simp), hdt⟩

theorem assembled_decoded {b : List Event} {evs : List Event} (h : ∀ e ∈ evs, FromFile e)
    (hk : ∀ x e y, evs = x ++ e :: y → kindOf (b ++ x) e.id = some e.kind) : ∃ fs, Decoded b fs evs ∧ ∀ f ∈ fs, f.1 < 256 := by
  induction evs generalizing b with
  | nil => exact ⟨[], .nil, by simp⟩
  | cons e evs ih =>
    obtain ⟨b', f, hi, d⟩ := fromFile_decodes (h e (by simp))
    obtain ⟨fs, q1, q2⟩ := ih (b := b ++ [e]) (fun x hx => h x (by simp [hx])) (fun x y z hxyz => by
      have := hk (e :: x) y z (by rw [hxyz]; rfl)
      simpa using this)
    have hke := hk [] e evs rfl
    rw [List.append_nil, d.id] at hke
    refine ⟨f :: fs, .cons ⟨d.id, d.len, hke, d.value, d.size1, d.size2, d.size4, d.version⟩ q1, ?_⟩
    intro g hg
    rcases List.mem_cons.1 hg with rfl | hg
    · exact hi
    · exact q2 g hg

theorem reread_inPlace {b b' : List Event} {evs evs' : List Event} (h : ∀ e ∈ evs, FromFile e) (hp : ∀ e ∈ evs, e.payload = .ok e.pay)
    (hd : Decoded b' (evs.map Event.fr) evs') (hs : evs'.map (fun e => (e.id, e.kind)) = evs.map fun e => (e.id, e.kind))
    (h1 : lastStr 199 b = lastStr 199 b') (h2 : lastStr 201 b = lastStr 201 b') :
    ∀ x e y, evs = x ++ e :: y → kindOf (b ++ x) e.id = some e.kind := by
  induction evs generalizing b b' evs' with
  | nil =>
    intro x e y hxy
    cases x <;> cases hxy
  | cons e evs ih =>
    cases hd with
    | @cons _ _ e' _ evs' d t =>
      rw [List.map_cons, List.map_cons, List.cons.injEq, Prod.mk.injEq] at hs
      obtain ⟨⟨i1, i2⟩, hs⟩ := hs
      have hk : kindOf b e.id = some e.kind := by
        rw [kindOf_last h1 h2, ← i2]
        exact d.kind
      obtain ⟨b0, f0, -, d0⟩ := fromFile_decodes (h e (by simp))
      have hval : e.id = 199 ∨ e.id = 201 → e'.value = e.value := by
        intro hid
        have hbuild : e.kind.build f0.2.length e.value = .ok e.pay := by
          have := hp e (by simp)
          unfold Event.payload at this
          rwa [d0.len] at this
        have hv := d.value
        rw [i2] at hv
        exact text_stable (kindOf_text hid hk) d0.value hbuild hv
      have step : ∀ id, id = 199 ∨ id = 201 → lastStr id b = lastStr id b' → lastStr id (b ++ [e]) = lastStr id (b' ++ [e']) := by
        intro id hid hb
        rw [lastStr_append, lastStr_append, i1]
        split
        · next hh =>
          rw [hval (by rw [hh]; exact hid)]
        · exact hb
      have := ih (fun x hx => h x (by simp [hx])) (fun x hx => hp x (by simp [hx])) t hs (step 199 (.inl rfl) h1) (step 201 (.inr rfl) h2)
      intro x y z hxyz
      cases x with
      | nil =>
        simp only [List.nil_append, List.cons.injEq] at hxyz
        obtain ⟨rfl, rfl⟩ := hxyz
        rw [List.append_nil]
        exact hk
      | cons e1 x =>
        simp only [List.cons_append, List.cons.injEq] at hxyz
        obtain ⟨rfl, hxyz⟩ := hxyz
        have := this x y z hxyz
        simpa using this

/-- Values that are read back. -/
theorem assembled_value {e e' : Event} (h : FromFile e) (hp : e.payload = .ok e.pay) (hr : Reopened e e')
    (hval : Simple e ∨ validValue e.kind e.len e.value) : e'.value = e.value := by
  obtain ⟨b, f, -, hdt⟩ := fromFile_decodes h
  have hbuild : e.kind.build f.2.length e.value = .ok e.pay := by
    have := hp
    unfold Event.payload at this
    rwa [hdt.len] at this
  have hst : ∃ c, StoredAs e.kind f.2.length e.value c := by
    rcases hval with ⟨n1, n2, n3⟩ | hval
    · refine kind_stable hdt.value ?_
      cases hkk : e.kind with
      | struct s => exact absurd hkk (n1 s)
      | list l => exact absurd hkk (n2 l)
      | vst => exact absurd hkk n3
      | _ => trivial
    · rw [hdt.len] at hval
      exact kind_roundtrip hval
  obtain ⟨c, q1, q2, -⟩ := hst
  rw [q1] at hbuild
  have := hr.2.2.2
  rw [← Except.ok.inj hbuild, q2] at this
  exact (Except.ok.inj this).symm

/-- **C151.** A project whose events come from files that can be opened, any of them, in any order and number, is saved.  The file opens
as a project with these events, with the same ids and classes, exactly if each event has the class that belongs to its place. -/
theorem C151_exact (p : Project) (hf : p.format ∈ formats) (hq : p.ppq ∈ ppqs) (h : ∀ e ∈ p.events, FromFile e) {saved : Bytes}
    (hs : saveBytes p = .ok saved) :
    (∃ q, parseFile saved = .ok q ∧ q.events.map (fun e => (e.id, e.kind)) = p.events.map fun e => (e.id, e.kind)) ↔
      InPlace p.events := by
  constructor
  · rintro ⟨q, hq', hsame⟩
    obtain ⟨u0, u1, d0, d1, r0, r1, t0, t1, t2, t3, k1, k2, k3, k4, k5, k6⟩ := saveBytes_ok hs
    obtain ⟨f0, f1, c0, c1, p0, p1, s0, s1, s2, s3, data, g1, g2, g3, g4, g5, g6, g7, g8, fs, hsp, hd⟩ := parse_iff.1 hq'
    have hdata : data = frames (p.events.map Event.fr) := by
      rw [k1] at g1
      exact (List.append_inj g1 rfl).2.symm
    have hfo : ∀ f ∈ p.events.map Event.fr, FrameOK f := by
      intro f hfm
      obtain ⟨e, he, rfl⟩ := List.mem_map.1 hfm
      obtain ⟨b, f, hi, hdt⟩ := fromFile_decodes (h e he)
      have hw := fun n => saved_width (n := n) hi hdt (k6 e he).2
      have hlt := frames_mem_length hfm
      have hdw := dword_lt t0 t1 t2 t3
      refine ⟨(k6 e he).1, ?_, ?_, ?_, fun _ => ?_⟩
      · intro h; exact hw 1 (by simp [fixedSize, show e.id < 64 from h])
      · rintro ⟨a, b⟩
        have a : 64 ≤ e.id := a
        have b : e.id < 128 := b
        exact hw 2 (by unfold fixedSize; rw [if_neg (Nat.not_lt.2 a), if_pos b])
      · rintro ⟨a, b⟩
        have a : 128 ≤ e.id := a
        have b : e.id < 192 := b
        exact hw 4 (by unfold fixedSize; rw [if_neg (by omega), if_neg (by omega), if_pos b])
      · omega
    rw [hdata] at hsp
    rw [splits_unique hsp (splits_frames hfo)] at hd
    exact reread_inPlace (b := []) h (fun e he => (k6 e he).2) hd hsame rfl rfl
  · intro hk
    obtain ⟨fs, hd, hi⟩ := assembled_decoded (b := []) h hk
    obtain ⟨q, o1, -, -, -, o5⟩ := opens_decoded hd hi hf hq hs
    exact ⟨q, o1, pointwise_eq (fun a b r => by rw [r.1, r.2.1]) o5⟩

/-- **C151**, what is read: with every event in its place the file opens with the format and resolution of the project, the number of its
channels and its events; numbers, texts, colours and raw data, and all values their class can represent, are the same. -/
theorem C151_reopened (p : Project) (hf : p.format ∈ formats) (hq : p.ppq ∈ ppqs) (h : ∀ e ∈ p.events, FromFile e) (hk : InPlace p.events)
    {saved : Bytes} (hs : saveBytes p = .ok saved) :
    ∃ q, parseFile saved = .ok q ∧ q.format = p.format ∧ q.ppq = p.ppq ∧ q.channelCount = channelStarts p.events ∧
      q.events.map (fun e => (e.id, e.kind)) = p.events.map (fun e => (e.id, e.kind)) ∧
      ∀ (i : Nat) (e e' : Event), p.events[i]? = some e → q.events[i]? = some e' →
        Simple e ∨ validValue e.kind e.len e.value → e'.value = e.value := by
  obtain ⟨fs, hd, hi⟩ := assembled_decoded (b := []) h hk
  obtain ⟨q, o1, o2, o3, o4, o5⟩ := opens_decoded hd hi hf hq hs
  refine ⟨q, o1, o2, o3, o4, pointwise_eq (fun a b r => by rw [r.1, r.2.1]) o5, ?_⟩
  intro i e e' he he' hval
  obtain ⟨u0, u1, d0, d1, r0, r1, t0, t1, t2, t3, k1, k2, k3, k4, k5, k6⟩ := saveBytes_ok hs
  have hm := List.mem_of_getElem? he
  exact assembled_value (h e hm) (k6 e hm).2 (pointwise_get o5 he he') hval

/-- **C151**, removals: events are removed from an opened project, through any views and in any order.  If the version that decides about a
text, and the name that decides about plugin data, is left when they are left, the project, once saved, opens as what is left: the same ids
and classes, and the same values as in `C151_reopened`. -/
theorem C151_removed {file : Bytes} {p : Project} (hp : parseFile file = .ok p) {w : World} {L : Nat → Prop} {d : List Nat}
    (r : Edited p w L 0 [] d) (hf : w.format ∈ formats) (hq : w.ppq ∈ ppqs)
    (needs : ∀ (i j : Nat) (n e : Event), i < j → p.events[i]? = some n → p.events[j]? = some e → j ∉ d →
      (untypedText e.id ∧ n.id = 199) ∨ (e.id = 213 ∧ n.id = 201) →
      (∀ (m : Nat) (x : Event), i < m → m < j → p.events[m]? = some x → x.id ≠ n.id) → i ∉ d)
    {saved : Bytes} (hs : saveBytes w.project = .ok saved) :
    ∃ q, parseFile saved = .ok q ∧ q.format = w.format ∧ q.ppq = w.ppq ∧ q.channelCount = channelStarts (without d p.events) ∧
      q.events.map (fun e => (e.id, e.kind)) = (without d p.events).map (fun e => (e.id, e.kind)) ∧
      ∀ (i : Nat) (e e' : Event), (without d p.events)[i]? = some e → q.events[i]? = some e' →
        Simple e ∨ validValue e.kind e.len e.value → e'.value = e.value := by
  have hev := removed_events r
  rw [← hev]
  refine C151_reopened w.project hf hq ?_ ?_ hs
  · intro e he
    rw [hev] at he
    obtain ⟨x, hx, rfl⟩ := List.mem_map.1 he
    exact ⟨file, p, hp, List.fst_mem_of_mem_zipIdx (List.mem_filter.1 hx).1⟩
  · intro x e y hxy
    rw [hev] at hxy
    obtain ⟨j, h1, h2, rfl⟩ := without_take hxy
    have hj := (List.getElem?_eq_some_iff.1 h1).1
    have hpl := (parseFile_wellTyped hp (p.events.take j) e (p.events.drop (j + 1)) (by
      have : e = p.events[j] := by
        rw [List.getElem?_eq_getElem hj] at h1
        exact (Option.some.inj h1).symm
      rw [this, ← List.drop_eq_getElem_cons hj, List.take_append_drop])).2.1
    rw [← hpl]
    have key : ∀ id, (untypedText e.id ∧ id = 199) ∨ (e.id = 213 ∧ id = 201) →
        lastStr id (without d (p.events.take j)) = lastStr id (p.events.take j) := by
      intro id hid
      refine lastStr_without fun i n hn hnid hm => ?_
      have hlt := (List.getElem?_eq_some_iff.1 hn).1
      rw [List.length_take] at hlt
      rw [List.getElem?_take_of_lt (by omega)] at hn
      refine needs i j n e (by omega) hn h1 h2 (by rw [hnid]; exact hid) fun m x hmi hmj hx => ?_
      rw [hnid]
      exact hm m x hmi (by rw [List.getElem?_take_of_lt hmj]; exact hx)
    exact kindOf_needs (fun hu => key 199 (.inl ⟨hu, rfl⟩)) (fun h213 => key 201 (.inr ⟨h213, rfl⟩))

omit [FloatEnv] in
theorem inPlace_iff {evs : List Event} :
    InPlace evs ↔ ∀ i < evs.length, kindOf (evs.take i) (evs.getD i default).id = some (evs.getD i default).kind := by
  constructor
  · intro h i hi
    have e1 : evs.getD i default = evs[i] := by rw [List.getD_eq_getElem?_getD, List.getElem?_eq_getElem hi]; rfl
    rw [e1]
    exact h (evs.take i) evs[i] (evs.drop (i + 1)) (by rw [← List.drop_eq_getElem_cons hi, List.take_append_drop])
  · rintro h x e y rfl
    have := h x.length (by simp)
    rw [List.take_left, List.getD_eq_getElem?_getD, List.getElem?_append_right (Nat.le_refl _), Nat.sub_self] at this
    exact this

namespace AssembledDemo

open SurvivalDemo CopyDemo

/-- The channels of two projects in one, the second one of the first project before the first one. -/
def mixed : Project := ⟨0, 2, 96, small.events.take 1 ++ (small.events.drop 3) ++ (small.events.drop 1).take 2 ++ (older.events.drop 1).take 1⟩

/-- The same with the name of the old channel. -/
def garbled : Project := ⟨0, 2, 96, mixed.events ++ older.events.drop 2⟩

theorem garbled_fromFile : ∀ e ∈ garbled.events, FromFile e := by
  have h1 : ∀ e ∈ garbled.events, e ∈ small.events ∨ e ∈ older.events := by decide +kernel
  intro e he
  rcases h1 e he with h | h
  · exact ⟨_, _, small_opened, h⟩
  · exact ⟨_, _, older_opened, h⟩

theorem garbled_saved : ∃ saved, saveBytes garbled = .ok saved := by
  have hb : eventsBytes garbled.events = .ok (frames (garbled.events.map Event.fr)) := eventsBytes_eq (by
    intro e he
    have h1 : ∀ e ∈ garbled.events, e ∈ small.events ++ older.events := by decide +kernel
    have he := h1 e he
    simp only [small, older, List.cons_append, List.nil_append, List.mem_cons, List.not_mem_nil, or_false] at he
    rcases he with rfl | rfl | rfl | rfl | rfl | rfl | rfl | rfl <;> exact ⟨by decide, _, rfl⟩)
  have hf : garbled.events.map Event.fr = [(199, [50, 48, 46, 56, 46, 51, 0]), (64, [1, 0]), (255, [1, 2, 3]), (64, [0, 0]),
      (203, [66, 0, 97, 0, 115, 0, 115, 0, 0, 0]), (64, [0, 0]), (203, [66, 97, 115, 115, 0])] := rfl
  have hl : frames [(199, [50, 48, 46, 56, 46, 51, 0]), (64, [1, 0]), (255, [1, 2, 3]), (64, [0, 0]),
      (203, [66, 0, 97, 0, 115, 0, 115, 0, 0, 0]), (64, [0, 0]), (203, [66, 97, 115, 115, 0])] =
      [199, 7, 50, 48, 46, 56, 46, 51, 0] ++ [64, 1, 0] ++ [255, 3, 1, 2, 3] ++ [64, 0, 0] ++
        [203, 10, 66, 0, 97, 0, 115, 0, 115, 0, 0, 0] ++ [64, 0, 0] ++ [203, 5, 66, 97, 115, 115, 0] := by
    simp [frames, frame, Demo.varBuild_small]
  unfold saveBytes
  rw [show channelLen garbled.events = .ok 3 from rfl, hb, hf, hl]
  exact ⟨_, rfl⟩

/-- The demo project without its second channel. -/
def lessOne : World := { World.ofProject small with heap := ((World.ofProject small).heap.pop 0 64 1).1 }

end AssembledDemo

open AssembledDemo in
/-- Mixed channels are in their place; with the name of the channel from the old project they are not, and so, although it can be saved, it
does not open as it was. -/
example : InPlace mixed.events ∧ ¬ InPlace garbled.events ∧ ∃ saved, saveBytes garbled = .ok saved ∧
    ¬ ∃ q, parseFile saved = .ok q ∧ q.events.map (fun e => (e.id, e.kind)) = garbled.events.map fun e => (e.id, e.kind) := by
  have hg : ¬ InPlace garbled.events := fun h => absurd (inPlace_iff.1 h) (by decide +kernel)
  obtain ⟨saved, hs⟩ := garbled_saved
  exact ⟨inPlace_iff.2 (by decide +kernel), hg, saved, hs,
    fun h => hg ((C151_exact garbled (by decide) (by decide) garbled_fromFile hs).1 h)⟩

open SurvivalDemo AssembledDemo in
/-- Taking out the second channel of the demo project: the hypotheses of `C151_removed` are met. -/
example : ∃ L, Edited small lessOne L 0 [] [3] ∧ without [3] small.events = small.events.take 3 ++ small.events.drop 4 ∧
    ∀ (i j : Nat) (n e : Event), i < j → small.events[i]? = some n → small.events[j]? = some e → j ∉ [3] →
      (untypedText e.id ∧ n.id = 199) ∨ (e.id = 213 ∧ n.id = 201) →
      (∀ (m : Nat) (x : Event), i < m → m < j → small.events[m]? = some x → x.id ≠ n.id) → i ∉ [3] := by
  refine ⟨_, .pop .opened (t := 0) (id := 64) (k := 1) (x := 3) rfl (Prod.ext rfl (by decide +kernel)), by decide +kernel, ?_⟩
  intro i j n e _ hn _ _ hid _ hi
  rw [List.mem_singleton] at hi
  subst hi
  cases hn
  rcases hid with ⟨-, h⟩ | ⟨-, h⟩ <;> exact absurd h (by decide)

end PyFLP
