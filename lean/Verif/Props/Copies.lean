import Verif.Props.Savable
import Verif.Props.Foreign
import Verif.Props.Inserts
import Verif.Props.Survival
/-!
# C150: events copied into another project
-/

namespace PyFLP

open Spec

namespace Spec

/-- Plugin data comes after the internal name of its plugin. -/
def NamedPlugins (es : List Event) : Prop :=
  ∀ before e after, es = before ++ e :: after → e.id = 213 → ∃ n ∈ before, n.id = 201

/-- `for i, e in enumerate(es): project.events.insert(k + i, e)` (`EventTree.insert`, `_events.py:517-527`). -/
def copyIn (w : World) (k : Nat) (es : List Event) : World × Py Unit :=
  let r := insertRun w.heap 0 k ((es.zipIdx w.store.length).map fun x => (x.2, x.1.id))
  ({ w with heap := r.1, store := w.store ++ es }, r.2)

/-- Events whose class is neither a struct nor a list nor that of VST plugins: numbers, texts, colours, raw data. -/
def Simple (e : Event) : Prop := (∀ s, e.kind ≠ .struct s) ∧ (∀ l, e.kind ≠ .list l) ∧ e.kind ≠ .vst

end Spec

/-! ### Insertion -/

theorem zipIdx_refs (es : List Event) (n : Nat) :
    ((es.zipIdx n).map fun x => (x.2, x.1.id)).map Prod.fst = List.range' n es.length := by
  rw [List.map_map]
  have : (Prod.fst ∘ fun x : Event × Nat => (x.2, x.1.id)) = Prod.snd := rfl
  rw [this, List.zipIdx_map_snd]

/-- Events inserted one after the other before an event of a project come to stand there. -/
theorem copyIn_events (q : Project) {k : Nat} (hk : k < q.events.length) (es : List Event) :
    (copyIn (World.ofProject q) k es).2 = .ok () ∧
      (copyIn (World.ofProject q) k es).1.project = { q with events := q.events.take k ++ es ++ q.events.drop k } := by
  obtain ⟨hr, hlt⟩ := wreach_inv (.parsed q)
  have hsh : shown (World.ofProject q).heap 0 = q.events.zipIdx.map fun x => (x.2, x.1.id) := shown_ofEvents _
  have hstore : (World.ofProject q).store = q.events := rfl
  have hf : (shown (World.ofProject q).heap 0)[k]? = some (k, q.events[k].id) := by
    rw [hsh, List.getElem?_map, List.getElem?_zipIdx, List.getElem?_eq_getElem hk]
    simp
  obtain ⟨h', e1, e2⟩ := C24_run_fresh hr rfl hf ((es.zipIdx q.events.length).map fun x => (x.2, x.1.id))
    (by rw [zipIdx_refs]; exact List.nodup_range')
    (by
      intro e he hm
      have h1 := List.mem_map_of_mem (f := Prod.fst) he
      rw [zipIdx_refs, List.mem_range'_1] at h1
      obtain ⟨y, hy, h2⟩ := List.mem_map.1 hm
      have := (hlt y hy).1
      rw [hstore] at this
      omega)
  obtain ⟨i, h1, h2⟩ := e2 0 (by simp)
  have hi : i = k := by
    rw [hsh, List.getElem?_map, List.getElem?_zipIdx] at h1
    obtain ⟨x, hx, hx'⟩ := Option.map_eq_some_iff.1 h1
    obtain ⟨y, -, rfl⟩ := Option.map_eq_some_iff.1 hx
    have := congrArg Prod.fst hx'
    simpa using this
  subst hi
  have hc : copyIn (World.ofProject q) i es = ({ World.ofProject q with heap := h', store := q.events ++ es }, .ok ()) := by
    unfold copyIn
    rw [hstore, e1]
  rw [hc]
  refine ⟨rfl, ?_⟩
  show Project.mk _ _ _ _ = _
  congr 1
  unfold World.events
  rw [World.refs_eq, h2, hsh]
  have hev : ∀ x, World.ev { World.ofProject q with heap := h', store := q.events ++ es } x = (q.events ++ es).getD x default := fun _ => rfl
  have old : (q.events.zipIdx.map fun x => (x.2, x.1.id)).map
      (fun x => World.ev { World.ofProject q with heap := h', store := q.events ++ es } x.1) = q.events := by
    apply List.ext_getElem?
    intro j
    rw [List.getElem?_map, List.getElem?_map, List.getElem?_zipIdx]
    by_cases hj : j < q.events.length
    · rw [List.getElem?_eq_getElem hj]
      simp only [Option.map_some, hev, Nat.zero_add]
      rw [List.getD_eq_getElem?_getD, List.getElem?_append_left hj, List.getElem?_eq_getElem hj]
      rfl
    · rw [List.getElem?_eq_none (by omega)]
      rfl
  have new : ((es.zipIdx q.events.length).map fun x => (x.2, x.1.id)).map
      (fun x => World.ev { World.ofProject q with heap := h', store := q.events ++ es } x.1) = es := by
    apply List.ext_getElem?
    intro j
    rw [List.getElem?_map, List.getElem?_map, List.getElem?_zipIdx]
    by_cases hj : j < es.length
    · rw [List.getElem?_eq_getElem hj]
      simp only [Option.map_some, hev]
      rw [List.getD_eq_getElem?_getD, List.getElem?_append_right (by omega), Nat.add_sub_cancel_left, List.getElem?_eq_getElem hj]
      rfl
    · rw [List.getElem?_eq_none (by omega)]
      rfl
  rw [List.map_map]
  show List.map (fun x : Ev => World.ev { World.ofProject q with heap := h', store := q.events ++ es } x.1) _ = _
  rw [List.map_append, List.map_append, List.map_take, List.map_drop, old, new]

/-! ### Decoding elsewhere -/

theorem textKind_last {b b' : List Event} (h : lastStr 199 b = lastStr 199 b') : textKind b = textKind b' := by
  unfold textKind
  rw [h]

theorem textKind_snoc {b b' : List Event} (e : Event) (h : textKind b = textKind b') : textKind (b ++ [e]) = textKind (b' ++ [e]) := by
  by_cases he : e.id = 199
  · exact textKind_last (by rw [lastStr_append, lastStr_append, if_pos he, if_pos he])
  · rw [textKind_last (show lastStr 199 (b ++ [e]) = lastStr 199 b by rw [lastStr_append, if_neg he]),
      textKind_last (show lastStr 199 (b' ++ [e]) = lastStr 199 b' by rw [lastStr_append, if_neg he]), h]

theorem lastStr_skip {id : Nat} {b es : List Event} (h : ∀ e ∈ es, e.id ≠ id) : lastStr id (b ++ es) = lastStr id b := by
  unfold lastStr
  have : es.filter (fun e => decide (e.id = id)) = [] := List.filter_eq_nil_iff.2 fun e he => by simpa using h e he
  rw [List.filter_append, this, List.append_nil]

theorem kindOf_place {b b' : List Event} {id : Nat} (h1 : textKind b = textKind b') (h2 : id = 213 → lastStr 201 b = lastStr 201 b') :
    kindOf b id = kindOf b' id := by
  unfold kindOf
  rw [h1]
  have : id = 213 → pluginKind b = pluginKind b' := fun h => by unfold pluginKind; rw [h2 h]
  split
  · rfl
  · repeat' split
    all_goals first | rfl | exact congrArg some (this (by assumption))

variable [FloatEnv]

/-- Events mean the same after other events with the same text encoding, if plugin data comes with the name of the plugin. -/
theorem decoded_moved {b b' : List Event} {fs : List (Nat × Bytes)} {evs : List Event} (h : Decoded b fs evs)
    (h1 : textKind b = textKind b') (h2 : lastStr 201 b = lastStr 201 b' ∨ NamedPlugins evs) : Decoded b' fs evs := by
  induction h generalizing b' with
  | nil => exact .nil
  | @cons before f e fs evs d t ih =>
    have hk : kindOf before f.1 = kindOf b' f.1 := by
      refine kindOf_place h1 fun h213 => ?_
      rcases h2 with h2 | h2
      · exact h2
      · obtain ⟨n, hn, -⟩ := h2 [] e evs rfl (by rw [d.id]; exact h213)
        cases hn
    refine .cons ⟨d.id, d.len, by rw [← hk]; exact d.kind, d.value, d.size1, d.size2, d.size4, d.version⟩ (ih (textKind_snoc e h1) ?_)
    by_cases he : e.id = 201
    · exact .inl (by rw [lastStr_append, lastStr_append, if_pos he, if_pos he])
    · rcases h2 with h2 | h2
      · exact .inl (by rw [lastStr_append, lastStr_append, h2])
      · refine .inr fun x y z hxyz hy => ?_
        obtain ⟨n, hn, hn'⟩ := h2 (e :: x) y z (by rw [hxyz]; rfl) hy
        rcases List.mem_cons.1 hn with rfl | hn
        · exact absurd hn' he
        · exact ⟨n, hn, hn'⟩

/-- The events of one file among those of another. -/
theorem decoded_copied {f1 f2 : List (Nat × Bytes)} {a es b l r : List Event} (hp : Decoded [] f1 (a ++ es ++ b)) (hq : Decoded [] f2 (l ++ r))
    (i1 : ∀ f ∈ f1, f.1 < 256) (i2 : ∀ f ∈ f2, f.1 < 256) (hv : ∀ e ∈ es, e.id ≠ 199) (ht : textKind a = textKind l)
    (hn : NamedPlugins es) (hr : (∀ e ∈ es, e.id ≠ 201) ∨ NamedPlugins r) :
    ∃ fs, Decoded [] fs (l ++ es ++ r) ∧ ∀ f ∈ fs, f.1 < 256 := by
  have cut : ∀ {b : List Event} {fs : List (Nat × Bytes)} {x y : List Event}, Decoded b fs (x ++ y) →
      ∃ g h, fs = g ++ h ∧ g.length = x.length ∧ Decoded b g x ∧ Decoded (b ++ x) h y := by
    intro b fs x
    induction x generalizing b fs with
    | nil => intro y h; exact ⟨[], fs, rfl, rfl, .nil, by simpa using h⟩
    | cons e x ih =>
      intro y h
      cases h with
      | cons d t =>
        obtain ⟨g, h', rfl, hl, q1, q2⟩ := ih t
        exact ⟨_ :: g, h', rfl, by simp [hl], .cons d q1, by simpa using q2⟩
  obtain ⟨g1, g2, rfl, hl1, d1, -⟩ := cut hp
  obtain ⟨g3, g4, rfl, hl2, d2, d3⟩ := cut d1
  obtain ⟨g5, g6, rfl, hl3, d4, d5⟩ := cut hq
  rw [List.nil_append] at d3 d5
  refine ⟨g5 ++ g4 ++ g6, ?_, ?_⟩
  · refine decoded_parts.2 ⟨l ++ es, r, rfl, ?_, decoded_parts.2 ⟨l, es, rfl, hl3.symm, d4, ?_⟩, ?_⟩
    · have : g4.length = es.length := by
        rw [List.length_append, List.length_append] at hl1
        omega
      rw [List.length_append, List.length_append]
      omega
    · rw [List.nil_append]
      exact decoded_moved d3 ht (.inr hn)
    · rw [List.nil_append]
      refine decoded_moved d5 (textKind_last (lastStr_skip hv).symm) ?_
      rcases hr with hr | hr
      · exact .inl (lastStr_skip hr).symm
      · exact .inr hr
  · intro f hf
    simp only [List.mem_append] at hf
    rcases hf with (hf | hf) | hf
    · exact i2 f (by simp [hf])
    · exact i1 f (by simp [hf])
    · exact i2 f (by simp [hf])

/-- `opens_again` for a project with the events of a file, whether or not it was opened from one. -/
theorem opens_decoded {saved : Bytes} {p : Project} {fs : List (Nat × Bytes)} (hd : Decoded [] fs p.events) (hi : ∀ f ∈ fs, f.1 < 256)
    (g2 : p.format ∈ formats) (g3 : p.ppq ∈ ppqs) (hs : saveBytes p = .ok saved) :
    ∃ q, parseFile saved = .ok q ∧ q.format = p.format ∧ q.ppq = p.ppq ∧ q.channelCount = channelStarts p.events ∧
      Pointwise Reopened p.events q.events := by
  obtain ⟨u0, u1, d0, d1, r0, r1, t0, t1, t2, t3, k1, k2, k3, k4, k5, k6⟩ := saveBytes_ok hs
  have hcl : channelStarts p.events ≠ 0 ∧ word d0 d1 = channelStarts p.events := by
    rw [channelLen_eq] at k3
    split at k3
    · cases k3
    · next hz => exact ⟨hz, (Except.ok.inj k3).symm⟩
  have hne : frames (p.events.map Event.fr) ≠ [] := by
    intro he
    cases hev : p.events with
    | nil => exact hcl.1 (by rw [hev]; rfl)
    | cons e evs =>
      have := frames_mem_length (fs := p.events.map Event.fr) (f := e.fr) (by rw [hev]; simp)
      rw [he] at this
      simp at this
  obtain ⟨evs', q1, q2⟩ := decoded_again hd hi (fun e he => (k6 e he).2) (before' := []) rfl rfl
  have hfo : ∀ f ∈ p.events.map Event.fr, FrameOK f := by
    intro f hfm
    obtain ⟨e, he, rfl⟩ := List.mem_map.1 hfm
    obtain ⟨pre, post, hpp⟩ := List.append_of_mem he
    obtain ⟨fs1, f, fs2, hfs, -, hdt⟩ := decoded_split hd hpp
    have hw := fun n => saved_width (n := n) (hi f (by rw [hfs]; simp)) hdt (k6 e he).2
    have hlt := frames_mem_length hfm
    have hdw := dword_lt t0 t1 t2 t3
    refine ⟨(k6 e he).1, ?_, ?_, ?_, fun _ => ?_⟩
    · intro h; exact hw 1 (by simp [fixedSize, show e.id < 64 from h])
    · rintro ⟨a, b⟩
      have a : 64 ≤ e.id := a
      have b : e.id < 128 := b
      exact hw 2 (by unfold fixedSize; rw [if_neg (Nat.not_lt.2 a), if_pos b])
    · rintro ⟨a, b⟩
      have a : 128 ≤ e.id := a
      have b : e.id < 192 := b
      exact hw 4 (by unfold fixedSize; rw [if_neg (by omega), if_neg (by omega), if_pos b])
    · omega
  refine ⟨⟨p.format, channelStarts p.events, p.ppq, evs'⟩, ?_, rfl, rfl, rfl, q2⟩
  exact parse_iff.2 ⟨u0, u1, d0, d1, r0, r1, t0, t1, t2, t3, _, k1, by rw [k2]; exact g2, by rw [k4]; exact g3, hne, k5,
    k2.symm, hcl.2.symm, k4.symm, _, splits_frames hfo, q1⟩

omit [FloatEnv] in
theorem pointwise_get {α : Type} {R : α → α → Prop} {as bs : List α} (hp : Pointwise R as bs) :
    ∀ {i : Nat} {a b : α}, as[i]? = some a → bs[i]? = some b → R a b := by
  induction hp with
  | nil => intro i a b ha; simp at ha
  | cons r t ih =>
    intro i a b ha hb
    cases i with
    | zero =>
      simp at ha hb
      subst ha hb
      exact r
    | succ i => exact ih (by simpa using ha) (by simpa using hb)

/-- **C150.** Events that follow each other in an opened project are inserted, one after the other, before the event number `k` of another
opened project.  No version is among them, texts are encoded in the same way at both places, plugin data is copied together with the name of
the plugin, and the events behind do not need a name from in front of the copies.  The copies are then at their place and nothing else has
changed.  If the project can be saved, the file can be opened, as the project with the copies: all events with the same ids and classes, and
the same values if they are numbers, texts, colours or raw data or if their class can represent them. -/
theorem C150_copied {fp fq : Bytes} {p q : Project} (hp : parseFile fp = .ok p) (hq : parseFile fq = .ok q) {a es b : List Event}
    (hes : p.events = a ++ es ++ b) {k : Nat} (hk : k < q.events.length) (hv : ∀ e ∈ es, e.id ≠ 199)
    (ht : textKind a = textKind (q.events.take k)) (hn : NamedPlugins es)
    (hr : (∀ e ∈ es, e.id ≠ 201) ∨ NamedPlugins (q.events.drop k)) :
    ∃ w, copyIn (World.ofProject q) k es = (w, .ok ()) ∧
      w.project = { q with events := q.events.take k ++ es ++ q.events.drop k } ∧
      ∀ saved, saveBytes w.project = .ok saved → ∃ q', parseFile saved = .ok q' ∧ q'.format = q.format ∧ q'.ppq = q.ppq ∧
        q'.channelCount = channelStarts q.events + channelStarts es ∧
        q'.events.map (fun e => (e.id, e.kind)) = w.project.events.map (fun e => (e.id, e.kind)) ∧
        ∀ (i : Nat) (e e' : Event), w.project.events[i]? = some e → q'.events[i]? = some e' →
          Simple e ∨ validValue e.kind e.len e.value → e'.value = e.value := by
  obtain ⟨c1, c2⟩ := copyIn_events q hk es
  refine ⟨(copyIn (World.ofProject q) k es).1, by rw [← c1], c2, ?_⟩
  rw [c2]
  intro saved hs
  obtain ⟨_, _, _, _, _, _, _, _, _, _, data1, _, _, _, _, _, _, _, _, fs1, hsp1, hd1⟩ := parse_iff.1 hp
  obtain ⟨_, _, _, _, _, _, _, _, _, _, data2, _, _, _, _, _, _, _, _, fs2, hsp2, hd2⟩ := parse_iff.1 hq
  obtain ⟨-, hf, hpq⟩ := C04_parsed_wellTyped fq q hq
  rw [hes] at hd1
  rw [← List.take_append_drop k q.events] at hd2
  obtain ⟨fs, hd, hi⟩ := decoded_copied hd1 hd2 (splits_ids hsp1) (splits_ids hsp2) hv ht hn hr
  obtain ⟨q', o1, o2, o3, o4, o5⟩ := opens_decoded (p := { q with events := q.events.take k ++ es ++ q.events.drop k }) hd hi hf hpq hs
  refine ⟨q', o1, o2, o3, ?_, pointwise_eq (fun a b r => by rw [r.1, r.2.1]) o5, ?_⟩
  · rw [o4]
    conv => rhs; rw [← List.take_append_drop k q.events]
    unfold channelStarts
    simp only [List.filter_append, List.length_append]
    omega
  · intro i e e' he he' hval
    have hrr := pointwise_get o5 he he'
    obtain ⟨u0, u1, d0, d1, r0, r1, t0, t1, t2, t3, k1, k2, k3, k4, k5, k6⟩ := saveBytes_ok hs
    have hmem := List.mem_of_getElem? he
    obtain ⟨pre, post, hpp⟩ := List.append_of_mem hmem
    obtain ⟨fs1, f, fs2, hfs, -, hdt⟩ := decoded_split hd hpp
    have hbuild : e.kind.build f.2.length e.value = .ok e.pay := by
      have := (k6 e hmem).2
      unfold Event.payload at this
      rwa [hdt.len] at this
    have hst : ∃ c, StoredAs e.kind f.2.length e.value c := by
      rcases hval with ⟨n1, n2, n3⟩ | hval
      · refine kind_stable hdt.value ?_
        cases hkk : e.kind with
        | struct s => exact absurd hkk (n1 s)
        | list l => exact absurd hkk (n2 l)
        | vst => exact absurd hkk n3
        | _ => trivial
      · rw [hdt.len] at hval
        exact kind_roundtrip hval
    obtain ⟨c, q1, q2, -⟩ := hst
    rw [q1] at hbuild
    have := hrr.2.2.2
    rw [← Except.ok.inj hbuild, q2] at this
    exact (Except.ok.inj this).symm

/-- **C150**, the encoding matters: if a text whose encoding depends on the version is among the copies, and the reopened project has the
copies with their ids, classes and values, then texts are encoded in the same way at both places. -/
theorem C150_encoding {fp fr : Bytes} {p q' : Project} (hp : parseFile fp = .ok p) {a es b l r : List Event}
    (hes : p.events = a ++ es ++ b) (hv : ∀ e ∈ es, e.id ≠ 199) {e : Event} (he : e ∈ es) (hu : untypedText e.id)
    (ho : parseFile fr = .ok q') (hsame : q'.events.map observe = (l ++ es ++ r).map observe) : textKind a = textKind l := by
  obtain ⟨x, y, rfl⟩ := List.append_of_mem he
  have hx : ∀ e ∈ x, e.id ≠ 199 := fun e he => hv e (by simp [he])
  have w1 := (parseFile_wellTyped hp (a ++ x) e (y ++ b) (by rw [hes]; simp)).2.1
  have hko : ∀ c, kindOf c e.id = textKind c := by
    intro c
    obtain ⟨u1, u2⟩ := hu
    unfold kindOf
    rw [u1]
    dsimp only
    rw [if_neg (by omega), if_neg (by omega), if_neg (by omega), if_pos (by omega)]
  obtain ⟨c, d, hcd, h1, h2⟩ : ∃ c d, q'.events = c ++ d ∧ c.map observe = (l ++ x).map observe ∧
      d.map observe = (e :: (y ++ r)).map observe := by
    have : q'.events.map observe = (l ++ x).map observe ++ (e :: (y ++ r)).map observe := by
      rw [hsame, ← List.map_append]
      simp
    obtain ⟨c, d, h1, h2, h3⟩ := List.map_eq_append_iff.1 this
    exact ⟨c, d, h1, h2, h3⟩
  cases d with
  | nil => simp at h2
  | cons e' d =>
    rw [List.map_cons, List.map_cons, List.cons.injEq] at h2
    have ho1 : e'.id = e.id ∧ e'.kind = e.kind := by
      have := h2.1
      unfold observe at this
      rw [Prod.mk.injEq, Prod.mk.injEq] at this
      exact ⟨this.1, this.2.1⟩
    have w2 := (parseFile_wellTyped ho c e' d hcd).2.1
    rw [ho1.1, ho1.2, hko] at w2
    rw [hko] at w1
    have h3 : lastStr 199 c = lastStr 199 (l ++ x) := by
      have key : ∀ z : List Event, lastStr 199 z = ((z.map observe).filter fun o => o.1 = 199).getLast?.bind fun o => strOf o.2.2 := by
        intro z
        unfold lastStr
        rw [List.filter_map, List.getLast?_map]
        cases h : (List.filter ((fun o : Nat × Kind × Value => decide (o.1 = 199)) ∘ observe) z).getLast? with
        | none =>
          have : (List.filter (fun e : Event => decide (e.id = 199)) z).getLast? = none := h
          rw [this]; rfl
        | some o =>
          have : (List.filter (fun e : Event => decide (e.id = 199)) z).getLast? = some o := h
          rw [this]; rfl
      rw [key, key, h1]
    rw [textKind_last (h3.trans (lastStr_skip hx))] at w2
    rw [textKind_last (lastStr_skip hx)] at w1
    rw [w1, w2]

/-- **C150**, saving: if the two files have at most 100 MB together and the project with the copies has at least one and at most 65535
channels, it can be saved. -/
theorem C150_saves {fp fq : Bytes} {p q : Project} (hp : parseFile fp = .ok p) (hq : parseFile fq = .ok q) {a es b : List Event}
    (hes : p.events = a ++ es ++ b) {k : Nat} (hk : k < q.events.length) (hs : fp.length + fq.length ≤ 100000000)
    (h1 : channelStarts q.events + channelStarts es ≠ 0) (h2 : channelStarts q.events + channelStarts es < 65536) :
    ∃ saved, saveBytes (copyIn (World.ofProject q) k es).1.project = .ok saved := by
  rw [(copyIn_events q hk es).2]
  obtain ⟨_, _, _, _, _, _, _, _, _, _, data1, g1, _, _, _, _, _, _, _, fs1, hsp1, hd1⟩ := parse_iff.1 hp
  obtain ⟨_, _, _, _, _, _, _, _, _, _, data2, g2, _, _, _, _, _, _, _, fs2, hsp2, hd2⟩ := parse_iff.1 hq
  have l1 : data1.length + data2.length ≤ 100000000 := by
    rw [g1, g2, List.length_append, List.length_append] at hs
    omega
  obtain ⟨d1, d2⟩ := decoded_saves hd1 hsp1 (by omega)
  obtain ⟨d3, d4⟩ := decoded_saves hd2 hsp2 (by omega)
  have hcs : channelStarts (q.events.take k ++ es ++ q.events.drop k) = channelStarts q.events + channelStarts es := by
    conv => rhs; rw [← List.take_append_drop k q.events]
    unfold channelStarts
    simp only [List.filter_append, List.length_append]
    omega
  have fa : ∀ x y : List (Nat × Bytes), (frames (x ++ y)).length = (frames x).length + (frames y).length := by
    intro x y
    simp [frames]
  have hlen : (frames ((q.events.take k ++ es ++ q.events.drop k).map Event.fr)).length ≤ 37 * data1.length + 37 * data2.length := by
    rw [← List.take_append_drop k q.events] at d4
    rw [hes] at d2
    simp only [List.map_append, fa] at d2 d4 ⊢
    omega
  obtain ⟨hdr, hh⟩ := (opened_header hq _).1 h2
  unfold saveBytes
  rw [channelLen_eq]
  dsimp only
  rw [hcs, if_neg h1]
  dsimp only
  rw [hh]
  dsimp only
  rw [eventsBytes_eq (evs := q.events.take k ++ es ++ q.events.drop k) (by
    intro e he
    simp only [List.mem_append] at he
    rcases he with (he | he) | he
    · exact d3 e (List.mem_of_mem_take he)
    · exact d1 e (by rw [hes]; simp [he])
    · exact d3 e (List.mem_of_mem_drop he))]
  exact ⟨_, by unfold assemble; dsimp only; rw [if_pos (by omega)]⟩

namespace CopyDemo

open SurvivalDemo

/-- A project of an older version, with a channel and its name. -/
def older : Project := ⟨0, 1, 96, [
  ⟨199, .ascii, .str (PStr.lit "9.0.0"), 6⟩,
  ⟨64, .u16, .lv (.int 0), 2⟩,
  ⟨203, .ascii, .str (PStr.lit "Bass"), 5⟩]⟩

/-- Its file. -/
def olderFile : Bytes := [70, 76, 104, 100, 6, 0, 0, 0, 0, 0, 1, 0, 96, 0, 70, 76, 100, 116, 18, 0, 0, 0] ++
    ([199, 6, 57, 46, 48, 46, 48, 0] ++ [64, 0, 0] ++ [203, 5, 66, 97, 115, 115, 0])

theorem older_opened : parseFile olderFile = .ok older := by
  rw [parse_iff]
  refine ⟨_, _, _, _, _, _, _, _, _, _, _, rfl, by decide, by decide, by decide, by decide, rfl, rfl, rfl,
    [(199, [57, 46, 48, 46, 48, 0]), (64, [0, 0]), (203, [66, 97, 115, 115, 0])], ?_, ?_⟩
  · have := splits_frames (fs := [(199, [57, 46, 48, 46, 48, 0]), (64, [0, 0]), (203, [66, 97, 115, 115, 0])]) (by
        intro f hf
        simp only [List.mem_cons, List.not_mem_nil, or_false] at hf
        rcases hf with rfl | rfl | rfl <;> simp [FrameOK, sizeOK])
    simpa [frames, frame, Demo.varBuild_small] using this
  · refine .cons ⟨rfl, rfl, rfl, rfl, ?_, ?_, ?_, ?_⟩ (.cons ⟨rfl, rfl, rfl, rfl, ?_, ?_, ?_, ?_⟩ (.cons ⟨rfl, rfl, rfl, rfl, ?_, ?_, ?_, ?_⟩ .nil)) <;>
      first
      | (intro h; exact absurd h (by decide))
      | (intro h h'; first | exact rfl | exact absurd h' (by decide) | exact absurd h (by decide))
      | exact fun _ => ⟨_, rfl, [9, 0, 0], by decide +kernel⟩
      | exact fun _ => rfl

end CopyDemo

omit [FloatEnv] in
theorem named_of {es : List Event} (h : ∀ e ∈ es, e.id ≠ 213) : NamedPlugins es :=
  fun before e after he hid => absurd hid (h e (by rw [he]; simp))

open SurvivalDemo in
/-- The first channel of the demo project with its name is copied before the second one: the hypotheses are met. -/
example : ∃ a es b, small.events = a ++ es ++ b ∧ es.map Event.id = [64, 203] ∧ 3 < small.events.length ∧ (∀ e ∈ es, e.id ≠ 199) ∧
    textKind a = textKind (small.events.take 3) ∧ NamedPlugins es ∧ (∀ e ∈ es, e.id ≠ 201) ∧ parseFile smallFile = .ok small ∧
    ∃ saved, saveBytes (copyIn (World.ofProject small) 3 es).1.project = .ok saved :=
  ⟨small.events.take 1, (small.events.drop 1).take 2, small.events.drop 3, rfl, rfl, by decide, by decide, by decide +kernel,
    named_of (by decide), by decide, small_opened,
    C150_saves small_opened small_opened (a := small.events.take 1) (b := small.events.drop 3) rfl (by decide) (by decide) (by decide)
      (by decide)⟩

open SurvivalDemo CopyDemo in
/-- Events cannot be copied between any two projects: the name of a channel of an old project, copied to a new one, is written with one
byte per character and is not read as such. -/
theorem C150_refuted : ¬ ∀ (fp fq saved : Bytes) (p q : Project) (a es b : List Event) (k : Nat), parseFile fp = .ok p → parseFile fq = .ok q →
    p.events = a ++ es ++ b → k < q.events.length → (∀ e ∈ es, e.id ≠ 199 ∧ e.id ≠ 201 ∧ e.id ≠ 213) →
    saveBytes (copyIn (World.ofProject q) k es).1.project = .ok saved →
    ∃ q', parseFile saved = .ok q' ∧ q'.events.map observe = (q.events.take k ++ es ++ q.events.drop k).map observe := by
  intro h
  obtain ⟨saved, hs⟩ := C150_saves older_opened small_opened (a := older.events.take 2) (es := older.events.drop 2) (b := []) (k := 3) rfl
    (by decide) (by decide) (by decide) (by decide)
  obtain ⟨q', h1, h2⟩ := h olderFile smallFile saved older small (older.events.take 2) (older.events.drop 2) [] 3 older_opened small_opened rfl
    (by decide) (by decide) hs
  have := C150_encoding (e := ⟨203, .ascii, .str (PStr.lit "Bass"), 5⟩) older_opened (a := older.events.take 2) (b := []) rfl (by decide)
    (by simp [older]) ⟨by decide +kernel, by decide⟩ h1 h2
  exact absurd this (by decide +kernel)

/-- The texts of an old project, read as those of a new one: with an odd number of bytes the file cannot be opened, with an even number it
is another text. -/
example : (∃ e, Kind.parse .unicode [66, 97, 115, 115, 0] = .error e) ∧
    ∃ v, Kind.parse .unicode [66, 97, 115, 0] = .ok v ∧ v ≠ .str (PStr.lit "Bas") := ⟨⟨_, rfl⟩, _, rfl, by decide +kernel⟩

end PyFLP
