import Verif.SettleKinds
import Verif.ParseSpec
import Verif.Props.Resave
/-!
# C120, C121: opening and saving, once and over and over
-/

namespace PyFLP

open Spec

namespace Spec

variable [FloatEnv]

/-- `f 0`, `f 1`, … are the files obtained by opening a file, saving it, opening what was saved, saving that, and so on. -/
def SavedOverAndOver (f : Nat → Bytes) : Prop := ∀ i, ∃ p, parseFile (f i) = .ok p ∧ saveBytes p = .ok (f (i + 1))

/-- The file opens and holds no channel parameters (the only event with logarithms in it). -/
def NoLogarithms (file : Bytes) : Prop := ∀ p, parseFile file = .ok p → ∀ e ∈ p.events, e.kind ≠ .struct .parameters

end Spec

variable [FloatEnv]

/-- The event `e`, saved and opened again, is `e'`. -/
def Reopened (e e' : Event) : Prop :=
  e'.id = e.id ∧ e'.kind = e.kind ∧ e'.len = e.pay.length ∧ e.kind.parse e.pay = .ok e'.value

omit [FloatEnv] in
theorem kindOf_lastStr {b b' : List Event} (h1 : lastStr 199 b = lastStr 199 b') (h2 : lastStr 201 b = lastStr 201 b') (id : Nat) :
    kindOf b id = kindOf b' id := by
  unfold kindOf textKind pluginKind
  rw [h1, h2]

/-- Texts are stored exactly. -/
theorem text_stable {k : Kind} {a b : Bytes} {v v' : Value} (hk : k = .ascii ∨ k = .unicode) (h1 : k.parse a = .ok v)
    (h2 : k.build a.length v = .ok b) (h3 : k.parse b = .ok v') : v' = v := by
  have hs : settledPayload k a := by rcases hk with rfl | rfl <;> trivial
  obtain ⟨c, q1, q2, -⟩ := kind_stable h1 hs
  rw [q1] at h2
  rw [← Except.ok.inj h2, q2] at h3
  exact (Except.ok.inj h3).symm

omit [FloatEnv] in
theorem enum_201 : enumType enums 201 = none := by decide +kernel

omit [FloatEnv] in
theorem kindOf_text {before : List Event} {id : Nat} {k : Kind} (hid : id = 199 ∨ id = 201) (h : kindOf before id = some k) :
    k = .ascii ∨ k = .unicode := by
  rcases hid with rfl | rfl
  · unfold kindOf at h
    rw [enum_199] at h
    exact .inl (Option.some.inj h).symm
  · unfold kindOf at h
    rw [enum_201] at h
    dsimp only at h
    rw [if_neg (by omega), if_neg (by omega), if_neg (by omega), if_pos (by omega)] at h
    rcases okStr_textKind before with e | e | e
    · rw [e] at h; cases h
    · rw [e] at h; exact .inl (Option.some.inj h).symm
    · rw [e] at h; exact .inr (Option.some.inj h).symm

/-- The saved payload has the size its id asks for. -/
theorem saved_width {before : List Event} {f : Nat × Bytes} {e : Event} (hid : f.1 < 256) (d : DecodesTo before f e)
    (hp : e.payload = .ok e.pay) {n : Nat} (hn : fixedSize e.id = some n) : e.pay.length = n := by
  have hst : StateAt before ⟨lastStr 201 before, textKind before⟩ := ⟨rfl, rfl⟩
  obtain ⟨-, hw⟩ := resolve_facts hid (okStr_textKind before) ((resolve_kindOf hst).2 d.kind)
  rw [d.id] at hn
  exact build_width (hw n hn) hp

/-- What was opened and saved can be opened again, event by event. -/
theorem decoded_again {before before' : List Event} {fs : List (Nat × Bytes)} {evs : List Event} (h : Decoded before fs evs)
    (hid : ∀ f ∈ fs, f.1 < 256) (hp : ∀ e ∈ evs, e.payload = .ok e.pay) (h1 : lastStr 199 before = lastStr 199 before')
    (h2 : lastStr 201 before = lastStr 201 before') :
    ∃ evs', Decoded before' (evs.map Event.fr) evs' ∧ Pointwise Reopened evs evs' := by
  induction h generalizing before' with
  | nil => exact ⟨[], .nil, .nil⟩
  | @cons before f e fs evs d t ih =>
    have hpe := hp e (by simp)
    have hbuild : e.kind.build f.2.length e.value = .ok e.pay := by
      have := hpe
      unfold Event.payload at this
      rwa [d.len] at this
    obtain ⟨v, hv⟩ := kind_step_parse (k := e.kind) (a := f.2) (b := e.pay) ⟨e.value, d.value, hbuild⟩
    have hkind : kindOf before' e.id = some e.kind := by
      rw [← kindOf_lastStr h1 h2, d.id]; exact d.kind
    have hval : e.id = 199 ∨ e.id = 201 → v = e.value := fun h =>
      text_stable (kindOf_text h hkind) d.value hbuild hv
    have hw := fun n => saved_width (n := n) (hid f (by simp)) d hpe
    let e' : Event := ⟨e.id, e.kind, v, e.pay.length⟩
    have d' : DecodesTo before' e.fr e' := by
      refine ⟨rfl, rfl, hkind, hv, ?_, ?_, ?_, ?_⟩
      · intro h
        have h : e.id < 64 := h
        exact hw 1 (by unfold fixedSize; rw [if_pos h])
      · intro a b
        have a : 64 ≤ e.id := a
        have b : e.id < 128 := b
        exact hw 2 (by unfold fixedSize; rw [if_neg (Nat.not_lt.2 a), if_pos b])
      · intro a b
        have a : 128 ≤ e.id := a
        have b : e.id < 192 := b
        exact hw 4 (by unfold fixedSize; rw [if_neg (by omega), if_neg (by omega), if_pos b])
      · intro h
        have h : e.id = 199 := h
        obtain ⟨s, q1, q2⟩ := d.version (by rw [← d.id]; exact h)
        exact ⟨s, (hval (.inl h)).trans q1, q2⟩
    obtain ⟨evs', q1, q2⟩ := ih (before' := before' ++ [e']) (fun x hx => hid x (by simp [hx])) (fun x hx => hp x (by simp [hx]))
      (by
        rw [lastStr_append, lastStr_append]
        by_cases h : e.id = 199
        · rw [if_pos h, if_pos (show e'.id = 199 from h), show e'.value = e.value from hval (.inl h)]
        · rw [if_neg h, if_neg (show ¬ e'.id = 199 from h), h1])
      (by
        rw [lastStr_append, lastStr_append]
        by_cases h : e.id = 201
        · rw [if_pos h, if_pos (show e'.id = 201 from h), show e'.value = e.value from hval (.inr h)]
        · rw [if_neg h, if_neg (show ¬ e'.id = 201 from h), h2])
    exact ⟨e' :: evs', .cons d' q1, .cons ⟨rfl, rfl, rfl, hv⟩ q2⟩

/-- What was opened and saved can be opened again. -/
theorem opens_again {file saved : Bytes} {p : Project} (h : parseFile file = .ok p) (hs : saveBytes p = .ok saved) :
    ∃ q, parseFile saved = .ok q ∧ q.format = p.format ∧ q.ppq = p.ppq ∧ q.channelCount = channelStarts p.events ∧
      Pointwise Reopened p.events q.events := by
  obtain ⟨f0, f1, c0, c1, p0, p1, s0, s1, s2, s3, data, g1, g2, g3, g4, g5, g6, g7, g8, fs, hsp, hd⟩ := parse_iff.1 h
  obtain ⟨u0, u1, d0, d1, r0, r1, t0, t1, t2, t3, k1, k2, k3, k4, k5, k6⟩ := saveBytes_ok hs
  have hcl : channelStarts p.events ≠ 0 ∧ word d0 d1 = channelStarts p.events := by
    rw [channelLen_eq] at k3
    split at k3
    · cases k3
    · next hz => exact ⟨hz, (Except.ok.inj k3).symm⟩
  have hne : frames (p.events.map Event.fr) ≠ [] := by
    intro he
    cases hev : p.events with
    | nil => exact hcl.1 (by rw [hev]; rfl)
    | cons e evs =>
      have := frames_mem_length (fs := p.events.map Event.fr) (f := e.fr) (by rw [hev]; simp)
      rw [he] at this
      simp at this
  obtain ⟨evs', q1, q2⟩ := decoded_again hd (splits_ids hsp) (fun e he => (k6 e he).2) (before' := []) rfl rfl
  have hfo : ∀ f ∈ p.events.map Event.fr, FrameOK f := by
    intro f hfm
    obtain ⟨e, he, rfl⟩ := List.mem_map.1 hfm
    obtain ⟨pre, post, hpp⟩ := List.append_of_mem he
    obtain ⟨fs1, f, fs2, hfs, -, hdt⟩ := decoded_split hd hpp
    have hw := fun n => saved_width (n := n) (splits_ids hsp f (by rw [hfs]; simp)) hdt (k6 e he).2
    have hlt := frames_mem_length hfm
    have hdw := dword_lt t0 t1 t2 t3
    refine ⟨(k6 e he).1, ?_, ?_, ?_, fun _ => ?_⟩
    · intro h; exact hw 1 (by simp [fixedSize, show e.id < 64 from h])
    · rintro ⟨a, b⟩
      have a : 64 ≤ e.id := a
      have b : e.id < 128 := b
      exact hw 2 (by unfold fixedSize; rw [if_neg (Nat.not_lt.2 a), if_pos b])
    · rintro ⟨a, b⟩
      have a : 128 ≤ e.id := a
      have b : e.id < 192 := b
      exact hw 4 (by unfold fixedSize; rw [if_neg (by omega), if_neg (by omega), if_pos b])
    · omega
  refine ⟨⟨p.format, channelStarts p.events, p.ppq, evs'⟩, ?_, rfl, rfl, rfl, q2⟩
  exact parse_iff.2 ⟨u0, u1, d0, d1, r0, r1, t0, t1, t2, t3, _, k1, by rw [k2, g6]; exact g2, by rw [k4, g8]; exact g3, hne, k5,
    k2.symm, hcl.2.symm, k4.symm, _, splits_frames hfo, q1⟩

theorem pointwise_map {α β : Type} {R : α → α → Prop} {S : β → β → Prop} {f : α → β} {P Q : α → Prop}
    (h : ∀ a b, P a → Q b → R a b → S (f a) (f b)) {as bs : List α} (ha : ∀ a ∈ as, P a) (hb : ∀ b ∈ bs, Q b)
    (hp : Pointwise R as bs) : Pointwise S (as.map f) (bs.map f) := by
  induction hp with
  | nil => exact .nil
  | cons r t ih =>
    exact .cons (h _ _ (ha _ (by simp)) (hb _ (by simp)) r) (ih (fun x hx => ha x (by simp [hx])) (fun x hx => hb x (by simp [hx])))

theorem pointwise_eq {α β : Type} {R : α → α → Prop} {f : α → β} (h : ∀ a b, R a b → f b = f a) {as bs : List α}
    (hp : Pointwise R as bs) : bs.map f = as.map f := by
  induction hp with
  | nil => rfl
  | cons r t ih => rw [List.map_cons, List.map_cons, h _ _ r, ih]

/-- **C120.** Every file that was opened and saved, without any change, can be opened again.  The project that is opened has
the same format and resolution, and the same events in the same order: same ids and same classes.  Integers, texts and
unknown data are the same as well. -/
theorem C120_saved_opens (file saved : Bytes) (p : Project) (h : parseFile file = .ok p) (hs : saveBytes p = .ok saved) :
    ∃ q, parseFile saved = .ok q ∧ q.format = p.format ∧ q.ppq = p.ppq ∧ q.channelCount = channelStarts p.events ∧
      q.events.map (fun e => (e.id, e.kind)) = p.events.map (fun e => (e.id, e.kind)) ∧
      ∀ (i : Nat) (e e' : Event), p.events[i]? = some e → q.events[i]? = some e' →
        (∀ s, e.kind ≠ .struct s) → (∀ l, e.kind ≠ .list l) → e.kind ≠ .vst → e'.value = e.value := by
  obtain ⟨q, h1, h2, h3, h4, h5⟩ := opens_again h hs
  refine ⟨q, h1, h2, h3, h4, ?_, ?_⟩
  · exact pointwise_eq (fun a b r => by rw [r.1, r.2.1]) h5
  · obtain ⟨f0, f1, c0, c1, p0, p1, s0, s1, s2, s3, data, g1, g2, g3, g4, g5, g6, g7, g8, fs, hsp, hd⟩ := parse_iff.1 h
    obtain ⟨u0, u1, d0, d1, r0, r1, t0, t1, t2, t3, k1, k2, k3, k4, k5, k6⟩ := saveBytes_ok hs
    intro i e e' he he' n1 n2 n3
    have hr : Reopened e e' := by
      have : ∀ {as bs : List Event}, Pointwise Reopened as bs → ∀ (i : Nat) (a b : Event), as[i]? = some a → bs[i]? = some b → Reopened a b := by
        intro as bs hp
        induction hp with
        | nil => intro i a b ha; simp at ha
        | cons r t ih =>
          intro i a b ha hb
          cases i with
          | zero =>
            simp at ha hb
            subst ha hb
            exact r
          | succ i => exact ih i a b (by simpa using ha) (by simpa using hb)
      exact this h5 i e e' he he'
    have hmem : e ∈ p.events := List.mem_of_getElem? he
    obtain ⟨pre, post, hpp⟩ := List.append_of_mem hmem
    obtain ⟨fs1, f, fs2, hfs, -, hdt⟩ := decoded_split hd hpp
    have hbuild : e.kind.build f.2.length e.value = .ok e.pay := by
      have := (k6 e hmem).2
      unfold Event.payload at this
      rwa [hdt.len] at this
    have hst : settledPayload e.kind f.2 := by
      cases hk : e.kind with
      | struct s => exact absurd hk (n1 s)
      | list l => exact absurd hk (n2 l)
      | vst => exact absurd hk n3
      | _ => trivial
    obtain ⟨c, q1, q2, -⟩ := kind_stable hdt.value hst
    rw [q1] at hbuild
    have := hr.2.2.2
    rw [← Except.ok.inj hbuild, q2] at this
    exact (Except.ok.inj this).symm

/-- A project whose playlist track changes its height when saved: the saved file opens. -/
example : ∃ q, parseFile (Drift.file 92 143 194 62) = .ok q ∧ q.ppq = 96 :=
  have ⟨q, h1, _, h2, _⟩ := C120_saved_opens _ _ _
    (Drift.parse_file (h0 := 20) (h1 := 174) (h2 := 199) (h3 := 62) (s := PStr.lit "38%") (by decide +kernel))
    (Drift.save_file (h0 := 92) (h1 := 143) (h2 := 194) (h3 := 62) (by decide +kernel))
  ⟨q, h1, h2⟩

/-- Events are saved again in the same way. -/
def Saves (x y : Nat × Kind × Bytes) : Prop :=
  y.1 = x.1 ∧ y.2.1 = x.2.1 ∧ KindStep x.2.1 x.2.2 y.2.2 ∧ (x.2.1 = .struct .parameters → LogsSettle)

theorem saves_settles : Settles Saves := by
  intro s hs
  have hid : ∀ i, (s i).1 = (s 0).1 ∧ (s i).2.1 = (s 0).2.1 := by
    intro i
    induction i with
    | zero => exact ⟨rfl, rfl⟩
    | succ i ih => exact ⟨(hs i).1.trans ih.1, (hs i).2.1.trans ih.2⟩
  obtain ⟨N, hN⟩ := kind_settles (s 0).2.1 (hs 0).2.2.2 (fun i => (s i).2.2) (fun i => by
    have := (hs i).2.2.1
    rwa [(hid i).2] at this)
  refine ⟨N, fun n hn => Prod.ext ?_ (Prod.ext ?_ (hN n hn))⟩
  · rw [(hid n).1, (hid N).1]
  · rw [(hid n).2, (hid N).2]

/-- What is saved depends on the format, the resolution and the saved events only. -/
theorem saved_eq {p q : Project} {a b : Bytes} (hp : saveBytes p = .ok a) (hq : saveBytes q = .ok b) (h1 : q.format = p.format)
    (h2 : q.ppq = p.ppq) (h3 : q.events.map (fun e => (e.id, e.kind, e.pay)) = p.events.map (fun e => (e.id, e.kind, e.pay))) :
    b = a := by
  have hfr : q.events.map Event.fr = p.events.map Event.fr := by
    have := congrArg (List.map fun x : Nat × Kind × Bytes => (x.1, x.2.2)) h3
    rw [List.map_map, List.map_map] at this
    exact this
  have hch : channelLen q.events = channelLen p.events := by
    have e : ∀ evs : List Event, channelStarts evs = ((evs.map fun e => (e.id, e.kind, e.pay)).filter fun x => x.1 = 64).length := by
      intro evs
      unfold channelStarts
      rw [List.filter_map, List.length_map]
      rfl
    rw [channelLen_eq, channelLen_eq, e, e, h3]
  have hb : eventsBytes q.events = eventsBytes p.events := by
    obtain ⟨_, _, _, _, _, _, _, _, _, _, -, -, -, -, -, k6⟩ := saveBytes_ok hp
    obtain ⟨_, _, _, _, _, _, _, _, _, _, -, -, -, -, -, l6⟩ := saveBytes_ok hq
    rw [eventsBytes_eq (fun e he => ⟨(k6 e he).1, _, (k6 e he).2⟩), eventsBytes_eq (fun e he => ⟨(l6 e he).1, _, (l6 e he).2⟩), hfr]
  unfold saveBytes at hp hq
  rw [hch, hb, h1, h2] at hq
  rw [hp] at hq
  exact (Except.ok.inj hq).symm

/-- **C121.** Opening a file and saving it, over and over, changes the file only finitely often: from some save on, every
save writes the very same bytes.  This holds for every file without channel parameters, and for all files if the
logarithms of the platform settle (`LogsSettle`, about `math.log2` and `**`). -/
theorem C121_saving_settles (f : Nat → Bytes) (h : SavedOverAndOver f) (hl : NoLogarithms (f 0) ∨ LogsSettle) :
    ∃ N, ∀ n, N ≤ n → f n = f N := by
  have hex : ∃ p : Nat → Project, ∀ i, parseFile (f i) = .ok (p i) ∧ saveBytes (p i) = .ok (f (i + 1)) :=
    ⟨fun i => (h i).choose, fun i => (h i).choose_spec⟩
  obtain ⟨p, hp⟩ := hex
  have hnext : ∀ i, (p (i + 1)).format = (p i).format ∧ (p (i + 1)).ppq = (p i).ppq ∧
      Pointwise Reopened (p i).events (p (i + 1)).events := by
    intro i
    obtain ⟨q, h1, h2, h3, -, h5⟩ := opens_again (hp i).1 (hp i).2
    rw [(hp (i + 1)).1] at h1
    have := Except.ok.inj h1
    subst this
    exact ⟨h2, h3, h5⟩
  have hpay : ∀ i, ∀ e ∈ (p i).events, e.payload = .ok e.pay := by
    intro i
    obtain ⟨_, _, _, _, _, _, _, _, _, _, -, -, -, -, -, k6⟩ := saveBytes_ok (hp i).2
    exact fun e he => (k6 e he).2
  have hkinds : ∀ i, (p i).events.map (fun e => e.kind) = (p 0).events.map (fun e => e.kind) := by
    intro i
    induction i with
    | zero => rfl
    | succ i ih => rw [pointwise_eq (f := fun e : Event => e.kind) (fun a b r => r.2.1) (hnext i).2.2, ih]
  have hlog : ∀ i, ∀ e ∈ (p i).events, e.kind = .struct .parameters → LogsSettle := by
    intro i e he hk
    rcases hl with hl | hl
    · exfalso
      have : e.kind ∈ (p 0).events.map (fun e => e.kind) := by
        rw [← hkinds i]; exact List.mem_map_of_mem he
      obtain ⟨e0, h0, h1⟩ := List.mem_map.1 this
      exact hl (p 0) (hp 0).1 e0 h0 (h1.trans hk)
    · exact hl
  have hset := pointwise_settles saves_settles (fun i => (p i).events.map (fun e => (e.id, e.kind, e.pay))) (fun i => by
    refine pointwise_map (P := fun e => e ∈ (p i).events) (Q := fun e => e.payload = .ok e.pay) ?_ (fun _ h => h)
      (hpay (i + 1)) (hnext i).2.2
    intro a b ha hb hr
    refine ⟨hr.1, hr.2.1, ⟨b.value, hr.2.2.2, ?_⟩, hlog i a ha⟩
    have := hb
    unfold Event.payload at this
    rwa [hr.2.2.1, hr.2.1] at this)
  obtain ⟨N, hN⟩ := hset
  have hfix : ∀ i, (p i).format = (p 0).format ∧ (p i).ppq = (p 0).ppq := by
    intro i
    induction i with
    | zero => exact ⟨rfl, rfl⟩
    | succ i ih => exact ⟨(hnext i).1.trans ih.1, (hnext i).2.1.trans ih.2⟩
  refine ⟨N + 1, fun n hn => ?_⟩
  obtain ⟨m, rfl⟩ : ∃ m, n = m + 1 := ⟨n - 1, by omega⟩
  exact saved_eq (hp N).2 (hp m).2 (by rw [(hfix m).1, (hfix N).1]) (by rw [(hfix m).2, (hfix N).2]) (hN m (by omega))

/-- The track of height 0.39 is saved as 0.38, then as 0.37, and then it stays. -/
def Drift.over : Nat → Bytes
  | 0 => Drift.file 20 174 199 62
  | 1 => Drift.file 92 143 194 62
  | _ => Drift.file 164 112 189 62

theorem Drift.over_saved : SavedOverAndOver Drift.over := by
  intro i
  match i with
  | 0 => exact ⟨_, Drift.parse_file (s := PStr.lit "38%") (by decide +kernel), Drift.save_file (by decide +kernel)⟩
  | 1 => exact ⟨_, Drift.parse_file (s := PStr.lit "37%") (by decide +kernel), Drift.save_file (by decide +kernel)⟩
  | _ + 2 => exact ⟨_, Drift.parse_file (s := PStr.lit "37%") (by decide +kernel), Drift.save_file (by decide +kernel)⟩

example : ∃ N, ∀ n, N ≤ n → Drift.over n = Drift.over N := by
  refine C121_saving_settles Drift.over Drift.over_saved (.inl ?_)
  intro p hp e he
  rw [show Drift.over 0 = Drift.file 20 174 199 62 from rfl,
    Drift.parse_file (s := PStr.lit "38%") (by decide +kernel)] at hp
  rw [← Except.ok.inj hp] at he
  simp only [Drift.project, List.mem_cons, List.not_mem_nil, or_false] at he
  rcases he with rfl | rfl | rfl <;> simp

/-- The two files differ, and the second and third too. -/
example : Drift.over 0 ≠ Drift.over 1 ∧ Drift.over 1 ≠ Drift.over 2 := by
  constructor <;> (unfold Drift.over Drift.file; simp [frames, frame, Drift.payload])

/-- There are platforms whose logarithms settle although they are not exact: here odd numbers are saved as the next even
number towards zero. -/
example : ∃ env : FloatEnv, @LogsSettle env ∧ ∃ k x j, env.exp2 k = some x ∧ env.log2 x = some j ∧ j ≠ k := by
  refine ⟨⟨fun k => some (2 * k.natAbs + if k < 0 then 1 else 0),
    fun x => some (if x % 2 = 1 then -((x / 2 - x / 2 % 2 : Nat) : Int) else ((x / 2 - x / 2 % 2 : Nat) : Int)), id,
    fun x => x⟩, ⟨?_, ?_, ?_, ?_⟩, 3, 6, 2, rfl, rfl, by decide⟩
  · intro k x j h1 h2 hx hj
    have hx := Option.some.inj hx
    have hj := Option.some.inj hj
    refine ⟨fun h => ?_, fun h => ?_, rfl⟩
    · rw [if_neg (by omega)] at hx
      rw [if_neg (by omega)] at hj
      omega
    · rcases Int.lt_or_le k 0 with h0 | h0
      · rw [if_pos h0] at hx
        rw [if_pos (by omega)] at hj
        omega
      · rw [if_neg (by omega)] at hx
        rw [if_neg (by omega)] at hj
        omega
  · intro s hs
    refine settles_const 1 fun i hi => ?_
    obtain ⟨j, rfl⟩ : ∃ j, i = j + 1 := ⟨i - 1, by omega⟩
    obtain ⟨-, a2, x, a3, a4⟩ := hs j
    obtain ⟨-, b2, y, b3, b4⟩ := hs (j + 1)
    have a3 := Option.some.inj a3
    have a4 := Option.some.inj a4
    have b3 := Option.some.inj b3
    have b4 := Option.some.inj b4
    rw [if_pos a2] at a3
    rw [if_pos b2] at b3
    rw [if_pos (by omega)] at a4 b4
    omega
  · intro x _; rfl
  · intro a _ _
    have := Nat.min_le_right f64One a
    show ((min f64One a : Nat) : Int) ≤ a
    omega

end PyFLP
