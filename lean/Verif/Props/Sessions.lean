import Verif.Props.PropSaved
import Verif.Props.ChannelProps
import Verif.Props.Automation
import Verif.Props.Colors
import Verif.Props.Plugins
import Verif.Props.Playlist
import Verif.Props.Project
import Verif.Props.Tempo
import Verif.Props.ItemsSaved
import Verif.Props.MixerParams
import Verif.Props.Patterns
import Verif.Props.Notebook
/-!
# C108: editing sessions

A program opens a project and edits it, in any order and as often as it likes, through the properties of
its models.  Whatever it has done, the project can be saved and read again.
-/

namespace PyFLP

open Spec Heap

namespace Spec

/-- One successful call that edits a project, with a value that has a place in the file.  `L` tells which models
are up to date. -/
inductive EditStep [FloatEnv] [FloatAdd] [UniEnv] (w : World) (L : Nat → Prop) : World → Prop
  /-- any property of the table, except those of `Arp` and `plugin.internal_name`-like ones: `model.prop = x` -/
  | prop {t : Nat} (ht : L t) (ver : PyVer) (p : PropRow) (hp : p ∈ propTable) (hArp : p.cls ≠ "Arp")
      (hm : ModelOf p (w.events t)) {k : Nat} {e : Event} (hT : Target (w.events t) p.ids k e) (hname : e.id ≠ 201)
      (x : p.type) (hx : Fits p.acc e x) {w'} (h : p.write ver w t x = (w', .ok ())) : EditStep w L w'
  /-- `channel.pan = n`, `channel.volume = n` -/
  | knob {t : Nat} (ht : L t) (k : Knob)
      (hold : (valueOf (w.events t) 219).isSome ∨ valueOf (w.events t) k.byte = none) (n : Int) (h0 : 0 ≤ n)
      (h1 : n ≤ 12800) {w'} (h : k.write w t (.int n) = (w', .ok ())) : EditStep w L w'
  /-- `channel.pitch_shift = n` -/
  | pitch {t : Nat} (ht : L t) (n : Int) (h0 : -2 ^ 31 ≤ n) (h1 : n < 2 ^ 31) {w'}
      (h : w.setPitchShift t (.int n) = (w', .ok ())) : EditStep w L w'
  /-- `sampler.fx.reverb.type = ty` -/
  | reverbType {t : Nat} (ht : L t) (ty : ReverbType) (hm : ∀ m, w.reverbMix t = .ok (some m) → m < 65536) {w'}
      (h : w.setReverbType t ty = (w', .ok ())) : EditStep w L w'
  /-- `sampler.fx.reverb.mix = m`, where it was 0 -/
  | reverbMix {t : Nat} (ht : L t) (hz : w.reverbMix t = .ok (some 0)) (m : Int) (h0 : 0 ≤ m) (h1 : m < 65536) {w'}
      (h : w.setReverbMix t m = (w', .ok ())) : EditStep w L w'
  /-- `channel.delay.mod_x = n` -/
  | delayX {t : Nat} (ht : L t) (n : Int) (h0 : 0 ≤ n) (h1 : n < 65536) {w'}
      (h : w.setDelayX t n = (w', .ok ())) : EditStep w L w'
  /-- `channel.delay.mod_y = n` -/
  | delayY {t : Nat} (ht : L t) (n : Int) (h0 : 0 ≤ n) (h1 : n < 65536) {w'}
      (h : w.setDelayY t n = (w', .ok ())) : EditStep w L w'
  /-- `track.color = c` -/
  | trackColour {t : Nat} (ht : L t) {rec : Rec} {old : LV} (hrec : valueOf (w.events t) 238 = some (.fields rec))
      (hold : Rec.lookup rec "color" = some (some old)) (c : Rgba) (hc : EachOf InUnit c) {w'}
      (h : trackColor.write w t c = (w', .ok ())) : EditStep w L w'
  /-- `channel.sample_path = Path(q)` -/
  | samplePath {t : Nat} (ht : L t) (q : PStr)
      (hq : ∀ e ∈ w.project.events, e.id = 196 → ∀ c ∈ q, Storable1 e.kind c) {w'}
      (h : w.setSamplePath t (.of q) = (w', .ok ())) : EditStep w L w'
  /-- `project.data_path = q` -/
  | dataPath {t : Nat} (ht : L t) (q : PStr)
      (hq : ∀ e ∈ w.project.events, e.id = 202 → ∀ c ∈ q, Storable1 e.kind c) {w'}
      (h : w.setDataPath t q = (w', .ok ())) : EditStep w L w'
  /-- `point.value = x`, `point.tension = x` for a point of an automation clip -/
  | point {t : Nat} (ht : L t) {us : List Point} {a b : List Pt} {p : Pt} {u : Point}
      (hps : HasPoints w t (a ++ p :: b)) (hus : Shows w t us (a ++ p :: b)) (hu : us[a.length]? = some u)
      (k : PtProp) (x : Nat) (hx : k.Fits x) {w'} (h : w.pointSet u k.key (k.lv x) = (w', .ok ())) : EditStep w L w'
  /-- `vst.name = x` and other texts and byte strings of a VST plugin -/
  | vstText {t : Nat} (ht : L t) {ty id : Int} {a b : List (Int × VstData)} {d : VstData}
      (hs : HasSubs w t ty (a ++ (id, d) :: b)) (ha : Without a id) {x : LV} (hx : VstText id x) {w'}
      (h : w.vstSet t id x = (w', .ok ())) : EditStep w L w'
  /-- `vst.compatibility.fixed_buffers = v` and other booleans of a VST plugin -/
  | vstFlag {t : Nat} (ht : L t) {n : Nat} {f : VstFlag} (hf : f ∈ vstFlagProps) (hd : FlagData w t f.key n) (v : Bool)
      {w'} (h : w.setVstFlag t f v = (w', .ok ())) : EditStep w L w'
  /-- `arrangements.loop_pos = (a, b)` -/
  | loop {t : Nat} (ht : L t) {x y : LV} (hl : Loop (w.events t) (some x) (some y)) (a b : Int) (ha : 0 ≤ a ∧ a < 65536)
      (hb : 0 ≤ b ∧ b < 65536) {w'} (h : w.setLoopPos t a b = (w', .ok ())) : EditStep w L w'
  /-- `project.format = f` -/
  | format (f : Int) (hf : f ∈ formats) : EditStep w L (w.setFormat f)
  /-- `project.ppq = n` -/
  | ppq (n : Int) {w'} (h : w.setPPQ n = (w', .ok ())) : EditStep w L w'
  /-- `project.channel_count = n` -/
  | channelCount (n : Int) {w'} (h : w.setChannelCount n = (w', .ok ())) : EditStep w L w'
  /-- `project.tempo = x` -/
  | tempo (x : PyNum) {w'} (h : w.setTempo x = (w', .ok ())) : EditStep w L w'
  /-- `project.licensee = s` -/
  | licensee (s : PStr) {w'} (h : w.setLicensee s = (w', .ok ())) : EditStep w L w'
  /-- `project.version = v`, on the same side of 11.5 -/
  | version (v old : FLVersion) (hold : w.version = .ok old)
      (hside : AtLeast11_5 (versionParts old) ↔ AtLeast11_5 (versionParts v))
      (hbuild : ∀ b, v.build = some b → 0 ≤ b ∧ b < 2 ^ 32) {w'} (h : w.setVersion (.version v) = (w', .ok ())) :
      EditStep w L w'
  /-- `note.key = x` and so on: properties of notes, controllers and playlist items; `s` is the event object, `it` an item
  object that has been obtained from it at any earlier time -/
  | item {t : Nat} (ht : L t) {ref : Nat} (href : ref ∈ w.refs t) {l : LName} (hk : (w.ev ref).kind = .list l)
      {recs : List Rec} {s s' : ListObj} {hs : List Item} {es : List Edit} (hr : IReach recs s hs es)
      (hval : (w.ev ref).value = .items s.value) {it : Item} (hit : it ∈ hs) {key : String} {x old : LV}
      (hold : s.get it key = .ok (some old)) (hx : ∀ f, (key, f) ∈ l.fields → leafValid f.leaf x)
      (h : s.set it key (some x) = (s', .ok ())) :
      EditStep w L (w.setEv ref { w.ev ref with value := .items s'.value })
  /-- `insert.pan = x`, `insert.eq.low.gain = x` and other parameters of the mixer; `q` is the event object -/
  | param {t : Nat} (ht : L t) {ref : Nat} (href : ref ∈ w.refs t) (hk : (w.ev ref).kind = .list .mixerParams)
      {recs : List Rec} {q q' : ParamsObj} (hr : PReach recs q) (hval : (w.ev ref).value = .items q.value) {i : Nat}
      {id : Int} (h0 : id ≠ 0) (h1 : id ≠ 1) {n : Int} (hn : -2 ^ 31 ≤ n ∧ n < 2 ^ 31)
      (h : q.set i id (some (.int n)) = (q', .ok ()) ∨ q.eqSet i id (some (.int n)) = (q', .ok ())) :
      EditStep w L (w.setEv ref { w.ev ref with value := .items q'.value })
  /-- `pattern.iid = n` -/
  | patternIid {u : Nat} (hu : L u) (n : Int) (hn : 0 ≤ n ∧ n < 65536) :
      EditStep w L (w.setPatternIid u (.lv (.int n)))
  /-- `channel.color = c`, `insert.color = c`, `pattern.color = c` with a colour of 8 bits per component -/
  | colour {t : Nat} (ht : L t) {id : Nat} (hk : enumType enums id = some .color) (n : Nat) {w'}
      (h : (eventProp [id]).write w t (colourValue (colourOf n)) = (w', .ok ())) : EditStep w L w'
  /-- `notebook.active_page_number = n` -/
  | notebookPage {t : Nat} (ht : L t) {u : Bytes} {p : Int} {ps : List Page} {b : Bool} (hn : HasNotebook w t u p ps b)
      (n : Int) (h0 : 0 ≤ n) (h1 : n < 2 ^ 32) {w'} (h : notebookActive.write w t n = (w', .ok ())) : EditStep w L w'
  /-- `notebook.editable = x` -/
  | notebookEditable {t : Nat} (ht : L t) {u : Bytes} {p : Int} {ps : List Page} {b : Bool} (hn : HasNotebook w t u p ps b)
      (x : Bool) {w'} (h : notebookEditable.write w t x = (w', .ok ())) : EditStep w L w'
  /-- the text of a page of a notebook, not longer than the page says -/
  | notebookText {t : Nat} (ht : L t) {u : Bytes} {p : Int} {pre post : List Page} {i : Int} {n : Nat} {old : PStr}
      {b : Bool} (hn : HasNotebook w t u p (pre ++ .text i n old :: post) b) (s : PStr) (hs : ∀ c ∈ s, isScalar c)
      (hz : s.getLast? ≠ some 0) (hlen : utf16Size s ≤ 2 * n) {w'} (h : w.setPageText t pre.length s = (w', .ok ())) :
      EditStep w L w'

/-- The states of a program that has opened the project `p`: models have been created, properties assigned and, if
`removals`, events removed through models, but for version events and names of plugin classes; if `insertions`, new
events (other than these) inserted through models, of the type that an event has at this place of a file. -/
inductive Session [FloatEnv] [FloatAdd] [UniEnv] (p : Project) (removals insertions : Prop) : World → (Nat → Prop) → Prop
  | opened : Session p removals insertions (World.ofProject p) (· = 0)
  | look {w L t} (s : Session p removals insertions w L) (ht : L t) (hne : shown w.heap 0 ≠ []) (call : ViewCall) :
      Session p removals insertions { w with heap := (view w.heap t call).1 } (fun u => L u ∨ u ∈ (view w.heap t call).2)
  | edit {w w' L} (s : Session p removals insertions w L) (h : EditStep w L w') : Session p removals insertions w' L
  | remove {w L t id n h' x} (hr : removals) (s : Session p removals insertions w L) (ht : L t) (h199 : id ≠ 199)
      (h201 : id ≠ 201) (hp : w.heap.pop t id n = (h', .ok x)) :
      Session p removals insertions { w with heap := h' } (fun u => L u ∧ ∀ v ∈ u :: w.heap.ancestors u,
        v ∈ t :: w.heap.ancestors t ∨ x ∉ (shown w.heap v).map Prod.fst)
  | insert {w L t pos h'} (hi : insertions) (s : Session p removals insertions w L) (ht : L t) (e : Event)
      (h199 : e.id ≠ 199) (h201 : e.id ≠ 201) (hv : validValue e.kind e.len e.value)
      (h : w.heap.insert t pos w.store.length e.id = (h', .ok ()))
      (hkind : ∀ before after, ({ w with heap := h', store := w.store ++ [e] } : World).project.events = before ++ e :: after →
        e.id < 256 ∧ kindOf before e.id = some e.kind) :
      Session p removals insertions { w with heap := h', store := w.store ++ [e] } (fun u => L u ∧
        ∀ v ∈ u :: w.heap.ancestors u, v ∈ t :: w.heap.ancestors t → v = 0)

/-- What an event is, without its value: id, type and size. -/
def shape (e : Event) : Nat × Kind × Nat := (e.id, e.kind, e.len)

end Spec

/-! ### Lists of events whose values change, and some of which are removed -/

section
variable [FloatEnv]

/-- `evs'` is `evs` with other values in some events, and without some. -/
inductive Kept : List Event → List Event → Prop
  | nil : Kept [] []
  | keep {evs evs' : List Event} (e : Event) (v : Value)
      (hv : v = e.value ∨ (e.id ≠ 199 ∧ e.id ≠ 201 ∧ validValue e.kind e.len v)) (h : Kept evs evs') :
      Kept (e :: evs) ({ e with value := v } :: evs')
  | drop {evs evs' : List Event} (e : Event) (he : e.id ≠ 199 ∧ e.id ≠ 201) (h : Kept evs evs') : Kept (e :: evs) evs'

theorem kept_values {a b : List Event} (h : Kept a b) {id : Nat} (hid : id = 199 ∨ id = 201) :
    (b.filter fun e => e.id = id).map (·.value) = (a.filter fun e => e.id = id).map (·.value) := by
  induction h with
  | nil => rfl
  | keep e v hv h ih =>
    by_cases he : e.id = id
    · have : v = e.value := by
        rcases hv with hv | ⟨h1, h2, -⟩
        · exact hv
        · rcases hid with rfl | rfl
          · exact absurd he h1
          · exact absurd he h2
      simp [he, ih, this]
    · simp [he, ih]
  | drop e he h ih =>
    have : e.id ≠ id := by rcases hid with rfl | rfl; exact he.1; exact he.2
    simp [this, ih]

theorem kept_lastStr {a b : List Event} (h : Kept a b) {id : Nat} (hid : id = 199 ∨ id = 201) :
    lastStr id b = lastStr id a := by
  have hm : ∀ l : List Event, lastStr id l = ((l.filter fun e => e.id = id).map (·.value)).getLast?.bind strOf := by
    intro l
    unfold lastStr
    rw [List.getLast?_map]
    cases (l.filter fun e => e.id = id).getLast? <;> rfl
  rw [hm, hm, kept_values h hid]

theorem kept_kindOf {a b : List Event} (h : Kept a b) (id : Nat) : kindOf b id = kindOf a id := by
  unfold kindOf textKind pluginKind
  rw [kept_lastStr h (.inl rfl), kept_lastStr h (.inr rfl)]

theorem kept_split {a b : List Event} (h : Kept a b) : ∀ {pre' post' : List Event} {e' : Event}, b = pre' ++ e' :: post' →
    ∃ pre e post v, a = pre ++ e :: post ∧ Kept pre pre' ∧ e' = { e with value := v } ∧
      (v = e.value ∨ (e.id ≠ 199 ∧ e.id ≠ 201 ∧ validValue e.kind e.len v)) := by
  induction h with
  | nil => intro pre' post' e' hb; simp at hb
  | @keep evs evs' e v hv h ih =>
    intro pre' post' e' hb
    cases pre' with
    | nil =>
      simp only [List.nil_append, List.cons.injEq] at hb
      exact ⟨[], e, evs, v, rfl, .nil, hb.1.symm, hv⟩
    | cons x pre' =>
      simp only [List.cons_append, List.cons.injEq] at hb
      obtain ⟨pre, e2, post, v2, i1, i2, i3, i4⟩ := ih hb.2
      exact ⟨e :: pre, e2, post, v2, by rw [i1]; rfl, hb.1 ▸ .keep e v hv i2, i3, i4⟩
  | @drop evs evs' e he h ih =>
    intro pre' post' e' hb
    obtain ⟨pre, e2, post, v2, i1, i2, i3, i4⟩ := ih hb
    exact ⟨e :: pre, e2, post, v2, by rw [i1]; rfl, .drop e he i2, i3, i4⟩

theorem kept_wellTyped {a b : List Event} (h : Kept a b) (ht : WellTyped a) : WellTyped b := by
  intro pre' e' post' hb
  obtain ⟨pre, e, post, v, h1, h2, rfl, h4⟩ := kept_split h hb
  obtain ⟨t1, t2, t3⟩ := ht pre e post h1
  refine ⟨t1, ?_, fun h199 => ?_⟩
  · rw [kept_kindOf h2]; exact t2
  · rcases h4 with rfl | ⟨h4, -⟩
    · exact t3 h199
    · exact absurd h199 h4

theorem kept_valid {a b : List Event} (h : Kept a b) (hv : ∀ e ∈ a, validValue e.kind e.len e.value) :
    ∀ e ∈ b, validValue e.kind e.len e.value := by
  intro e' he'
  obtain ⟨pre', post', hb⟩ := List.append_of_mem he'
  obtain ⟨pre, e, post, v, h1, h2, rfl, h4⟩ := kept_split h hb
  rcases h4 with rfl | ⟨-, -, h4⟩
  · exact hv e (by rw [h1]; simp)
  · exact h4

theorem kept_shape {a b : List Event} (h : Kept a b) : (b.map shape).Sublist (a.map shape) := by
  induction h with
  | nil => exact .refl _
  | keep e v hv h ih => exact ih.cons_cons _
  | drop e he h ih => exact ih.cons _

theorem kept_storable {w w' : World} (h : Kept w.project.events w'.project.events) (hf : w'.format ∈ formats)
    (hq : w'.ppq ∈ ppqs) (hst : Storable w) : Storable w' :=
  ⟨hf, hq, kept_wellTyped h hst.typed, kept_valid h hst.valid⟩

theorem kept_refl : ∀ a : List Event, Kept a a
  | [] => .nil
  | e :: a => .keep e e.value (.inl rfl) (kept_refl a)

theorem kept_map (f : Event → Event) : ∀ a : List Event, (∀ e ∈ a, ∃ v, f e = { e with value := v } ∧
    (v = e.value ∨ (e.id ≠ 199 ∧ e.id ≠ 201 ∧ validValue e.kind e.len v))) → Kept a (a.map f)
  | [], _ => .nil
  | e :: a, h => by
    obtain ⟨v, h1, h2⟩ := h e (by simp)
    rw [List.map_cons, h1]
    exact .keep e v h2 (kept_map f a fun x hx => h x (by simp [hx]))

theorem kept_set {a : List Event} {i : Nat} {e : Event} (hi : a[i]? = some e) (v : Value)
    (hv : e.id ≠ 199 ∧ e.id ≠ 201 ∧ validValue e.kind e.len v) : Kept a (a.set i { e with value := v }) := by
  induction a generalizing i with
  | nil => cases hi
  | cons x a ih =>
    cases i with
    | zero =>
      simp only [List.getElem?_cons_zero, Option.some.injEq] at hi
      subst hi
      exact .keep x v (.inr hv) (kept_refl a)
    | succ i =>
      rw [List.set_cons_succ]
      exact .keep x x.value (.inl rfl) (ih (by simpa using hi))

theorem kept_setFirst {a : List Event} {id : Nat} (h199 : id ≠ 199) (h201 : id ≠ 201) (v : Value)
    (hv : ∀ e ∈ a, e.id = id → validValue e.kind e.len v) : Kept a (setFirst a id v) := by
  cases h : valueOf a id with
  | none => rw [setFirst_none h]; exact kept_refl a
  | some x =>
    obtain ⟨pre, e, post, e1, e2, e3, e4, e5⟩ := setFirst_cases (v := v) (by rw [h]; rfl : (valueOf a id).isSome)
    have hk := kept_set (a := a) (i := pre.length) (e := e) (by rw [e1]; simp) v
      ⟨e2 ▸ h199, e2 ▸ h201, hv e (by rw [e1]; simp) e2⟩
    rw [e5]
    rw [e1] at hk
    rw [List.set_append_right _ _ (Nat.le_refl _), Nat.sub_self, List.set_cons_zero] at hk
    rw [e1]
    exact hk

/-- The events of a project whose event objects have changed. -/
theorem kept_store {w w' : World} (hheap : w'.heap = w.heap)
    (h : ∀ ref ∈ w.refs 0, ∃ v, w'.ev ref = { w.ev ref with value := v } ∧
      (v = (w.ev ref).value ∨ ((w.ev ref).id ≠ 199 ∧ (w.ev ref).id ≠ 201 ∧ validValue (w.ev ref).kind (w.ev ref).len v))) :
    Kept w.project.events w'.project.events := by
  show Kept (w.events 0) (w'.events 0)
  have hr : w'.refs 0 = w.refs 0 := by unfold World.refs; rw [hheap]
  unfold World.events
  rw [hr]
  have : ∀ l : List Nat, (∀ r ∈ l, r ∈ w.refs 0) → Kept (l.map w.ev) (l.map w'.ev) := by
    intro l
    induction l with
    | nil => intro _; exact .nil
    | cons r l ih =>
      intro hl
      obtain ⟨v, h1, h2⟩ := h r (hl r (by simp))
      rw [List.map_cons, List.map_cons, h1]
      exact .keep _ v h2 (ih fun x hx => hl x (by simp [hx]))
  exact this _ fun _ h => h

theorem shape_eq_of_store {w w' : World} (hheap : w'.heap = w.heap)
    (h : ∀ ref ∈ w.refs 0, ∃ v, w'.ev ref = { w.ev ref with value := v }) :
    w'.project.events.map shape = w.project.events.map shape := by
  show (w'.events 0).map shape = (w.events 0).map shape
  have hr : w'.refs 0 = w.refs 0 := by unfold World.refs; rw [hheap]
  unfold World.events
  rw [hr, List.map_map, List.map_map]
  refine List.map_congr_left fun ref href => ?_
  obtain ⟨v, hv⟩ := h ref href
  show shape (w'.ev ref) = shape (w.ev ref)
  rw [hv]
  rfl

theorem changedOnly_shape {w w' : World} {t : Nat} {ids : List Nat} (h : ChangedOnly w w' t ids) :
    w'.project.events.map shape = w.project.events.map shape :=
  shape_eq_of_store h.heap fun ref _ => let ⟨v, hv, _⟩ := h.store ref; ⟨v, hv⟩

omit [FloatEnv] in
theorem set_shape {a : List Event} {i : Nat} {e : Event} (hi : a[i]? = some e) (v : Value) :
    (a.set i { e with value := v }).map shape = a.map shape := by
  induction a generalizing i with
  | nil => rfl
  | cons x a ih =>
    cases i with
    | zero =>
      simp only [List.getElem?_cons_zero, Option.some.injEq] at hi
      subst hi
      rfl
    | succ i => rw [List.set_cons_succ, List.map_cons, List.map_cons, ih (by simpa using hi)]

omit [FloatEnv] in
theorem setFirst_shape (a : List Event) (id : Nat) (v : Value) : (setFirst a id v).map shape = a.map shape :=
  setFirst_ids a id v

/-! ### Single steps -/

/-- What every step establishes. -/
structure StepOk (w w' : World) (L : Nat → Prop) : Prop where
  reach : WReach w' L
  storable : Storable w'
  shape : w'.project.events.map Spec.shape = w.project.events.map Spec.shape

theorem step_only {w w' : World} {L : Nat → Prop} {t : Nat} {ids : List Nat} (r : WReach w' L) (hst : Storable w')
    (h : ChangedOnly w w' t ids) : StepOk w w' L := ⟨r, hst, changedOnly_shape h⟩

theorem step_prop {w w' : World} {L : Nat → Prop} (r : WReach w L) (hst : Storable w) {t : Nat} (ht : L t) (ver : PyVer)
    (p : PropRow) (hp : p ∈ propTable) (hArp : p.cls ≠ "Arp") (hm : ModelOf p (w.events t)) {k : Nat} {e : Event}
    (hT : Target (w.events t) p.ids k e) (hname : e.id ≠ 201) (x : p.type) (hx : Fits p.acc e x)
    (h : p.write ver w t x = (w', .ok ())) : StepOk w w' L := by
  obtain ⟨h1, h2, h3, -, -, -, j, v, h4, h5⟩ := write_storable r ht ver p hp hArp hm hst.typed hst.valid hT hname x hx h
  refine ⟨h1, ⟨?_, ?_, h2, h3⟩, ?_⟩
  · rw [show w'.format = w.format from congrArg Project.format h5]; exact hst.format
  · rw [show w'.ppq = w.ppq from congrArg Project.ppq h5]; exact hst.ppq
  · rw [h5]; exact set_shape h4 v

theorem step_loop {w w' : World} {L : Nat → Prop} (r : WReach w L) (hst : Storable w) {t : Nat} (ht : L t) {x y : LV}
    (hl : Loop (w.events t) (some x) (some y)) (a b : Int) (ha : 0 ≤ a ∧ a < 65536) (hb : 0 ≤ b ∧ b < 65536)
    (h : w.setLoopPos t a b = (w', .ok ())) : StepOk w w' L := by
  obtain ⟨w2, g1, -, g2, i, e, v, g3, g4, g5⟩ := (C70_set_partial r ht a b).1 x y hl
  rw [h] at g1
  injection g1 with g1 _
  subst g1
  have he := List.mem_of_getElem? g3
  have hv := hst.valid e he
  have hid : e.id ≠ 199 ∧ e.id ≠ 201 := by rcases g4 with ⟨g, -⟩ | ⟨g, -⟩ <;> rw [g] <;> decide
  have hvv : validValue e.kind e.len v := by
    rcases g4 with ⟨g, rec, r1, ⟨x1, r2⟩, ⟨y1, r3⟩, rfl⟩ | ⟨g, rfl⟩
    · rw [storable_kind hst he (k := .struct .plSelection) (by rw [g]; decide +kernel)] at hv ⊢
      rw [r1] at hv
      have hu : ∀ (z : Int), 0 ≤ z ∧ z < 65536 → ∀ (key : String) f, (key, f) ∈ SName.plSelection.fields →
          leafValid f.leaf (.int z) ∧ f.leaf ≠ .greedy := by
        intro z hz key f hf
        simp only [SName.fields, List.mem_cons, List.not_mem_nil, or_false, Prod.mk.injEq] at hf
        rcases hf with ⟨-, rfl⟩ | ⟨-, rfl⟩ <;>
        · refine ⟨?_, by simp [Fld.leaf, u32]⟩
          simp [Fld.leaf, u32, leafValid, intFits]
          omega
      have v1 := validFields_update (cx := ⟨e.len⟩) (x := .int a) hv r2 (hu a ha "start")
      refine validFields_update (x := .int b) v1 (old := y1) ?_ (hu b hb "end")
      rw [(lookup_update r2 _).2.2 "end" (by decide)]
      exact r3
    · rw [storable_kind hst he (k := .u16t) (by rw [g]; decide +kernel)]
      exact ⟨ha, hb⟩
  have hk := kept_set g3 v ⟨hid.1, hid.2, hvv⟩
  refine ⟨g2, kept_storable (by rw [g5]; exact hk) ?_ ?_ hst, ?_⟩
  · rw [show w'.format = w.format from congrArg Project.format g5]; exact hst.format
  · rw [show w'.ppq = w.ppq from congrArg Project.ppq g5]; exact hst.ppq
  · rw [g5]; exact set_shape g3 v

/-- The first event with an id gets a value that fits. -/
theorem step_setFirst {w w' : World} {L : Nat → Prop} (r : WReach w' L) (hst : Storable w) {id : Nat} (h199 : id ≠ 199)
    (h201 : id ≠ 201) {v : Value} (hv : ∀ e ∈ w.project.events, e.id = id → validValue e.kind e.len v)
    (h : w'.project = { w.project with events := setFirst w.project.events id v }) : StepOk w w' L := by
  refine ⟨r, kept_storable (by rw [h]; exact kept_setFirst h199 h201 v hv) ?_ ?_ hst, ?_⟩
  · rw [show w'.format = w.format from congrArg Project.format h]; exact hst.format
  · rw [show w'.ppq = w.ppq from congrArg Project.ppq h]; exact hst.ppq
  · rw [h]; exact setFirst_shape _ _ _

theorem StepOk.trans {w w' w'' : World} {L : Nat → Prop} (h : StepOk w w' L) (h' : StepOk w' w'' L) : StepOk w w'' L :=
  ⟨h'.reach, h'.storable, h'.shape.trans h.shape⟩

end

theorem small_of_lt {a : Int} {b : Rat} {c : Int} (h0 : (-1 : Rat) < a) (h1 : (a : Rat) ≤ b) (h2 : b < c) : 0 ≤ a ∧ a < c := by
  have h3 : (-1 : Int) < a := by exact_mod_cast h0
  have h4 : (a : Rat) < (c : Rat) := lt_of_le_of_lt h1 h2
  have h5 : a < c := by exact_mod_cast h4
  omega

/-- The numbers that an accepted tempo is stored as. -/
theorem tempo_bounds {x : PyNum} (h1 : 10 ≤ x.val) (h2 : x.val ≤ 999) :
    (0 ≤ x.milli ∧ x.milli < 2 ^ 32) ∧ (0 ≤ x.fine ∧ x.fine < 65536) ∧ (0 ≤ x.val.floor ∧ x.val.floor < 65536) := by
  obtain ⟨f1, f2⟩ := floor_bounds x.val
  refine ⟨?_, ?_, small_of_lt (b := 999) (by linarith) (by linarith) (by norm_num)⟩
  · cases x with
    | int i =>
      have a1 : (10 : Rat) ≤ (i : Rat) := h1
      have a2 : (i : Rat) ≤ 999 := h2
      have b1 : (10 : Int) ≤ i := by exact_mod_cast a1
      have b2 : i ≤ 999 := by exact_mod_cast a2
      show 0 ≤ i * 1000 ∧ i * 1000 < 2 ^ 32
      omega
    | float q =>
      have a1 : (10 : Rat) ≤ q := h1
      have a2 : q ≤ 999 := h2
      show 0 ≤ trunc (fl (q * 1000)) ∧ trunc (fl (q * 1000)) < 2 ^ 32
      have e1 := fl_err (q * 1000)
      rw [abs_of_nonneg (by linarith : 0 ≤ q * 1000), abs_le] at e1
      have hnn : 0 ≤ fl (q * 1000) := fl_nonneg (by linarith)
      obtain ⟨t1, t2⟩ := trunc_nonneg hnn
      refine small_of_lt (b := 2000000) (by linarith) ?_ (by norm_num)
      have : q * 1000 / 2 ^ 53 ≤ 1 := by
        rw [div_le_one (by positivity)]
        norm_num
        linarith
      linarith [e1.2]
  · cases x with
    | int i => exact ⟨Int.le_refl 0, by show (0 : Int) < 65536; decide⟩
    | float q =>
      have f1 : (q.floor : Rat) ≤ q := f1
      have f2 : q < q.floor + 1 := f2
      show 0 ≤ trunc (fl (fl (q - q.floor) * 1000)) ∧ trunc (fl (fl (q - q.floor) * 1000)) < 65536
      generalize (q.floor : Rat) = c at *
      have e0 := fl_err (q - c)
      rw [abs_of_nonneg (by linarith : 0 ≤ q - c), abs_le] at e0
      have hd : 0 ≤ fl (q - c) := fl_nonneg (by linarith)
      have hd2 : fl (q - c) ≤ 2 := by
        have : (q - c) / 2 ^ 53 ≤ 1 := by
          rw [div_le_one (by positivity)]
          norm_num
          linarith
        linarith [e0.2]
      generalize fl (q - c) = d at *
      have e1 := fl_err (d * 1000)
      rw [abs_of_nonneg (by linarith : 0 ≤ d * 1000), abs_le] at e1
      have hnn : 0 ≤ fl (d * 1000) := fl_nonneg (by linarith)
      obtain ⟨t1, t2⟩ := trunc_nonneg hnn
      refine small_of_lt (b := 3000) (by linarith) ?_ (by norm_num)
      have : d * 1000 / 2 ^ 53 ≤ 1 := by
        rw [div_le_one (by positivity)]
        norm_num
        linarith
      linarith [e1.2]

section
variable [FloatEnv]

/-- Events of two bytes which have no class of their own. -/
theorem word_kind {w : World} (hst : Storable w) {e : Event} (he : e ∈ w.project.events) {id : Nat} (hid : e.id = id)
    (hn : enumType enums id = none) (h1 : 64 ≤ id) (h2 : id < 128) : e.kind = .u16 := by
  obtain ⟨a, b, hab⟩ := List.append_of_mem he
  have hk := (hst.typed a e b hab).2.1
  rw [hid] at hk
  unfold kindOf at hk
  rw [hn] at hk
  dsimp only at hk
  rw [if_neg (by omega), if_pos h2] at hk
  exact (Option.some.inj hk).symm

theorem step_tempo {w w' : World} {L : Nat → Prop} (r : WReach w L) (hst : Storable w) (x : PyNum)
    (h : w.setTempo x = (w', .ok ())) : StepOk w w' L := by
  obtain ⟨t, v, -, -, -, -, h1, h2, rfl⟩ := setTempo_cases w x h
  obtain ⟨⟨a1, a2⟩, ⟨b1, b2⟩, c1, c2⟩ := tempo_bounds h1 (le_trans h2 (highest_le v))
  obtain ⟨r1, p1⟩ := assignIf_eq r 156 x.milli
  obtain ⟨r2, p2⟩ := assignIf_eq r1 93 x.fine
  obtain ⟨r3, p3⟩ := assignIf_eq r2 66 x.val.floor
  have s1 : StepOk w _ L := step_setFirst r1 hst (by decide) (by decide) (fun e he hid => by
    rw [storable_kind hst he (k := .u32) (by rw [hid]; decide +kernel)]
    refine ⟨_, rfl, ?_⟩
    simp [leafValid, intFits]
    omega) p1
  have s2 : StepOk _ _ L := step_setFirst r2 s1.storable (by decide) (by decide) (fun e he hid => by
    rw [word_kind s1.storable he hid (by decide +kernel) (by decide) (by decide)]
    refine ⟨_, rfl, ?_⟩
    simp [leafValid, intFits]
    omega) p2
  have s3 : StepOk _ _ L := step_setFirst r3 s2.storable (by decide) (by decide) (fun e he hid => by
    rw [word_kind s2.storable he hid (by decide +kernel) (by decide) (by decide)]
    refine ⟨_, rfl, ?_⟩
    simp [leafValid, intFits]
    omega) p3
  exact (s1.trans s2).trans s3

theorem step_licensee [UniEnv] {w w' : World} {L : Nat → Prop} (r : WReach w L) (hst : Storable w) (s : PStr)
    (h : w.setLicensee s = (w', .ok ())) : StepOk w w' L := by
  obtain ⟨⟨t, ht, hp⟩, -⟩ := C43_licensee r s h
  have hr : WReach w' L := by
    unfold World.setLicensee at h
    split at h
    · cases h
    split at h
    · cases h
    rcases assignFirst_eq r 200 (.str (licEncode s 0)) .propertyCannotBeSet with ⟨g0, g⟩ | ⟨w2, g1, g2, g3, g4⟩
    · rw [g] at h; cases h
    · rw [g1] at h; cases h; exact g2
  refine step_setFirst hr hst (by decide) (by decide) (fun e he hid => ?_) hp
  refine valid_text (text_kind hst.typed he (hid ▸ ⟨by decide +kernel, .inl (by omega)⟩)) fun c hc => ?_
  have := ht c hc
  refine ⟨by omega, fun _ => by omega, fun _ => .inl (by omega)⟩

/-- One event object gets a value that fits. -/
theorem step_ev {w : World} {L : Nat → Prop} (r : WReach w L) (hst : Storable w) {ref : Nat} (href : ref ∈ w.refs 0)
    {v : Value} (h : (w.ev ref).id ≠ 199 ∧ (w.ev ref).id ≠ 201 ∧ validValue (w.ev ref).kind (w.ev ref).len v) :
    StepOk w (w.setEv ref { w.ev ref with value := v }) L := by
  have hev : ∀ ref' : Nat, ∃ v', (w.setEv ref { w.ev ref with value := v }).ev ref' = { w.ev ref' with value := v' } ∧
      (v' = (w.ev ref').value ∨ ((w.ev ref').id ≠ 199 ∧ (w.ev ref').id ≠ 201 ∧
        validValue (w.ev ref').kind (w.ev ref').len v')) := by
    intro ref'
    rw [World.ev_setEv]
    split
    · next hh => obtain ⟨rfl, -⟩ := hh; exact ⟨v, rfl, .inr h⟩
    · exact ⟨_, rfl, .inl rfl⟩
  refine ⟨.assign r ref v, kept_storable (kept_store (w := w) rfl fun x _ => hev x) hst.format hst.ppq hst, ?_⟩
  exact shape_eq_of_store (w := w) rfl fun x _ => let ⟨v', h1, _⟩ := hev x; ⟨v', h1⟩

theorem refs_sub {w : World} {L : Nat → Prop} (r : WReach w L) {t : Nat} (ht : L t) {ref : Nat} (h : ref ∈ w.refs t) :
    ref ∈ w.refs 0 := by
  rw [World.refs_eq] at h ⊢
  exact ((wreach_sub r ht).1.map _).subset h

theorem list_id {w : World} (hst : Storable w) {e : Event} (he : e ∈ w.project.events) {l : LName} (hk : e.kind = .list l) :
    e.id ≠ 199 ∧ e.id ≠ 201 := by
  have h : ∀ id, untypedText id → e.id ≠ id := by
    rintro id hid rfl
    rcases text_kind hst.typed he hid with h | h <;> rw [hk] at h <;> cases h
  refine ⟨fun h199 => ?_, h 201 ⟨by decide +kernel, .inl (by omega)⟩⟩
  have := storable_kind hst he (k := .ascii) (by rw [h199]; decide +kernel)
  rw [hk] at this
  cases this

theorem step_item {w : World} {L : Nat → Prop} (r : WReach w L) (hst : Storable w) {t : Nat} (ht : L t) {ref : Nat}
    (href : ref ∈ w.refs t) {l : LName} (hk : (w.ev ref).kind = .list l)
    {recs : List Rec} {s s' : ListObj} {hs : List Item} {es : List Edit} (hr : IReach recs s hs es)
    (hval : (w.ev ref).value = .items s.value) {it : Item} (hit : it ∈ hs) {key : String} {x old : LV}
    (hold : s.get it key = .ok (some old)) (hx : ∀ f, (key, f) ∈ l.fields → leafValid f.leaf x)
    (h : s.set it key (some x) = (s', .ok ())) :
    StepOk w (w.setEv ref { w.ev ref with value := .items s'.value }) L := by
  have href0 := refs_sub r ht href
  have he : w.ev ref ∈ w.project.events := List.mem_map_of_mem href0
  obtain ⟨i1, i2⟩ := list_id hst he hk
  refine step_ev r hst href0 ⟨i1, i2, ?_⟩
  have hv := hst.valid _ he
  rw [hk, hval] at hv
  obtain ⟨v1, v2⟩ := hv
  have hr' : IReach recs s' hs (es ++ [(it.index, key, some x)]) := by
    have := IReach.edit hr hit key (some x)
    rw [h] at this
    exact this
  have hv' := ireach_value hr'
  rw [List.foldl_append, ← ireach_value hr] at hv'
  rw [hk, hv']
  obtain ⟨j1, j2, j3⟩ := ireach_inv hr
  obtain ⟨j4, j5⟩ := j3 it hit
  refine ⟨edits_valid [(it.index, key, some x)] v1 ?_, by rw [applyEdits_length]; exact v2⟩
  intro e he'
  simp only [List.mem_cons, List.not_mem_nil, or_false] at he'
  subst he'
  refine ⟨x, rfl, hx, fun rec hrec => ⟨old, ?_⟩⟩
  have hrec' : s.value[it.index]? = some rec := hrec
  rw [ireach_value hr, ← j1] at hrec'
  unfold ListObj.get at hold
  rw [j4, List.getD_eq_getElem?_getD, hrec', Option.getD_some] at hold
  dsimp only
  cases hl : Rec.lookup rec key with
  | none => rw [hl] at hold; cases hold
  | some v => rw [hl] at hold; cases hold; rfl

theorem param_msg {len : Nat} {r : Rec} (h : validItem ⟨len⟩ LName.mixerParams.fields r) :
    ∃ old, Rec.lookup r "msg" = some (some old) := by
  rcases r with _ | ⟨⟨n1, x1⟩, r⟩
  · simp [LName.fields, validItem] at h
  cases x1 with
  | none => simp [LName.fields, validItem] at h
  | some x1 =>
  rcases r with _ | ⟨⟨n2, x2⟩, r⟩
  · simp [LName.fields, validItem] at h
  cases x2 with
  | none => simp [LName.fields, validItem] at h
  | some x2 =>
  rcases r with _ | ⟨⟨n3, x3⟩, r⟩
  · simp [LName.fields, validItem] at h
  cases x3 with
  | none => simp [LName.fields, validItem] at h
  | some x3 =>
  rcases r with _ | ⟨⟨n4, x4⟩, r⟩
  · simp [LName.fields, validItem] at h
  cases x4 with
  | none => simp [LName.fields, validItem] at h
  | some x4 =>
  rcases r with _ | ⟨⟨n5, x5⟩, r⟩
  · simp [LName.fields, validItem] at h
  cases x5 with
  | none => simp [LName.fields, validItem] at h
  | some x5 =>
  simp only [LName.fields, validItem] at h
  obtain ⟨rfl, -, rfl, -, rfl, -, rfl, -, rfl, -⟩ := h
  exact ⟨x5, rfl⟩

theorem step_param {w : World} {L : Nat → Prop} (r : WReach w L) (hst : Storable w) {t : Nat} (ht : L t) {ref : Nat}
    (href : ref ∈ w.refs t) (hk : (w.ev ref).kind = .list .mixerParams)
    {recs : List Rec} {q q' : ParamsObj} (hr : PReach recs q) (hval : (w.ev ref).value = .items q.value) {i : Nat}
    {id : Int} (h0 : id ≠ 0) (h1 : id ≠ 1) {n : Int} (hn : -2 ^ 31 ≤ n ∧ n < 2 ^ 31)
    (h : q.set i id (some (.int n)) = (q', .ok ()) ∨ q.eqSet i id (some (.int n)) = (q', .ok ())) :
    StepOk w (w.setEv ref { w.ev ref with value := .items q'.value }) L := by
  have href0 := refs_sub r ht href
  have he : w.ev ref ∈ w.project.events := List.mem_map_of_mem href0
  obtain ⟨i1, i2⟩ := list_id hst he hk
  refine step_ev r hst href0 ⟨i1, i2, ?_⟩
  have hv := hst.valid _ he
  rw [hk, hval] at hv
  obtain ⟨v1, v2⟩ := hv
  have hinv := preach_inv hr
  have hq : ∃ k rec, q.value[k]? = some rec ∧ q' = q.setMsg k (some (.int n)) := by
    rcases own_cases hinv i h0 h1 with ⟨-, g⟩ | ⟨-, d, g1, ⟨k, rec, g2, g3⟩ | ⟨-, g3⟩⟩
    · rcases h with h | h
      · unfold ParamsObj.set at h; rw [g] at h; cases h
      · unfold ParamsObj.eqSet at h; rw [g] at h; cases h
    · refine ⟨k, rec, g2.1, ?_⟩
      rcases h with h | h
      · unfold ParamsObj.set at h; rw [g1] at h; dsimp only at h; rw [g3] at h; cases h; rfl
      · unfold ParamsObj.eqSet at h; rw [g1] at h; dsimp only at h; rw [g3] at h; cases h; rfl
    · rcases h with h | h
      · unfold ParamsObj.set at h; rw [g1] at h; dsimp only at h; rw [g3] at h; cases h
      · unfold ParamsObj.eqSet at h; rw [g1] at h; dsimp only at h; rw [g3] at h; cases h
  obtain ⟨k, rec, k1, rfl⟩ := hq
  have hrec := v1 rec (List.mem_of_getElem? k1)
  obtain ⟨old, hold⟩ := param_msg hrec
  rw [hk, setMsg_value hinv k1]
  refine ⟨fun y hy => ?_, by rw [List.length_set]; exact v2⟩
  rcases List.mem_or_eq_of_mem_set hy with hy | rfl
  · exact v1 y hy
  · unfold Rec.put
    rw [if_pos (by rw [hold]; rfl)]
    refine validItem_update hrec hold fun f hf => ?_
    simp [LName.fields] at hf
    subst hf
    simp [Fld.leaf, i32, leafValid, intFits]
    omega

theorem step_patternIid {w : World} {L : Nat → Prop} (r : WReach w L) (hst : Storable w) {u : Nat} (hu : L u) (n : Int)
    (hn : 0 ≤ n ∧ n < 65536) : StepOk w (w.setPatternIid u (.lv (.int n))) L := by
  have hmem : ∀ x ∈ w.heap.get u [65], x ∈ w.refs 0 ∧ x < w.store.length ∧ (w.ev x).id = 65 := by
    intro x hx
    rw [get_entries r hu] at hx
    obtain ⟨e, he, rfl⟩ := List.mem_map.1 hx
    obtain ⟨h1, h2⟩ := List.mem_filter.1 he
    refine ⟨?_, entry_lt r hu h1, ?_⟩
    · refine refs_sub r hu ?_
      rw [World.refs_eq]
      rw [World.entries_eq] at h1
      obtain ⟨y, hy, rfl⟩ := List.mem_map.1 h1
      exact List.mem_map_of_mem hy
    · rw [World.entries_eq] at h1
      obtain ⟨y, hy, rfl⟩ := List.mem_map.1 h1
      simpa using h2
  obtain ⟨k1, k2, k3, k4, k5, k6⟩ := setEvs_spec (.lv (.int n)) _ r fun x hx => (hmem x hx).2.1
  change WReach (w.setPatternIid u _) L at k1
  change (w.setPatternIid u _).heap = _ at k2
  change (w.setPatternIid u _).format = _ at k3
  change (w.setPatternIid u _).ppq = _ at k5
  change ∀ x, (w.setPatternIid u _).ev x = _ at k6
  have hev : ∀ ref, ∃ v, (w.setPatternIid u (.lv (.int n))).ev ref = { w.ev ref with value := v } ∧
      (v = (w.ev ref).value ∨ ((w.ev ref).id ≠ 199 ∧ (w.ev ref).id ≠ 201 ∧
        validValue (w.ev ref).kind (w.ev ref).len v)) := by
    intro ref
    rw [k6]
    split
    · next hx =>
      obtain ⟨m1, -, m2⟩ := hmem ref hx
      have he : w.ev ref ∈ w.project.events := List.mem_map_of_mem m1
      refine ⟨_, rfl, .inr ⟨by rw [m2]; decide, by rw [m2]; decide, ?_⟩⟩
      rw [storable_kind hst he (k := .u16) (by rw [m2]; decide +kernel)]
      refine ⟨_, rfl, ?_⟩
      simp [leafValid, intFits]
      omega
    · exact ⟨_, rfl, .inl rfl⟩
  refine ⟨k1, kept_storable (kept_store (w := w) k2 fun x _ => hev x) (by rw [k3]; exact hst.format)
    (by rw [k5]; exact hst.ppq) hst, ?_⟩
  exact shape_eq_of_store (w := w) k2 fun x _ => let ⟨v', h1, _⟩ := hev x; ⟨v', h1⟩

omit [FloatEnv] in
theorem shade_col (n : Nat) : isCol (shade (n % 256)) :=
  ⟨UInt8.ofNat (n % 256), by unfold shade colDecode; rw [UInt8.toNat_ofNat']; congr 3; omega⟩

/-- Every edit keeps the project storable. -/
theorem edit_step [FloatAdd] [UniEnv] {w w' : World} {L : Nat → Prop} (r : WReach w L) (hst : Storable w)
    (h : EditStep w L w') : StepOk w w' L := by
  have hty := storable_typed hst
  cases h with
  | prop ht ver p hp hArp hm hT hname x hx h => exact step_prop r hst ht ver p hp hArp hm hT hname x hx h
  | knob ht k hold n h0 h1 h =>
    obtain ⟨a1, a2, a3, -⟩ := level_storable r ht hst k hold n h0 h1 h
    exact step_only a1 a2 a3
  | pitch ht n h0 h1 h =>
    obtain ⟨⟨v, v1, -⟩, -⟩ := C79_get r ht (typed_view r ht hty)
    obtain ⟨s1, s2⟩ := C79_set r ht hty n
    cases v with
    | none => rw [s2 v1] at h; cases h
    | some old =>
      obtain ⟨w2, a1, -, a2, -, a3, a4⟩ := s1 old v1
      rw [h] at a1; cases a1
      exact step_only a2 (a4 hst h0 h1) a3
  | reverbType ht ty hm h =>
    obtain ⟨s1, s2⟩ := C80_type_partial r ht hty ty
    rcases C80_get r ht (typed_view r ht hty) with ⟨-, -, hz⟩ | ⟨n, -, -, hz⟩
    · rw [s2 hz] at h; cases h
    · obtain ⟨w2, a1, -, -, a2, a3, -, a4⟩ := s1 _ hz (hm _ hz)
      rw [h] at a1; cases a1
      exact step_only a2 (a4 hst) a3
  | reverbMix ht hz m h0 h1 h =>
    obtain ⟨w2, a1, -, -, a2, a3, -, a4⟩ := (C80_mix_partial r ht hty m h0 h1).1 hz
    rw [h] at a1; cases a1
    exact step_only a2 (a4 hst) a3
  | delayX ht n h0 h1 h =>
    rcases C81_delay r ht hty n with ⟨x, y, -, -, -, ⟨w2, a1, -, -, a2, a3, -, a4⟩, -⟩ | ⟨-, -, -, a1, -⟩
    · rw [h] at a1; cases a1
      exact step_only a2 (a4 hst h0 h1) a3
    · rw [h] at a1; cases a1
  | delayY ht n h0 h1 h =>
    rcases C81_delay r ht hty n with ⟨x, y, -, -, -, -, w2, a1, -, -, a2, a3, -, a4⟩ | ⟨-, -, -, -, a1⟩
    · rw [h] at a1; cases a1
      exact step_only a2 (a4 hst h0 h1) a3
    · rw [h] at a1; cases a1
  | trackColour ht hrec hold c hc h =>
    obtain ⟨w2, n, -, a1, -, -, a2, a3⟩ := (C85_set r ht hrec hold c).1 hc
    rw [h] at a1; cases a1
    exact step_only a2.reach (a3 hst) (a2.changedOnly (ids := [238]) (by simp))
  | samplePath ht q hq h =>
    rcases C83_sample_path r ht hst q with ⟨s, -, -, w2, a1, -, a2, a3, a4⟩ | ⟨-, -, a1⟩
    · rw [h] at a1; cases a1
      exact step_only a2 (a4 hq) a3
    · rw [h] at a1; cases a1
  | dataPath ht q hq h =>
    rcases C83_data_path r ht hst q with ⟨s, -, -, ⟨w2, a1, -, a2, -, a3, a4⟩, -⟩ | ⟨-, -, a1⟩
    · rw [h] at a1; cases a1
      exact step_only a2 (a4 hq) a3
    · rw [h] at a1; cases a1
  | point ht hps hus hu k x hx h =>
    obtain ⟨⟨w2, a1, -, -, a2, a3, a4⟩, -⟩ := C84_set r ht hps hus hu k x
    rw [h] at a1; cases a1
    exact step_only a2 (a4 hst hx) a3
  | vstText ht hs ha hx h =>
    obtain ⟨w2, d', a1, -, -, a2, -, a3⟩ := C87_set_partial r ht hs ha hx
    rw [h] at a1; cases a1
    exact step_only a2.reach (a3 hst) (a2.changedOnly (ids := [213]) (by simp))
  | vstFlag ht hf hd v h =>
    obtain ⟨w2, a1, a2, a3, -, -, -, a4⟩ := flagData_set r ht hf hd v
    rw [h] at a1; cases a1
    exact step_only a2 (a4 hst) a3
  | loop ht hl a b ha hb h => exact step_loop r hst ht hl a b ha hb h
  | format f hf => exact ⟨.header r f w.channelCount w.ppq, ⟨hf, hst.ppq, hst.typed, hst.valid⟩, rfl⟩
  | ppq n h =>
    unfold World.setPPQ at h
    split at h
    · next hn =>
      cases h
      refine ⟨.header r w.format w.channelCount n.toNat, ⟨hst.format, ?_, hst.typed, hst.valid⟩, rfl⟩
      obtain ⟨m, m1, m2⟩ := List.any_eq_true.1 hn
      have : n.toNat = m := by simp at m2; omega
      show n.toNat ∈ ppqs
      rw [this]
      exact m1
    · cases h
  | channelCount n h =>
    unfold World.setChannelCount at h
    split at h
    · cases h
    · cases h
      exact ⟨.header r w.format n.toNat w.ppq, ⟨hst.format, hst.ppq, hst.typed, hst.valid⟩, rfl⟩
  | tempo x h => exact step_tempo r hst x h
  | licensee s h => exact step_licensee r hst s h
  | version v old hold hside hbuild h =>
    obtain ⟨a1, -, a2, a3, a4, a5, a6⟩ := version_storable r v old hst.typed hst.valid hold hside hbuild h
    exact ⟨a1, ⟨a2 ▸ hst.format, a3 ▸ hst.ppq, a5, a6⟩, a4⟩
  | item ht href hk hr hval hit hold hx h => exact step_item r hst ht href hk hr hval hit hold hx h
  | param ht href hk hr hval h0 h1 hn h => exact step_param r hst ht href hk hr hval h0 h1 hn h
  | patternIid hu n hn => exact step_patternIid r hst hu n hn
  | @colour t ht id hk n _ h =>
    by_cases hs : (valueOf (w.events t) id).isSome
    · obtain ⟨w2, a1, a2, -, -, -⟩ := C86_colour r ht hst hk hs (colourOf n)
      rw [h] at a1; cases a1
      refine step_only a2.reach (assigned_storable a2 hst (by rintro rfl; exact absurd hk (by decide +kernel))
        (by rintro rfl; exact absurd hk (by decide +kernel)) fun e he hid _ => ?_) (a2.changedOnly (ids := [id]) (by simp))
      rw [storable_kind hst he (hid ▸ hk)]
      exact ⟨shade_col _, shade_col _, shade_col _, shade_col _⟩
    · rcases single_event r ht id with ⟨ref, -, -, f2, -⟩ | ⟨f1, -⟩
      · rw [f2] at hs; simp at hs
      · unfold Descr.write at h
        rw [show (eventProp [id]).ids = [id] from rfl, f1] at h
        cases h
  | notebookPage ht hn n h0 h1 h =>
    obtain ⟨w2, a1, -, a2, a3⟩ := C114_active r ht hn n
    rw [h] at a1; cases a1
    exact step_only a2.reach ((a3 hst).1 ⟨h0, h1⟩) (a2.changedOnly (ids := [213]) (by simp))
  | notebookEditable ht hn x h =>
    obtain ⟨w2, a1, -, a2, a3⟩ := C114_editable r ht hn x
    rw [h] at a1; cases a1
    exact step_only a2.reach (a3 hst) (a2.changedOnly (ids := [213]) (by simp))
  | notebookText ht hn s hs hz hlen h =>
    obtain ⟨w2, a1, -, a2, a3⟩ := C114_text_partial r ht hn s
    rw [h] at a1; cases a1
    exact step_only a2.reach (a3 hst hs hz hlen) (a2.changedOnly (ids := [213]) (by simp))

/-- Removing an event. -/
theorem step_remove {w : World} {L : Nat → Prop} (r : WReach w L) (hst : Storable w) {t id : Nat} {n : Int} {h' : Heap}
    {x : Nat} (ht : L t) (h199 : id ≠ 199) (h201 : id ≠ 201) (hp : w.heap.pop t id n = (h', .ok x)) :
    Storable { w with heap := h' } ∧
      (({ w with heap := h' } : World).project.events.map shape).Sublist (w.project.events.map shape) := by
  obtain ⟨hr, hinv⟩ := wreach_inv r
  obtain ⟨g, hn⟩ := reach_good hr
  obtain ⟨p1, p2⟩ := pop_shown g ht id n
  suffices hk : Kept w.project.events ({ w with heap := h' } : World).project.events from
    ⟨kept_storable hk hst.format hst.ppq hst, kept_shape hk⟩
  cases hpp : plainPop (shown w.heap t) id n with
  | error e => rw [p1 e hpp] at hp; cases hp
  | ok res =>
    obtain ⟨ev, l'⟩ := res
    obtain ⟨h'', ie, e1, e2, e3, e4, e5, e6, e7, e8, e9⟩ := p2 ev l' hpp
    rw [hp] at e1
    injection e1 with e1 e1'
    subst e1
    obtain ⟨c1, _, _⟩ := g.chain_facts t ht
    have hlst := e8 0
    rw [if_pos c1] at hlst
    have hid : (w.ev (w.heap.cell ie).ref).id = id := by
      have hm : ((w.heap.cell ie).ref, (w.heap.cell ie).id) ∈ shown w.heap 0 :=
        (wreach_sub r ht).1.subset (List.mem_map_of_mem (f := fun a => ((w.heap.cell a).ref, (w.heap.cell a).id)) e2)
      rw [(hinv _ hm).2, ← e4, e3]
    show Kept (((w.heap.lst 0).map fun a => (w.heap.cell a).ref).map w.ev)
      (((h'.lst 0).map fun a => (h'.cell a).ref).map w.ev)
    rw [hlst]
    have hcell : ∀ a, (h'.cell a).ref = (w.heap.cell a).ref := fun a => e6.ref a
    simp only [hcell, List.map_map]
    have : ∀ l : List Nat, Kept (l.map (w.ev ∘ fun a => (w.heap.cell a).ref))
        ((l.filter (· ≠ ie)).map (w.ev ∘ fun a => (w.heap.cell a).ref)) := by
      intro l
      induction l with
      | nil => exact .nil
      | cons a l ih =>
        by_cases ha : a = ie
        · subst ha
          rw [List.filter_cons_of_neg (by simp)]
          refine .drop _ ?_ ih
          show (w.ev (w.heap.cell a).ref).id ≠ 199 ∧ (w.ev (w.heap.cell a).ref).id ≠ 201
          rw [hid]
          exact ⟨h199, h201⟩
        · rw [List.filter_cons_of_pos (by simpa using ha)]
          exact .keep _ _ (.inl rfl) ih
    exact this _

omit [FloatEnv] in
/-- Events other than version and class name do not change the type of later events. -/
theorem kindOf_insert {e : Event} (h199 : e.id ≠ 199) (h201 : e.id ≠ 201) (a b : List Event) (id : Nat) :
    kindOf (a ++ e :: b) id = kindOf (a ++ b) id := by
  have h : ∀ i, i = 199 ∨ i = 201 → lastStr i (a ++ e :: b) = lastStr i (a ++ b) := by
    intro i hi
    have : e.id ≠ i := by rcases hi with rfl | rfl; exact h199; exact h201
    unfold lastStr
    rw [List.filter_append, List.filter_append, List.filter_cons_of_neg (by simpa using this)]
  unfold kindOf textKind pluginKind
  rw [h _ (.inl rfl), h _ (.inr rfl)]

/-- Splitting a list into which one event has been inserted. -/
theorem split_inserted {α : Type} {a b before after : List α} {e x : α} (h : a ++ e :: b = before ++ x :: after) :
    (∃ m, a = before ++ x :: m ∧ after = m ++ e :: b) ∨ (a = before ∧ e = x ∧ b = after) ∨
      ∃ m, before = a ++ e :: m ∧ b = m ++ x :: after := by
  rcases List.append_eq_append_iff.1 h with ⟨m, h1, h2⟩ | ⟨m, h1, h2⟩
  · cases m with
    | nil => simp at h1 h2; exact .inr (.inl ⟨h1.symm, h2.1, h2.2⟩)
    | cons y m =>
      simp only [List.cons_append, List.cons.injEq] at h2
      obtain ⟨rfl, h2⟩ := h2
      exact .inr (.inr ⟨m, h1, h2⟩)
  · cases m with
    | nil => simp at h1 h2; exact .inr (.inl ⟨h1, h2.1.symm, h2.2.symm⟩)
    | cons y m =>
      simp only [List.cons_append, List.cons.injEq] at h2
      obtain ⟨rfl, h2⟩ := h2
      exact .inl ⟨m, h1, h2⟩

/-- Inserting an event. -/
theorem step_insert {w : World} {L : Nat → Prop} (r : WReach w L) (hst : Storable w) {t : Nat} {pos : Int} {h' : Heap}
    (ht : L t) (e : Event) (h199 : e.id ≠ 199) (h201 : e.id ≠ 201) (hv : validValue e.kind e.len e.value)
    (h : w.heap.insert t pos w.store.length e.id = (h', .ok ()))
    (hkind : ∀ before after, ({ w with heap := h', store := w.store ++ [e] } : World).project.events = before ++ e :: after →
      e.id < 256 ∧ kindOf before e.id = some e.kind) :
    Storable { w with heap := h', store := w.store ++ [e] } ∧
      (w.project.events.map shape).Sublist
        (({ w with heap := h', store := w.store ++ [e] } : World).project.events.map shape) := by
  obtain ⟨k, hk⟩ := inserted_events r ht h
  have hall : w.project.events.take k ++ w.project.events.drop k = w.project.events := List.take_append_drop _ _
  refine ⟨⟨hst.format, hst.ppq, ?_, ?_⟩, ?_⟩
  · intro before x after hx
    rcases split_inserted (hk.symm.trans hx) with ⟨m, h1, h2⟩ | ⟨h1, rfl, h3⟩ | ⟨m, h1, h2⟩
    · exact hst.typed before x (m ++ w.project.events.drop k) (by
        conv => lhs; rw [← hall, h1]
        simp)
    · exact ⟨(hkind _ _ hx).1, (hkind _ _ hx).2, fun h => absurd h h199⟩
    · have := hst.typed (w.project.events.take k ++ m) x after (by
        conv => lhs; rw [← hall, h2]
        simp)
      rw [h1, kindOf_insert h199 h201]
      exact this
  · intro x hx
    rw [hk] at hx
    rcases List.mem_append.1 hx with hx | hx
    · exact hst.valid x (List.mem_of_mem_take hx)
    · rcases List.mem_cons.1 hx with rfl | hx
      · exact hv
      · exact hst.valid x (List.mem_of_mem_drop hx)
  · rw [hk]
    conv => lhs; rw [← hall]
    exact ((List.Sublist.refl _).append (List.sublist_cons_self _ _)).map _

/-- Storable events have bytes. -/
theorem valid_toBytes {w : World} (hst : Storable w) {e : Event} (he : e ∈ w.project.events) :
    ∃ b, e.toBytes = .ok b := by
  obtain ⟨a, c, hac⟩ := List.append_of_mem he
  have hid := (hst.typed a e c hac).1
  obtain ⟨b, hb, -⟩ := kind_roundtrip (hst.valid e he)
  have hp : e.payload = .ok b := hb
  have hi := intBuild_nat (w := 1) (n := e.id) (by omega)
  unfold Event.toBytes
  rw [hp]
  dsimp only
  rw [hi]
  dsimp only
  by_cases h : e.id < 192
  · rw [if_pos h]; exact ⟨_, rfl⟩
  · rw [if_neg h]; exact ⟨_, rfl⟩

/-- States of a session. -/
theorem session_state [FloatAdd] [UniEnv] {p : Project} {removals insertions : Prop} {w : World} {L : Nat → Prop}
    (hp : Storable (World.ofProject p)) (s : Session p removals insertions w L) :
    WReach w L ∧ Storable w ∧ (¬ insertions → (w.project.events.map shape).Sublist (p.events.map shape)) ∧
      (¬ removals → (p.events.map shape).Sublist (w.project.events.map shape)) := by
  induction s with
  | opened =>
    have : (World.ofProject p).project = p := ofProject_project p
    exact ⟨.parsed p, hp, fun _ => by rw [this], fun _ => by rw [this]⟩
  | @look w L t s ht hne call ih =>
    obtain ⟨i1, i2, i3, i4⟩ := ih
    have r' := WReach.view i1 ht hne call
    have hev : ({ w with heap := (view w.heap t call).1 } : World).project = w.project := by
      obtain ⟨g, -⟩ := reach_good (wreach_inv i1).1
      show (⟨w.format, w.channelCount, w.ppq, _⟩ : Project) = ⟨w.format, w.channelCount, w.ppq, _⟩
      congr 1
      show World.events _ 0 = w.events 0
      unfold World.events
      rw [World.refs_eq, World.refs_eq]
      show ((shown (view w.heap t call).1 0).map Prod.fst).map w.ev = _
      rw [shown_view (g.lt t ht) call (g.lt 0 g.vρ)]
    refine ⟨r', ⟨i2.format, i2.ppq, by rw [hev]; exact i2.typed, by rw [hev]; exact i2.valid⟩, by rw [hev]; exact i3,
      by rw [hev]; exact i4⟩
  | edit s h ih =>
    obtain ⟨i1, i2, i3, i4⟩ := ih
    have := edit_step i1 i2 h
    exact ⟨this.reach, this.storable, fun hi => by rw [this.shape]; exact i3 hi, fun hr => by rw [this.shape]; exact i4 hr⟩
  | remove hr s ht h199 h201 hp ih =>
    obtain ⟨i1, i2, i3, i4⟩ := ih
    obtain ⟨a1, a2⟩ := step_remove i1 i2 ht h199 h201 hp
    exact ⟨.pop i1 ht hp, a1, fun hi => a2.trans (i3 hi), fun h => absurd hr h⟩
  | insert hi s ht e h199 h201 hv h hkind ih =>
    obtain ⟨i1, i2, i3, i4⟩ := ih
    obtain ⟨a1, a2⟩ := step_insert i1 i2 ht e h199 h201 hv h hkind
    exact ⟨.insert i1 ht e h, a1, fun h => absurd hi h, fun hr => (i4 hr).trans a2⟩

/-- C108. Whatever a program does with a project that it has opened, in any order and any number of times: the events are
those of the file, in their order and with their types and sizes (without the ones the program has removed, and with
those it has inserted); if the project is saved, the file is read as exactly the state it was saved in, and saving that
again gives the same file. -/
theorem C108_session_partial [FloatAdd] [UniEnv] {file : Bytes} {p : Project} (hopen : parseFile file = .ok p)
    (hvalid : ∀ e ∈ p.events, validValue e.kind e.len e.value) {removals insertions : Prop} {w : World} {L : Nat → Prop}
    (s : Session p removals insertions w L) :
    (¬ insertions → (w.project.events.map shape).Sublist (p.events.map shape)) ∧
    (¬ removals → (p.events.map shape).Sublist (w.project.events.map shape)) ∧
    (¬ removals → ¬ insertions → w.project.events.map shape = p.events.map shape) ∧
    ∀ file', saveBytes w.project = .ok file' → ∃ q, parseFile file' = .ok q ∧ q.format = w.format ∧ q.ppq = w.ppq ∧
      q.events.map observe = w.project.events.map observe ∧ saveBytes q = .ok file' := by
  obtain ⟨t1, t2, t3⟩ := C04_parsed_wellTyped file p hopen
  have hp : Storable (World.ofProject p) := by
    refine ⟨t2, t3, ?_, ?_⟩ <;> rw [ofProject_project]
    · exact t1
    · exact hvalid
  obtain ⟨-, h2, h3, h4⟩ := session_state hp s
  refine ⟨h3, h4, fun hr hi => ?_, fun file' hs => ?_⟩
  · exact (h3 hi).eq_of_length_le (h4 hr).length_le
  · obtain ⟨q, q1, q2, q3, -, q5, q6⟩ := C04_save_parse w.project file' h2.format h2.ppq h2.typed h2.valid hs
    exact ⟨q, q1, q2, q3, q5, q6⟩

/-- C108, saving: after any edits, removals and insertions every event has its bytes, and the project can be saved as long
as it has between 1 and 65535 channels and the events do not become larger than 4 GB; the former is the case if it
could be saved when it was opened and no event was removed or inserted. -/
theorem C108_saves_partial [FloatAdd] [UniEnv] {file : Bytes} {p : Project} (hopen : parseFile file = .ok p)
    (hvalid : ∀ e ∈ p.events, validValue e.kind e.len e.value) {removals insertions : Prop} {w : World}
    {L : Nat → Prop} (s : Session p removals insertions w L)
    (hchan : (1 ≤ channelStarts w.project.events ∧ channelStarts w.project.events < 65536) ∨
      (¬ removals ∧ ¬ insertions ∧ ∃ f, saveBytes p = .ok f)) :
    ∃ raws : List Bytes, w.project.events.map Event.toBytes = raws.map .ok ∧
      (raws.flatten.length < 2 ^ 32 → ∃ file', saveBytes w.project = .ok file') := by
  have h4 := (C108_session_partial hopen hvalid s).2.2.1
  obtain ⟨t1, t2, t3⟩ := C04_parsed_wellTyped file p hopen
  have hp : Storable (World.ofProject p) := by
    refine ⟨t2, t3, ?_, ?_⟩ <;> rw [ofProject_project]
    · exact t1
    · exact hvalid
  obtain ⟨-, h2, -, -⟩ := session_state hp s
  have hc : 1 ≤ channelStarts w.project.events ∧ channelStarts w.project.events < 65536 := by
    rcases hchan with h | ⟨hr, hi, hsave⟩
    · exact h
    obtain ⟨-, -, hb, -⟩ := (C03_save_succeeds p).1 hsave
    have hm : ∀ evs : List Event, channelStarts evs = ((evs.map shape).filter fun x => x.1 = 64).length := by
      intro evs
      unfold channelStarts
      rw [List.filter_map, List.length_map]
      rfl
    rw [hm, h4 hr hi, ← hm]
    exact hb
  have hb : ∀ evs : List Event, (∀ e ∈ evs, e ∈ w.project.events) → ∃ raws : List Bytes,
      evs.map Event.toBytes = raws.map Except.ok := by
    intro evs
    induction evs with
    | nil => intro _; exact ⟨[], rfl⟩
    | cons e evs ih =>
      intro hsub
      obtain ⟨raws, hraws⟩ := ih fun x hx => hsub x (by simp [hx])
      have he := hsub e (by simp)
      obtain ⟨b, hb⟩ := valid_toBytes h2 he
      exact ⟨b :: raws, by rw [List.map_cons, hb, hraws]; rfl⟩
  obtain ⟨raws, hraws⟩ := hb _ fun _ h => h
  refine ⟨raws, hraws, fun hlen => (C03_save_succeeds w.project).2 ⟨raws, hraws, hc, ?_, ?_, hlen⟩⟩
  · have : ∀ f ∈ formats, -32768 ≤ f ∧ f < 32768 := by decide
    exact this _ h2.format
  · have : ∀ n ∈ ppqs, n < 65536 := by decide
    exact this _ h2.ppq

end

namespace Demo

/-- A version, a tempo, a channel, a pattern and an event of no known kind. -/
def sessionEvents (bpm pattern : Int) (rest : List Event) : List Event :=
  [⟨199, .ascii, .str (PStr.lit "20.8.3"), 7⟩, ⟨66, .u16, .lv (.int bpm), 2⟩, ⟨64, .u16, .lv (.int 0), 2⟩,
    ⟨65, .u16, .lv (.int pattern), 2⟩] ++ rest

def sessionProject : Project := ⟨0, 1, 96, sessionEvents 130 1 [⟨255, .unknown, .bytes [9], 1⟩]⟩

def sessionFile : Bytes := [70, 76, 104, 100, 6, 0, 0, 0, 0, 0, 1, 0, 96, 0] ++ [70, 76, 100, 116, 21, 0, 0, 0] ++
  [199, 7, 50, 48, 46, 56, 46, 51, 0, 66, 130, 0, 64, 0, 0, 65, 1, 0, 255, 1, 9]

theorem session_parsed [FloatEnv] : parseFile sessionFile = .ok sessionProject := by
  have hfr : sessionFile.drop 22 = frames [(199, [50, 48, 46, 56, 46, 51, 0]), (66, [130, 0]), (64, [0, 0]), (65, [1, 0]), (255, [9])] := by
    simp [frames, frame, varBuild_small]
    rfl
  refine (C07_parse_iff _ _).2 ⟨0, 0, 1, 0, 96, 0, 21, 0, 0, 0, sessionFile.drop 22, rfl, by decide, by decide, by decide,
    by decide, rfl, rfl, rfl, _, by
      rw [hfr]
      exact splits_frames (by simp [FrameOK, sizeOK]), ?_⟩
  refine .cons ⟨rfl, rfl, by decide +kernel, rfl, by simp, by simp, by simp, fun _ => ⟨_, rfl, [20, 8, 3], by decide +kernel⟩⟩ ?_
  refine .cons ⟨rfl, rfl, by decide +kernel, rfl, by simp, by simp, by simp, by simp⟩ ?_
  refine .cons ⟨rfl, rfl, by decide +kernel, rfl, by simp, by simp, by simp, by simp⟩ ?_
  refine .cons ⟨rfl, rfl, by decide +kernel, rfl, by simp, by simp, by simp, by simp⟩ ?_
  refine .cons ⟨rfl, rfl, by decide +kernel, rfl, by simp, by simp, by simp, by simp⟩ .nil

theorem session_valid [FloatEnv] : ∀ e ∈ sessionProject.events, validValue e.kind e.len e.value := by
  intro e he
  simp only [sessionProject, sessionEvents, List.cons_append, List.nil_append, List.mem_cons, List.not_mem_nil, or_false] at he
  rcases he with rfl | rfl | rfl | rfl | rfl
  · exact ⟨by decide, by decide⟩
  · exact ⟨_, rfl, by simp [leafValid, intFits]⟩
  · exact ⟨_, rfl, by simp [leafValid, intFits]⟩
  · exact ⟨_, rfl, by simp [leafValid, intFits]⟩
  · trivial

end Demo

/-- The hypotheses of `C108_session_partial` can be met: the tempo becomes 140, the pattern number 7, the format that of a
score, the unknown event is removed, and an event is inserted before the tempo through a view of the tempo. -/
example [FloatEnv] [FloatAdd] [UniEnv] : parseFile Demo.sessionFile = .ok Demo.sessionProject ∧
    (∀ e ∈ Demo.sessionProject.events, validValue e.kind e.len e.value) ∧
    ∃ w L, Session Demo.sessionProject True True w L ∧
      w.project = ⟨16, 1, 96, [⟨199, .ascii, .str (PStr.lit "20.8.3"), 7⟩, ⟨93, .u16, .lv (.int 5), 2⟩,
        ⟨66, .u16, .lv (.int 140), 2⟩, ⟨64, .u16, .lv (.int 0), 2⟩, ⟨65, .u16, .lv (.int 7), 2⟩]⟩ := by
  refine ⟨Demo.session_parsed, Demo.session_valid, ?_⟩
  have s1 : Session Demo.sessionProject True True (World.ofProject Demo.sessionProject) (· = 0) := .opened
  have s2 := s1.edit (w' := World.ofProject ⟨0, 1, 96, Demo.sessionEvents 140 1 [⟨255, .unknown, .bytes [9], 1⟩]⟩)
    (.tempo (.int 140) (by decide +kernel))
  have s3 := s2.edit (EditStep.patternIid (L := fun x => x = 0) (u := 0) (by rfl) 7 (by decide))
  have s4 := s3.edit (.format 16 (by decide))
  have s5 := Session.remove (t := 0) (id := 255) (n := 0) (x := 4) trivial s4 rfl (by decide) (by decide) (by rfl)
  have s6 := s5.look (t := 0) ⟨rfl, by decide +kernel⟩ (by decide +kernel) (.separate 66)
  have s7 := s6.insert (t := 1) (pos := 0) trivial (.inr (by decide +kernel)) ⟨93, .u16, .lv (.int 5), 2⟩ (by decide) (by decide)
    ⟨_, rfl, by simp [leafValid, intFits]⟩ (by rfl) ?_
  · exact ⟨_, _, s7, by decide +kernel⟩
  · intro before after h
    refine ⟨by decide, ?_⟩
    unfold kindOf
    rfl

/-- The hypotheses of `C108_saves_partial` can be met. -/
example [FloatEnv] [FloatAdd] [UniEnv] : (∃ f, saveBytes Demo.sessionProject = .ok f) ∧ ∃ w L,
    Session Demo.sessionProject False False w L ∧ w.project = ⟨0, 1, 96, Demo.sessionEvents 140 7 [⟨255, .unknown, .bytes [9], 1⟩]⟩ := by
  refine ⟨(C03_save_succeeds _).2 ⟨[frame (199, [50, 48, 46, 56, 46, 51, 0]), frame (66, [130, 0]), frame (64, [0, 0]),
    frame (65, [1, 0]), frame (255, [9])], ?_, by decide, by decide, by decide, by simp [frame, Demo.varBuild_small]⟩, ?_⟩
  · show [Event.toBytes _, Event.toBytes _, Event.toBytes _, Event.toBytes _, Event.toBytes _] = _
    rw [Demo.toBytes_frame (b := [50, 48, 46, 56, 46, 51, 0]) (by decide) rfl,
      Demo.toBytes_frame (b := [130, 0]) (by decide) rfl, Demo.toBytes_frame (b := [0, 0]) (by decide) rfl,
      Demo.toBytes_frame (b := [1, 0]) (by decide) rfl, Demo.toBytes_frame (b := [9]) (by decide) rfl]
    rfl
  have s1 : Session Demo.sessionProject False False (World.ofProject Demo.sessionProject) (· = 0) := .opened
  have s2 := s1.edit (w' := World.ofProject ⟨0, 1, 96, Demo.sessionEvents 140 1 [⟨255, .unknown, .bytes [9], 1⟩]⟩)
    (.tempo (.int 140) (by decide +kernel))
  exact ⟨_, _, s2.edit (EditStep.patternIid (L := fun x => x = 0) (u := 0) (by rfl) 7 (by decide)), by rfl⟩

end PyFLP
