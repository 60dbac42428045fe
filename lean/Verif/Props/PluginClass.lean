import Verif.Props.Nested
/-!
# C92: the class of a plugin is the one of its internal name
-/

namespace PyFLP
open Spec

namespace Spec

/-- A plugin the library has a class for: its internal name, the class, whether it is for instruments and for effect slots. -/
structure KnownPlugin where
  name : String
  cls : PluginType
  instrument : Bool
  effect : Bool

/-- Whether the plugin is for effect slots (`effect = true`) or for instruments (`effect = false`). -/
def KnownPlugin.fits (q : KnownPlugin) : Bool → Bool
  | true => q.effect
  | false => q.instrument

/-- The documented plugins. -/
def plugins : List KnownPlugin := [
  ⟨"Fruity Wrapper", .vst, true, true⟩,
  ⟨"BooBass", .booBass, true, false⟩,
  ⟨"Fruit Kick", .fruitKick, true, false⟩,
  ⟨"Plucked!", .plucked, true, false⟩,
  ⟨"Fruity Balance", .fruityBalance, false, true⟩,
  ⟨"Fruity Blood Overdrive", .fruityBloodOverdrive, false, true⟩,
  ⟨"Fruity Center", .fruityCenter, false, true⟩,
  ⟨"Fruity Fast Dist", .fruityFastDist, false, true⟩,
  ⟨"Fruity NoteBook 2", .fruityNotebook2, false, true⟩,
  ⟨"Fruity Send", .fruitySend, false, true⟩,
  ⟨"Fruity Soft Clipper", .fruitySoftClipper, false, true⟩,
  ⟨"Fruity Stereo Enhancer", .fruityStereoEnhancer, false, true⟩,
  ⟨"Soundgoodizer", .soundgoodizer, false, true⟩]

/-- The last internal name before this event of the project is `n`; `none` if there is none. -/
def Named (w : World) (ref : Nat) : Option PStr → Prop
  | some n => ∃ pre v mid after, w.refs 0 = pre ++ v :: (mid ++ ref :: after) ∧ (w.ev v).id = 201 ∧
      (w.ev v).value = .str n ∧ ∀ m ∈ mid, (w.ev m).id ≠ 201
  | none => ∃ before after, w.refs 0 = before ++ ref :: after ∧ ∀ m ∈ before, (w.ev m).id ≠ 201

/-- `plugin` as read from `channel.plugin` (`effect = false`) or `slot.plugin` (`effect = true`). -/
def hostTypes (effect : Bool) : List PluginType := if effect then slotPlugins else instrumentPlugins

end Spec

theorem lastStr_some {pre mid : List Event} {v : Event} {n : PStr} (h1 : v.id = 201) (h2 : v.value = .str n)
    (h3 : ∀ m ∈ mid, m.id ≠ 201) : lastStr 201 (pre ++ v :: mid) = some n := by
  unfold lastStr
  rw [List.filter_append, List.filter_cons_of_pos (by simpa using h1),
    (List.filter_eq_nil_iff (l := mid)).2 (by intro m hm; simpa using h3 m hm), List.getLast?_append]
  simp [h2, strOf]

theorem lastStr_none {l : List Event} (h : ∀ m ∈ l, m.id ≠ 201) : lastStr 201 l = none := by
  unfold lastStr
  rw [List.filter_eq_nil_iff.2 (by intro m hm; simpa using h m hm)]
  rfl

theorem append_cons_nodup {α : Type} {x y x' y' : List α} {a : α} (hn : (x ++ a :: y).Nodup)
    (h : x ++ a :: y = x' ++ a :: y') : x = x' := by
  induction x generalizing x' with
  | nil =>
    cases x' with
    | nil => rfl
    | cons b x' =>
      injection h with h1 h2
      subst h1
      rw [List.nil_append, List.nodup_cons] at hn
      exact absurd (by rw [h2]; simp) hn.1
  | cons c x ih =>
    cases x' with
    | nil =>
      injection h with h1 h2
      subst h1
      rw [List.cons_append, List.nodup_cons] at hn
      exact absurd (by simp) hn.1
    | cons b x' =>
      injection h with h1 h2
      rw [List.cons_append, List.nodup_cons] at hn
      rw [h1, ih hn.2 h2]

theorem named_kind {w : World} (hw : WellTyped w.project.events) {ref : Nat} (hid : (w.ev ref).id = 213)
    {n : Option PStr} (hn : Named w ref n) :
    (w.ev ref).kind = match n with | some s => kindByName s | none => .unknown := by
  have key : ∀ before after, w.refs 0 = before ++ ref :: after →
      (w.ev ref).kind = pluginKind (before.map w.ev) := by
    intro before after h
    have he : w.project.events = before.map w.ev ++ w.ev ref :: after.map w.ev := by
      show (w.refs 0).map w.ev = _
      rw [h, List.map_append, List.map_cons]
    obtain ⟨-, hk, -⟩ := hw _ _ _ he
    unfold kindOf at hk
    rw [hid, enum_213] at hk
    simp only [show ¬ (213 : Nat) < 64 by omega, show ¬ (213 : Nat) < 128 by omega,
      show ¬ (213 : Nat) < 192 by omega, show ¬ (213 : Nat) < 208 by omega, if_false, if_true, false_or,
      show (213 : Nat) ≠ 231 by omega, show (213 : Nat) ≠ 239 by omega, show (213 : Nat) ≠ 241 by omega] at hk
    exact (Option.some.inj hk).symm
  cases n with
  | some s =>
    obtain ⟨pre, v, mid, after, h1, h2, h3, h4⟩ := hn
    rw [key (pre ++ v :: mid) after (by rw [h1]; simp)]
    unfold pluginKind
    rw [List.map_append, List.map_cons, lastStr_some h2 h3]
    intro m hm
    obtain ⟨x, hx, rfl⟩ := List.mem_map.1 hm
    exact h4 x hx
  | none =>
    obtain ⟨before, after, h1, h2⟩ := hn
    rw [key before after h1]
    unfold pluginKind
    rw [lastStr_none]
    intro m hm
    obtain ⟨x, hx, rfl⟩ := List.mem_map.1 hm
    exact h2 x hx

theorem plugins_known : ∀ q ∈ plugins, kindByName (PStr.lit q.name) = q.cls.kind := by decide +kernel

theorem plugins_all : ∀ x ∈ knownPlugins, ∃ q ∈ plugins, PStr.lit q.name = PStr.lit x.1 := by decide +kernel

theorem plugins_host : ∀ effect, ∀ q ∈ plugins, (q.cls ∈ hostTypes effect ↔ q.fits effect = true) ∧
    q.cls.kind ≠ .unknown ∧ ∀ p ∈ hostTypes effect, q.cls.kind = p.kind → p = q.cls := by decide +kernel

theorem kindByName_unknown {n : PStr} (h : ∀ q ∈ plugins, n ≠ PStr.lit q.name) : kindByName n = .unknown := by
  rcases kindByName_spec n with ⟨x, hx, h1, -⟩ | ⟨-, h2⟩
  · obtain ⟨q, hq, h3⟩ := plugins_all x hx
    exact absurd (h1.trans h3.symm) (h q hq)
  · exact h2

/-- C92 for every project whose events have the types of their places (as have all that have been parsed). -/
theorem plugin_class {w : World} {L : Nat → Prop} (r : WReach w L) (hw : WellTyped w.project.events) {t : Nat} (ht : L t)
    {ref : Nat} (hf : IsFirst w t ref) (hid : (w.ev ref).id = 213) {n : Option PStr} (hn : Named w ref n) (effect : Bool) :
    (∀ q ∈ plugins, n = some (PStr.lit q.name) →
      if q.fits effect then
        ∃ w' u, w.pluginOf t (hostTypes effect) = (w', some (q.cls, u)) ∧ Part w' u t [212, 213] ∧ w'.project = w.project
      else w.pluginOf t (hostTypes effect) = (w, none)) ∧
    ((∀ q ∈ plugins, n ≠ some (PStr.lit q.name)) →
      ∃ w' u, w.pluginOf t (hostTypes effect) = (w', some (.base, u)) ∧ Part w' u t [212, 213] ∧ w'.project = w.project) := by
  have hk := named_kind hw hid hn
  have hfind : (w.events t).find? (fun e => e.id == 213) = some (w.ev ref) := by
    obtain ⟨pre, post, h1, h2⟩ := hf
    unfold World.events
    rw [h1, List.map_append, List.map_cons, List.find?_append, List.find?_eq_none.2]
    · simp [hid]
    · intro e he
      obtain ⟨x, hx, rfl⟩ := List.mem_map.1 he
      simpa [hid] using h2 x hx
  obtain ⟨-, h⟩ := C90_plugin r ht (types := hostTypes effect) (by cases effect <;> simp [hostTypes])
  obtain ⟨hnone, hsome⟩ := h _ hfind
  refine ⟨fun q hq hnq => ?_, fun hno => ?_⟩
  · subst hnq
    replace hk : (w.ev ref).kind = q.cls.kind := hk.trans (plugins_known q hq)
    obtain ⟨p1, p2, p3⟩ := plugins_host effect q hq
    split
    · next hc =>
      obtain ⟨w', u, a, -, b, c, -⟩ := hsome q.cls (.inl (p1.2 hc)) hk
      exact ⟨w', u, a, b, c⟩
    · next hc =>
      refine hnone (by rw [hk]; exact p2) fun p hp hkp => hc (p1.1 ?_)
      rw [← p3 p hp (hk.symm.trans hkp)]
      exact hp
  · have hu : (w.ev ref).kind = .unknown := by
      rw [hk]
      cases n with
      | none => rfl
      | some s => exact kindByName_unknown fun q hq hc => hno q hq (by rw [hc])
    obtain ⟨w', u, a, -, b, c, -⟩ := hsome .base (.inr rfl) hu
    exact ⟨w', u, a, b, c⟩

section
variable [FloatEnv]

/-- C92: in a parsed project, whatever views have been made, the plugin of a channel or slot has the class documented for the
last internal name before its data, `None` if that plugin does not belong there, and the class for unknown plugins if the
name is not a documented one or if there is none. -/
theorem C92_plugin_class {file : Bytes} {p : Project} (h : parseFile file = .ok p) {w : World} {L : Nat → Prop}
    (r : WReach w L) (hp : w.project.events = p.events) {t : Nat} (ht : L t) {ref : Nat} (hf : IsFirst w t ref)
    (hid : (w.ev ref).id = 213) {n : Option PStr} (hn : Named w ref n) (effect : Bool) :
    (∀ q ∈ plugins, n = some (PStr.lit q.name) →
      if q.fits effect then
        ∃ w' u, w.pluginOf t (hostTypes effect) = (w', some (q.cls, u)) ∧ Part w' u t [212, 213] ∧ w'.project = w.project
      else w.pluginOf t (hostTypes effect) = (w, none)) ∧
    ((∀ q ∈ plugins, n ≠ some (PStr.lit q.name)) →
      ∃ w' u, w.pluginOf t (hostTypes effect) = (w', some (.base, u)) ∧ Part w' u t [212, 213] ∧ w'.project = w.project) :=
  plugin_class r (by rw [hp]; exact parseFile_wellTyped h) ht hf hid hn effect

/-- C92: the last internal name before the data of a plugin, or that there is none, is always determined. -/
theorem C92_named {file : Bytes} {p : Project} (h : parseFile file = .ok p) {w : World} {L : Nat → Prop}
    (r : WReach w L) (hp : w.project.events = p.events) {t : Nat} (ht : L t) {ref : Nat} (hm : ref ∈ w.refs t)
    (hid : (w.ev ref).id = 213) : ∃ n, Named w ref n ∧ ∀ n', Named w ref n' → n' = n := by
  have hmem : ref ∈ w.refs 0 := by
    rw [World.refs_eq] at hm ⊢
    exact ((wreach_sub r ht).1.map Prod.fst).subset hm
  obtain ⟨before, after, hs⟩ := List.append_of_mem hmem
  have hnd : (w.refs 0).Nodup := refs_nodup r (reach_good (wreach_inv r).1).1.vρ
  have hev : w.project.events = before.map w.ev ++ w.ev ref :: after.map w.ev := by
    show (w.refs 0).map w.ev = _
    rw [hs, List.map_append, List.map_cons]
  have hex : ∃ n, Named w ref n := by
    rcases C18_plugin_data_type file p h _ _ _ (hp ▸ hev) hid with ⟨pre, v, mid, n, h1, h2, h3, h4, -⟩ | ⟨h1, -⟩
    · obtain ⟨pre', l', e1, e2, e3⟩ := List.map_eq_append_iff.1 h1
      obtain ⟨v', mid', e4, e5, e6⟩ := List.map_eq_cons_iff.1 e3
      refine ⟨some n, pre', v', mid', after, ?_, by rw [e5]; exact h2, by rw [e5]; exact h4, fun m hm => ?_⟩
      · rw [hs, e1, e4]; simp
      · exact h3 _ (by rw [← e6]; exact List.mem_map.2 ⟨m, hm, rfl⟩)
    · exact ⟨none, before, after, hs, fun m hm => h1 _ (List.mem_map.2 ⟨m, hm, rfl⟩)⟩
  have last : ∀ a, Named w ref a → a = lastStr 201 (before.map w.ev) := by
    intro a ha
    cases a with
    | some n =>
      obtain ⟨pre, v, mid, after', h1, h2, h3, h4⟩ := ha
      have : before = pre ++ v :: mid := by
        refine append_cons_nodup (y := after) (y' := after') (hs ▸ hnd) ?_
        rw [← hs, h1]
        simp
      rw [this, List.map_append, List.map_cons, lastStr_some h2 h3]
      intro m hm
      obtain ⟨x, hx, rfl⟩ := List.mem_map.1 hm
      exact h4 x hx
    | none =>
      obtain ⟨before', after', h1, h2⟩ := ha
      have : before = before' := append_cons_nodup (y := after) (y' := after') (hs ▸ hnd) (by rw [← hs, h1])
      rw [this, lastStr_none]
      intro m hm
      obtain ⟨x, hx, rfl⟩ := List.mem_map.1 hm
      exact h2 x hx
  obtain ⟨n, hn⟩ := hex
  exact ⟨n, hn, fun n' hn' => (last n' hn').trans (last n hn).symm⟩

end

/-- The hypotheses of C92 can be met: the demo file, with the tree of all its events. -/
example [FloatEnv] : ∃ (p : Project) (w : World) (ref : Nat), parseFile Demo.file = .ok p ∧ WReach w (· = 0) ∧
    w.project.events = p.events ∧ IsFirst w 0 ref ∧ (w.ev ref).id = 213 ∧ Named w ref (some (PStr.lit "BooBass")) := by
  have hr : (World.ofProject Demo.project).refs 0 = [0, 1, 2] ++ 3 :: ([] ++ 4 :: [5, 6, 7, 8, 9]) := rfl
  refine ⟨Demo.project, World.ofProject Demo.project, 4, Demo.parsed, .parsed _,
    congrArg Project.events (ofProject_project _), ⟨[0, 1, 2, 3], [5, 6, 7, 8, 9], rfl, ?_⟩, rfl,
    [0, 1, 2], 3, [], [5, 6, 7, 8, 9], hr, rfl, rfl, by simp⟩
  intro x hx
  simp only [List.mem_cons, List.not_mem_nil, or_false] at hx
  rcases hx with rfl | rfl | rfl | rfl <;> exact fun h => by cases h

end PyFLP
