import Verif.Prints
import Verif.Props.Repr
import Verif.Props.Nested
import Verif.Props.Notebook
import Verif.Props.MixerParams
import Verif.Props.Arrangements
/-!
# C124: printing slots, plugins and equalisers
-/

namespace PyFLP

open Spec Heap

namespace Spec

/-- The text of the first sub-event with this id, if there is one. -/
def subText (subs : List (Int × VstData)) (id : Int) : Option VstData := (subs.find? fun x => x.1 == id).map Prod.snd

/-- The native plugins of effect slots that show attributes declared as properties of a struct event. -/
def nativeEffects : List PluginType := [.fruityBalance, .fruityBloodOverdrive, .fruityCenter, .fruityFastDist, .fruitySend,
  .fruitySoftClipper, .fruityStereoEnhancer, .soundgoodizer]

/-- A record of the insert at position `i` is about the parameter. -/
def Recorded (l : List Rec) (i : Nat) (id : Int) : Prop := ∃ r ∈ l, IsParam r i id

end Spec

theorem plugin_first {w w' : World} {u t : Nat} (hp : Part w' u t [212, 213]) (he : w'.events t = w.events t) :
    (w'.events u).find? (fun e => e.id == 213) = (w.events t).find? fun e => e.id == 213 := by
  have : w'.events u = (w'.events t).filter fun e => decide (e.id ∈ [212, 213]) := by
    unfold World.events
    rw [hp, List.filter_map]
    rfl
  rw [this, he, List.find?_filter]
  congr 1
  funext e
  by_cases h : e.id = 213 <;> simp [h]

theorem plugin_events {w w' : World} {u t : Nat} (hp : Part w' u t [212, 213]) (he : w'.events t = w.events t) :
    w'.events u = (w.events t).filter fun e => decide (e.id ∈ [212, 213]) := by
  rw [← he]
  unfold World.events
  rw [hp, List.filter_map]
  rfl

theorem native_names : ∀ p ∈ nativeEffects, p ∈ slotPlugins ∧ p.cls ∈ printed ∧ p.cls ≠ "Delay" ∧ p ≠ .base ∧ p ≠ .vst ∧
    p ≠ .fruityNotebook2 ∧ (∃ d ∈ Declared.reprs, d.cls = p.cls ∧ publicNames p.cls = d.names.map Prod.fst) ∧
    (∀ q ∈ propTable, q.cls = p.cls → q.ids ≠ []) ∧ ∀ x ∈ pluginClasses, x.1 = p.cls → x.2 = p.kind := by
  decide +kernel

/-- C124: what `repr(slot)` shows.  It shows name and index of the slot and its plugin: `None` if there is no plugin data or no class
for it; the object, for data of unknown plugins; name and vendor, for a VST plugin which has both; the active page, the
mark and the pages of a notebook; and of another native plugin each public attribute, in the order of the class, with
its value.  A VST plugin without a name or without a vendor cannot be printed. -/
theorem C124_slot_exact [FloatEnv] {w : World} {L : Nat → Prop} (r : WReach w L) (hty : Typed w.project.events) {t : Nat}
    (ht : L t) (ver : PyVer) {name index : Option Value} (hname : valueOf (w.events t) 203 = name)
    (hindex : valueOf (w.events t) 98 = index) :
    (w.reprSlot ver t).1.project = w.project ∧
    ((∀ e ∈ w.events t, e.id ≠ 213) → (w.reprSlot ver t).2 = .ok ⟨name, index, none⟩) ∧
    ∀ e, (w.events t).find? (fun e => e.id == 213) = some e →
      (e.kind ≠ .unknown → (∀ p ∈ slotPlugins, e.kind ≠ p.kind) → (w.reprSlot ver t).2 = .ok ⟨name, index, none⟩) ∧
      (e.kind = .unknown → (w.reprSlot ver t).2 = .ok ⟨name, index, some .object⟩) ∧
      (∀ ty subs, e.kind = .vst → e.value = .vst ty subs →
        (∀ x ∈ subs, x.1 = 54 ∨ x.1 = 56 → ∃ s, x.2 = .str s) →
        (∀ a b, subText subs 54 = some (.str a) → subText subs 56 = some (.str b) →
          (w.reprSlot ver t).2 = .ok ⟨name, index, some (.vst (some (.str a)) (some (.str b)))⟩) ∧
        (Without subs 54 ∨ Without subs 56 → (w.reprSlot ver t).2 = .error .attributeError)) ∧
      (∀ u p ps b, e.kind = .notebook → e.value = .notebook u p ps b →
        (w.reprSlot ver t).2 = .ok ⟨name, index, some (.notebook (some p) (some b) (some ps))⟩) ∧
      (∀ p ∈ nativeEffects, e.kind = p.kind → (∀ e' ∈ w.events t, e'.id = 213 → e'.kind = e.kind) →
        ∃ attrs, (w.reprSlot ver t).2 = .ok ⟨name, index, some (.model p.cls attrs)⟩ ∧
          (∃ d ∈ Declared.reprs, d.cls = p.cls ∧ attrs.map Prod.fst = d.names.map Prod.fst) ∧
          ∀ x ∈ attrs, Prints p.cls ((w.events t).filter fun e => decide (e.id ∈ [212, 213])) x.1 x.2) := by
  obtain ⟨c1, c2⟩ := C90_plugin r ht (.inr rfl : slotPlugins = instrumentPlugins ∨ slotPlugins = slotPlugins)
  have hn : w.prop t 203 = name := (prop_spec r ht 203).trans hname
  have hi : w.prop t 98 = index := (prop_spec r ht 98).trans hindex
  have none_case : w.pluginOf t slotPlugins = (w, none) → w.reprSlot ver t = (w, .ok ⟨name, index, none⟩) := by
    intro h
    unfold World.reprSlot
    rw [h, hn, hi]
  have some_case : ∀ {p w' u}, w.pluginOf t slotPlugins = (w', some (p, u)) →
      w.reprSlot ver t = (w', (w'.reprPlugin ver p u).map fun x => ⟨name, index, some x⟩) := by
    intro p w' u h
    unfold World.reprSlot
    rw [h, hn, hi]
  have value_at : ∀ {w' u e}, Part w' u t [212, 213] → w'.events t = w.events t →
      (w.events t).find? (fun e => e.id == 213) = some e → valueOf (w'.events u) 213 = some e.value := by
    intro w' u e hp he hf
    unfold valueOf
    rw [plugin_first hp he, hf]
    rfl
  refine ⟨?_, fun h => ?_, fun e he => ?_⟩
  · cases hf : (w.events t).find? (fun e => e.id == 213) with
    | none => rw [none_case (c1 hf)]
    | some e =>
      obtain ⟨a1, a2⟩ := c2 e hf
      by_cases hk : ∃ p, (p ∈ slotPlugins ∨ p = .base) ∧ e.kind = p.kind
      · obtain ⟨p, hp, hk⟩ := hk
        obtain ⟨w', u, b1, -, -, b2, -⟩ := a2 p hp hk
        rw [some_case b1]
        exact b2
      · rw [none_case (a1 (fun h => hk ⟨.base, .inr rfl, h⟩) fun p hp h => hk ⟨p, .inl hp, h⟩)]
  · rw [none_case (c1 (List.find?_eq_none.2 fun e he => by simpa using h e he))]
  obtain ⟨a1, a2⟩ := c2 e he
  refine ⟨fun hk hp => ?_, fun hk => ?_, fun ty subs hk hv hs => ?_, fun un pg ps b hk hv => ?_, fun p hp hk hone => ?_⟩
  · rw [none_case (a1 hk hp)]
  · obtain ⟨w', u, b1, -⟩ := a2 .base (.inr rfl) hk
    rw [some_case b1]
    rfl
  · obtain ⟨w', u, b1, b2, b3, -, b4⟩ := a2 .vst (.inl (by decide)) hk
    have hsub : HasSubs w' u ty subs := (value_at b3 (b4 t ht).2 he).trans (by rw [hv])
    have hr : w'.reprPlugin ver .vst u = match w'.vstGet u 54 "name" with
      | .error e => .error e
      | .ok name =>
        match w'.vstGet u 56 "vendor" with
        | .error e => .error e
        | .ok vendor => .ok (.vst name vendor) := rfl
    have hget : ∀ id key, w'.vstGet u id key = match subText subs id with
        | some d => vstValue key d
        | none => .error .attributeError := by
      intro id key
      unfold World.vstGet subText
      rw [vstFind_eq b2 (.inr rfl) hsub]
      cases subs.find? fun x => x.1 == id <;> rfl
    rw [some_case b1, hr, hget, hget]
    refine ⟨fun a b h1 h2 => ?_, fun h => ?_⟩
    · rw [h1, h2]
      rfl
    · have hwo : ∀ id, Without subs id → subText subs id = none := by
        intro id h
        unfold subText
        rw [List.find?_eq_none.2 fun x hx => by simpa using h x hx]
        rfl
      rcases h with h | h
      · rw [hwo 54 h]
        rfl
      · rw [hwo 56 h]
        cases hc : subText subs 54 with
        | none => rfl
        | some d =>
          obtain ⟨s, hs'⟩ : ∃ s, d = .str s := by
            unfold subText at hc
            obtain ⟨x, hx, rfl⟩ := Option.map_eq_some_iff.1 hc
            have hid := List.find?_some hx
            exact hs x (List.mem_of_find?_eq_some hx) (.inl (by simpa using hid))
          rw [hs']
          rfl
  · obtain ⟨w', u, b1, b2, b3, -, b4⟩ := a2 .fruityNotebook2 (.inl (by decide)) hk
    have hnb : HasNotebook w' u un pg ps b := (value_at b3 (b4 t ht).2 he).trans (by rw [hv])
    obtain ⟨g1, g2, g3⟩ := (C114_get b2 (.inr rfl)).1 un pg ps b hnb
    rw [some_case b1]
    have : w'.reprPlugin ver .fruityNotebook2 u = .ok (.notebook (some pg) (some b) (some ps)) := by
      unfold World.reprPlugin
      rw [g1, g2, g3]
    rw [this]
    rfl
  · obtain ⟨n1, n2, n3, n4, n5, n6, ⟨d, n7, n8, n9⟩, n10, n11⟩ := native_names p hp
    obtain ⟨w', u, b1, b2, b3, b5, b4⟩ := a2 p (.inl n1) hk
    have hev := plugin_events b3 (b4 t ht).2
    obtain ⟨m, m1, m2, m3⟩ := repr_core b2 (b5 ▸ hty) (t := u) (.inr rfl) ver (d := d) (n8 ▸ n2) (by
      intro q hq hc
      refine ⟨fun h => absurd h (n10 q hq (hc.trans n8)), fun k hk' e' he' hid => ?_⟩
      rw [hev] at he'
      rw [hone e' (List.mem_filter.1 he').1 hid, hk]
      exact (n11 _ hk' (hc.trans n8)).symm) (fun h => absurd (n8.symm.trans h) n3)
    refine ⟨m, ?_, ⟨d, n7, n8, m2⟩, ?_⟩
    · rw [some_case b1]
      have : w'.reprPlugin ver p u = (w'.reprModel ver u p.cls (publicNames p.cls)).map (.model p.cls) := by
        cases p <;> first | rfl | contradiction
      rw [this, n9, ← n8, m1]
      rfl
    · rw [← hev, ← n8]
      exact m3

/-! ### Equalisers -/

/-- C124 is false of `insert.eq`: printing it raises `KeyError`, whatever the insert. -/
theorem C124_eq_refuted (p : ParamsObj) (i : Nat) : p.reprEq i = .error .keyError := by
  unfold ParamsObj.reprEq
  cases h : p.own i with
  | ok d => rfl
  | error e =>
    unfold ParamsObj.own at h
    split at h
    · cases h
    · cases h; rfl

/-- The parameters of the equaliser by their names in `_MixerParamsID` (`mixer.py:84-102`). -/
def Spec.eqParams : List (String × Int) :=
  [("LowGain", 208), ("MidGain", 209), ("HighGain", 210), ("LowFreq", 216), ("MidFreq", 217), ("HighFreq", 218), ("LowQ", 224),
    ("MidQ", 225), ("HighQ", 226)]

/-- C124: the three bands are made of the nine parameters with their names, each of which belongs to one band only. -/
theorem C124_bands : ParamsObj.bands.map (fun b => (b.1, some b.2.freq, some b.2.gain, some b.2.reso)) =
    [("low", "Low"), ("mid", "Mid"), ("high", "High")].map (fun n => (n.1, eqParams.lookup (n.2 ++ "Freq"),
      eqParams.lookup (n.2 ++ "Gain"), eqParams.lookup (n.2 ++ "Q"))) ∧
    (ParamsObj.bands.flatMap fun b => [b.2.freq, b.2.gain, b.2.reso]).Nodup := by decide +kernel

theorem band_ids : ∀ b ∈ ParamsObj.bands, (b.2.freq ≠ 0 ∧ b.2.freq ≠ 1) ∧ (b.2.gain ≠ 0 ∧ b.2.gain ≠ 1) ∧
    (b.2.reso ≠ 0 ∧ b.2.reso ≠ 1) := by decide

/-- C124, the bands of the equaliser: a band is printed with its size of 36 bytes, its gain, frequency and resonance, if the three are
recorded; otherwise printing it raises `KeyError`. -/
theorem C124_band_exact {l : List Rec} {p : ParamsObj} (r : PReach l p) (i : Nat) {b : String × ParamsObj.BandIds}
    (hb : b ∈ ParamsObj.bands) (hmsg : ∀ rec ∈ p.value, (Rec.lookup rec "msg").isSome) :
    (∀ kg rg kf rf kr rr vg vf vr, LastParam p.value i b.2.gain kg rg → LastParam p.value i b.2.freq kf rf →
      LastParam p.value i b.2.reso kr rr → Rec.lookup rg "msg" = some vg → Rec.lookup rf "msg" = some vf →
      Rec.lookup rr "msg" = some vr → p.reprBand i b.2 = .ok ⟨36, vg, vf, vr⟩) ∧
    (¬ (Recorded p.value i b.2.gain ∧ Recorded p.value i b.2.freq ∧ Recorded p.value i b.2.reso) →
      p.reprBand i b.2 = .error .keyError) := by
  obtain ⟨⟨f0, f1⟩, ⟨g0, g1⟩, ⟨q0, q1⟩⟩ := band_ids b hb
  have h := preach_inv r
  refine ⟨fun kg rg kf rf kr rr vg vf vr lg lf lr eg ef er => ?_, fun hn => ?_⟩
  · have a1 := (C63_eq_partial r g0 g1 lg none).1 vg eg
    have a2 := (C63_eq_partial r f0 f1 lf none).1 vf ef
    have a3 := (C63_eq_partial r q0 q1 lr none).1 vr er
    unfold ParamsObj.reprBand
    have hd : ∀ {id k rec}, id ≠ 0 → id ≠ 1 → LastParam p.value i id k rec → ∀ {d}, p.own i = .ok d → (dictGet id d).isSome := by
      intro id k rec h0 h1 hl d ho
      rcases own_cases h i h0 h1 with ⟨_, g⟩ | ⟨_, d', o1, ⟨k', rec', o2, o3⟩ | ⟨o2, o3⟩⟩
      · rw [g] at ho; cases ho
      · rw [o1] at ho; cases ho; rw [o3]; rfl
      · exact absurd hl.2.1 (o2 _ (List.mem_of_getElem? hl.1))
    cases ho : p.own i with
    | error e =>
      rcases own_cases h i g0 g1 with ⟨o, _⟩ | ⟨_, d', o1, _⟩
      · exact absurd ⟨rg, List.mem_of_getElem? lg.1, lg.2.1.1⟩ o
      · rw [o1] at ho; cases ho
    | ok d =>
      simp only [a1, a2, a3, ParamsObj.bandSize, List.filter_cons, hd f0 f1 lf ho, hd g0 g1 lg ho, hd q0 q1 lr ho, if_true,
        List.filter_nil, List.length_cons, List.length_nil]
      rfl
  · have hmiss : ∀ {id}, id ≠ 0 → id ≠ 1 → ¬ Recorded p.value i id → p.eqGet i id = .error .keyError := fun h0 h1 hr =>
      (C63_eq_refuted r h0 h1 (fun rec hrec hp => hr ⟨rec, hrec, hp⟩) none).1
    have hsome : ∀ {id}, id ≠ 0 → id ≠ 1 → (∃ v, p.eqGet i id = .ok v) ∨ p.eqGet i id = .error .keyError := by
      intro id h0 h1
      by_cases hr : Recorded p.value i id
      · rcases own_cases h i h0 h1 with ⟨o, _⟩ | ⟨_, d', o1, ⟨k', rec', o2, o3⟩ | ⟨o2, o3⟩⟩
        · obtain ⟨rec, h1, h2⟩ := hr
          exact absurd ⟨rec, h1, h2.1⟩ o
        · obtain ⟨v, hv⟩ := Option.isSome_iff_exists.1 (hmsg _ (List.mem_of_getElem? o2.1))
          exact .inl ⟨v, (C63_eq_partial r h0 h1 o2 none).1 v hv⟩
        · obtain ⟨rec, h1, h2⟩ := hr
          exact absurd h2 (o2 rec h1)
      · exact .inr (hmiss h0 h1 hr)
    unfold ParamsObj.reprBand
    cases ho : p.own i with
    | error e =>
      rcases own_cases h i g0 g1 with ⟨_, o⟩ | ⟨_, d', o1, _⟩
      · rw [o] at ho; cases ho; rfl
      · rw [o1] at ho; cases ho
    | ok d =>
      dsimp only
      rcases hsome g0 g1 with ⟨v1, e1⟩ | e1
      · rcases hsome f0 f1 with ⟨v2, e2⟩ | e2
        · rcases hsome q0 q1 with ⟨v3, e3⟩ | e3
          · exfalso
            apply hn
            refine ⟨?_, ?_, ?_⟩ <;> refine Classical.byContradiction fun hr => ?_
            · rw [hmiss g0 g1 hr] at e1; cases e1
            · rw [hmiss f0 f1 hr] at e2; cases e2
            · rw [hmiss q0 q1 hr] at e3; cases e3
          · rw [e1, e2, e3]
        · rw [e1, e2]
      · rw [e1]


namespace Demo

/-- A slot with a balance. -/
def balance : Project := ⟨0, 1, 96, [⟨203, .unicode, .str (PStr.lit "Left"), 10⟩,
  ⟨213, .struct .fruityBalance, .fields [("pan", some (.int 3)), ("volume", some (.int 256))], 8⟩, ⟨98, .u16, .lv (.int 4), 2⟩]⟩

theorem balance_typed : Typed balance.events := by
  intro e he
  simp only [balance, List.mem_cons, List.not_mem_nil, or_false] at he
  rcases he with rfl | rfl | rfl
  · exact ⟨by decide +kernel, _, rfl⟩
  · refine ⟨by decide +kernel, _, rfl, by decide, ?_⟩
    intro n f x hm hl
    simp only [SName.fields, List.mem_cons, List.not_mem_nil, or_false, Prod.mk.injEq] at hm
    rcases hm with ⟨rfl, rfl⟩ | ⟨rfl, rfl⟩ <;> simp [Rec.lookup] at hl <;> subst hl <;> simp [LeafTyped, Fld.leaf, u32]
  · refine ⟨by decide +kernel, fun l hl => ?_⟩
    cases hl
    exact ⟨_, rfl, by simp [LeafTyped]⟩

/-- The records of a low band of insert 1, and no resonance for its middle band. -/
def bandParams : List Rec := [param 208 64 100, param 216 64 200, param 224 64 300, param 209 64 1, param 217 64 2]

end Demo

/-- The hypotheses of `C124_slot_exact` can be met: a slot with a native plugin, and one with a VST plugin that has no vendor. -/
example [FloatEnv] : WReach (World.ofProject Demo.balance) (· = 0) ∧ Typed (World.ofProject Demo.balance).project.events ∧
    ((World.ofProject Demo.balance).events 0).find? (fun e => e.id == 213) = some ⟨213, .struct .fruityBalance,
      .fields [("pan", some (.int 3)), ("volume", some (.int 256))], 8⟩ ∧
    .fruityBalance ∈ nativeEffects ∧
    ((World.ofProject Demo.balance).reprSlot .from311 0).2 = .ok ⟨some (.str (PStr.lit "Left")), some (.lv (.int 4)),
      some (.model "FruityBalance" [("INTERNAL_NAME", .constant), ("pan", .field (.int 3)), ("volume", .field (.int 256))])⟩ ∧
    ((World.ofProject Demo.vst).reprSlot .from311 0).2 = .error .attributeError := by
  refine ⟨.parsed _, ?_, rfl, by decide, rfl, rfl⟩
  rw [ofProject_project]
  exact Demo.balance_typed

open Demo in
/-- The hypotheses of `C124_band_exact` can be met, those for a band with and without all its parameters. -/
example : PReach bandParams (.parse bandParams) ∧ (∀ rec ∈ (ParamsObj.parse bandParams).value, (Rec.lookup rec "msg").isSome) ∧
    (ParamsObj.parse bandParams).reprBand 1 ⟨216, 208, 224⟩ = .ok ⟨36, some (.int 100), some (.int 200), some (.int 300)⟩ ∧
    Recorded (ParamsObj.parse bandParams).value 1 209 ∧
    (ParamsObj.parse bandParams).reprBand 1 ⟨217, 209, 225⟩ = .error .keyError :=
  ⟨.parsed, by decide, rfl, ⟨param 209 64 1, by decide, by decide, by decide⟩, rfl⟩

end PyFLP
