import Verif.Repr
import Verif.Declared
import Verif.Props.PropTable
import Verif.Props.ChannelProps
import Verif.Props.Patterns
/-!
# Printing models (C107)
-/

namespace PyFLP

open Spec Heap

namespace Spec

/-- The number in the first event with this id. -/
def numberOf (evs : List Event) (id : Nat) : Option Int :=
  match valueOf evs id with
  | some (.lv (.int n)) => some n
  | _ => none

/-- The two numbers in the first event with this id. -/
def pairOf (evs : List Event) (id : Nat) : Option (Int × Int) :=
  match valueOf evs id with
  | some (.lv (.pair x y)) => some (x, y)
  | _ => none

/-- The properties written as functions, and what they are: `mod_x` and `mod_y` are the numbers of event 138, type and
mix of a reverb come from event 139, where type B adds 65536, position and type of a time marker from event 148, where
signatures add 2^27. -/
def written (evs : List Event) : List ((String × String) × Shown) := [
  (("Delay", "mod_x"), (pairOf evs 138).elim .none fun x => .int x.1),
  (("Delay", "mod_y"), (pairOf evs 138).elim .none fun x => .int x.2),
  (("Reverb", "type"), (numberOf evs 139).elim .none fun n => .reverb (if n < 65536 then .A else .B)),
  (("Reverb", "mix"), (numberOf evs 139).elim .none fun n => .int (if n < 65536 then n else n - 65536)),
  (("TimeMarker", "position"), (numberOf evs 148).elim .none fun n => .int (if n < 2 ^ 27 then n else n - 2 ^ 27)),
  (("TimeMarker", "type"), (numberOf evs 148).elim .none fun n => .bool (decide (2 ^ 27 ≤ n)))]

/-- What an attribute of a model with the events `evs` must be shown as. -/
def Prints (cls : String) (evs : List Event) (var : String) (s : Shown) : Prop :=
  (∀ p ∈ propTable, p.cls = cls → p.attr = var → ∃ v, Gives p evs v ∧ s = p.acc.shown v) ∧
  (∀ x, ((cls, var), x) ∈ written evs → s = x)

/-- The classes of models of events that print themselves this way, all but `FX` (it has a model within), `FruityNotebook2`
and `RemoteController`. -/
def printed : List String := ["TimeSignature", "DisplayGroup", "Delay", "Filter", "LevelAdjusts", "Time", "Reverb", "Envelope",
  "SamplerLFO", "Polyphony", "Tracking", "Keyboard", "Playback", "TimeStretching", "Content", "AutomationLFO", "BooBass",
  "FruitKick", "FruityBalance", "FruityBloodOverdrive", "FruityCenter", "FruityFastDist", "FruitySend", "FruitySoftClipper",
  "FruityStereoEnhancer", "Plucked", "Soundgoodizer", "TimeMarker"]

end Spec

open Declared in
/-- The printed attributes are exactly the declared ones: each is in the table of properties, or one of those written as
functions, or a constant. -/
theorem C107_declared : ∀ d ∈ reprs, d.cls ∈ printed ∨ d.cls = "Arp" → ∀ n ∈ d.names,
    (n.2 = "descriptor" → ∃ p ∈ propTable, p.cls = d.cls ∧ p.attr = n.1) ∧
    (n.2 = "property" → (d.cls, n.1) ∈ (written []).map Prod.fst) ∧ (n.2 = "constant" → n.1 = "INTERNAL_NAME") ∧ n.2 ≠ "method" := by
  decide +kernel

theorem table_names : ∀ p ∈ propTable, (p.cls, p.attr) ∉ (written []).map Prod.fst ∧
    (propTable.find? fun q => q.cls == p.cls && q.attr == p.attr) = some p := by
  decide +kernel

theorem attrShown_table (ver : PyVer) (w : World) (t : Nat) {p : PropRow} (hp : p ∈ propTable) :
    w.attrShown ver t p.cls p.attr = (p.read ver w t).map p.acc.shown := by
  obtain ⟨h1, h2⟩ := table_names p hp
  unfold World.attrShown
  split
  case h_7 => rw [h2]
  all_goals (next e1 e2 => rw [e1, e2] at h1; exact absurd h1 (by decide))

theorem attrShown_other (ver : PyVer) (w : World) (t : Nat) {cls var : String} (h1 : (cls, var) ∉ (written []).map Prod.fst)
    (h2 : ∀ p ∈ propTable, p.cls = cls → p.attr ≠ var) : w.attrShown ver t cls var = .ok .constant := by
  have hf : (propTable.find? fun q => q.cls == cls && q.attr == var) = none := by
    rw [List.find?_eq_none]
    intro p hp
    simp only [Bool.and_eq_true, beq_iff_eq, not_and]
    exact h2 p hp
  unfold World.attrShown
  split
  case h_7 => rw [hf]
  all_goals exact absurd h1 (by decide)

theorem reprModel_ok {ver : PyVer} {w : World} {t : Nat} {cls : String} {P : String → Shown → Prop} : ∀ {vars : List String},
    (∀ var ∈ vars, ∃ s, w.attrShown ver t cls var = .ok s ∧ P var s) →
    ∃ m, w.reprModel ver t cls vars = .ok m ∧ m.map Prod.fst = vars ∧ ∀ x ∈ m, P x.1 x.2 := by
  intro vars
  induction vars with
  | nil => intro _; exact ⟨[], rfl, rfl, by simp⟩
  | cons v vars ih =>
    intro h
    obtain ⟨s, h1, h2⟩ := h v (by simp)
    obtain ⟨m, m1, m2, m3⟩ := ih fun x hx => h x (by simp [hx])
    refine ⟨(v, s) :: m, ?_, by simp [m2], ?_⟩
    · unfold World.reprModel
      rw [h1]
      show (World.reprModel ver w t cls vars).map ((v, s) :: ·) = _
      rw [m1]
      rfl
    · intro x hx
      rcases List.mem_cons.1 hx with rfl | hx
      · exact h2
      · exact m3 x hx

theorem marker_kind : enumType enums 148 = some .u32 := by decide +kernel

/-- The properties written as functions. -/
theorem attrShown_written [FloatEnv] {w : World} {L : Nat → Prop} (r : WReach w L) {t : Nat} (ht : L t) (ver : PyVer)
    (hty : Typed w.project.events) {cls var : String} {s : Shown} (h : ((cls, var), s) ∈ written (w.events t))
    (hd : cls = "Delay" → ∃ e ∈ w.events t, e.id = 138) : w.attrShown ver t cls var = .ok s := by
  have htt : Typed (w.events t) := typed_view r ht hty
  have hdelay : cls = "Delay" → ∃ x y, valueOf (w.events t) 138 = some (.lv (.pair x y)) ∧ w.delayX t = .ok x ∧
      w.delayY t = .ok y := by
    intro hc
    rcases C81_delay r ht hty 0 with ⟨x, y, h1, h2, h3, _⟩ | ⟨h1, _⟩
    · exact ⟨x, y, h1, h2, h3⟩
    · obtain ⟨e, he, hid⟩ := hd hc
      unfold valueOf at h1
      rw [Option.map_eq_none_iff, List.find?_eq_none] at h1
      exact absurd (by simpa using hid) (h1 e he)
  simp only [written, List.mem_cons, Prod.mk.injEq, List.mem_nil_iff, or_false] at h
  rcases h with ⟨⟨rfl, rfl⟩, rfl⟩ | ⟨⟨rfl, rfl⟩, rfl⟩ | ⟨⟨rfl, rfl⟩, rfl⟩ | ⟨⟨rfl, rfl⟩, rfl⟩ | ⟨⟨rfl, rfl⟩, rfl⟩ | ⟨⟨rfl, rfl⟩, rfl⟩
  · obtain ⟨x, y, h1, h2, _⟩ := hdelay rfl
    show (w.delayX t).map Shown.int = _
    rw [h2]
    unfold pairOf
    rw [h1]
    rfl
  · obtain ⟨x, y, h1, _, h3⟩ := hdelay rfl
    show (w.delayY t).map Shown.int = _
    rw [h3]
    unfold pairOf
    rw [h1]
    rfl
  · show (w.reverbType t).map (fun x => x.elim Shown.none Shown.reverb) = _
    unfold numberOf
    rcases C80_get r ht htt with ⟨h1, h2, _⟩ | ⟨n, h1, h2, _⟩
    · rw [h1, h2]; rfl
    · rw [h1, h2]
      unfold reverbOf
      by_cases hn : 65536 ≤ n
      · have : ¬ (n : Int) < 65536 := by omega
        simp [Except.map, hn, this]
      · have : (n : Int) < 65536 := by omega
        simp [Except.map, hn, this]
  · show (w.reverbMix t).map (fun x => x.elim Shown.none Shown.int) = _
    unfold numberOf
    rcases C80_get r ht htt with ⟨h1, _, h2⟩ | ⟨n, h1, _, h2⟩
    · rw [h1, h2]; rfl
    · rw [h1, h2]
      unfold reverbOf
      by_cases hn : 65536 ≤ n
      · have : ¬ (n : Int) < 65536 := by omega
        simp [Except.map, hn, this]
      · have : (n : Int) < 65536 := by omega
        simp [Except.map, hn, this]
  all_goals
    have hmark : valueOf (w.events t) 148 = none ∨ ∃ n : Int, valueOf (w.events t) 148 = some (.lv (.int n)) := by
      cases h : valueOf (w.events t) 148 with
      | none => exact .inl rfl
      | some v =>
        right
        obtain ⟨x, rfl, hx⟩ := typed_value htt marker_kind h _ rfl
        cases x with
        | int n => exact ⟨n, rfl⟩
        | _ => cases hx
    obtain ⟨c1, c2⟩ := C52_marker r ht
  · show (w.markerPosition t).map (fun x => x.elim Shown.none Shown.int) = _
    unfold numberOf
    rcases hmark with h1 | ⟨n, h1⟩
    · rw [h1, (c1 h1).1]; rfl
    · obtain ⟨p, sig, h2, _, h4, h5⟩ := c2 n h1
      rw [h1, h2]
      simp only [Except.map, Option.elim]
      congr 2
      cases sig with
      | true => rw [if_neg (by have := h5.1 rfl; omega), h4]; simp
      | false =>
        rw [if_pos, h4]
        · simp
        · apply Int.not_le.1
          intro hle
          exact Bool.noConfusion (h5.2 hle)
  · show (w.markerIsSignature t).map (fun x => x.elim Shown.none Shown.bool) = _
    unfold numberOf
    rcases hmark with h1 | ⟨n, h1⟩
    · rw [h1, (c1 h1).2]; rfl
    · obtain ⟨p, sig, _, h3, _, h5⟩ := c2 n h1
      rw [h1, h3]
      simp only [Except.map, Option.elim]
      congr 2
      rw [Bool.eq_iff_iff, h5]
      simp

/-- Reading one attribute in a state whose events have the types of their ids. -/
theorem attr_core [FloatEnv] {w : World} {L : Nat → Prop} (r' : WReach w L) (hty : Typed w.project.events) {t : Nat} (ht : L t)
    (ver : PyVer) {cls : String} (hArp : cls ≠ "Arp") (hm : ∀ p ∈ propTable, p.cls = cls → ModelOf p (w.events t))
    (hdelay : cls = "Delay" → ∃ e ∈ w.events t, e.id = 138) (var : String) :
    ∃ s, w.attrShown ver t cls var = .ok s ∧ Prints cls (w.events t) var s := by
  by_cases hw : ∃ s, ((cls, var), s) ∈ written (w.events t)
  · obtain ⟨s, hs⟩ := hw
    refine ⟨s, attrShown_written r' ht ver hty hs hdelay, ?_, ?_⟩
    · intro p hp h1 h2
      exfalso
      obtain ⟨h3, _⟩ := table_names p hp
      apply h3
      rw [h1, h2]
      simp only [written, List.mem_cons, Prod.mk.injEq, List.mem_nil_iff, or_false] at hs
      simp only [written, List.map_cons, List.map_nil, List.mem_cons, Prod.mk.injEq, List.mem_nil_iff, or_false]
      rcases hs with h | h | h | h | h | h <;> simp [h]
    · intro x hx
      simp only [written, List.mem_cons, Prod.mk.injEq, List.mem_nil_iff, or_false] at hs hx
      rcases hs with ⟨⟨h1, h2⟩, rfl⟩ | ⟨⟨h1, h2⟩, rfl⟩ | ⟨⟨h1, h2⟩, rfl⟩ | ⟨⟨h1, h2⟩, rfl⟩ | ⟨⟨h1, h2⟩, rfl⟩ | ⟨⟨h1, h2⟩, rfl⟩ <;>
        simp [h1, h2] at hx <;> exact hx.symm
  · have hw' : (cls, var) ∉ (written []).map Prod.fst := by
      intro h
      apply hw
      have : (written (w.events t)).map Prod.fst = (written []).map Prod.fst := rfl
      rw [← this] at h
      obtain ⟨⟨k, s⟩, h1, h2⟩ := List.mem_map.1 h
      exact ⟨s, by rw [← h2]; exact h1⟩
    by_cases hp : ∃ p ∈ propTable, p.cls = cls ∧ p.attr = var
    · obtain ⟨p, hp, h1, h2⟩ := hp
      obtain ⟨v, h3, h4⟩ := C75_readable_partial r' ht ver p hp (by rw [h1]; exact hArp) (typed_view r' ht hty) (hm p hp h1)
      refine ⟨p.acc.shown v, ?_, ?_, ?_⟩
      · rw [← h1, ← h2, attrShown_table ver w t hp, h3]
        rfl
      · intro q hq h5 h6
        have e1 := (table_names p hp).2
        have e2 := (table_names q hq).2
        rw [h5, h6, ← h1, ← h2, e1] at e2
        cases e2
        exact ⟨v, h4, rfl⟩
      · intro x hx
        exact absurd ⟨x, hx⟩ hw
    · refine ⟨.constant, attrShown_other ver w t hw' (fun p hq h1 h2 => hp ⟨p, hq, h1, h2⟩), ?_, ?_⟩
      · intro p hq h1 h2
        exact absurd ⟨p, hq, h1, h2⟩ hp
      · intro x hx
        exact absurd ⟨x, hx⟩ hw

open Declared in
/-- Printing in a state whose events have the types of their ids. -/
theorem repr_core [FloatEnv] {w : World} {L : Nat → Prop} (r' : WReach w L) (hty : Typed w.project.events) {t : Nat} (ht : L t)
    (ver : PyVer) {d : ReprDecl} (hc : d.cls ∈ printed)
    (hm : ∀ p ∈ propTable, p.cls = d.cls → ModelOf p (w.events t))
    (hdelay : d.cls = "Delay" → ∃ e ∈ w.events t, e.id = 138) :
    ∃ m, w.reprModel ver t d.cls (d.names.map Prod.fst) = .ok m ∧ m.map Prod.fst = d.names.map Prod.fst ∧
      ∀ x ∈ m, Prints d.cls (w.events t) x.1 x.2 :=
  reprModel_ok fun var _ => attr_core r' hty ht ver (fun h => by rw [h] at hc; revert hc; decide) hm hdelay var

open Declared in
/-- C107. In every state of a program that parsed a file and read and assigned properties, every model of the listed
classes can be printed, and each public attribute declared by its class is shown, in order, with its value.  A delay
needs its event 138. -/
theorem C107_repr_partial [FloatEnv] {w : World} {L : Nat → Prop} (r : PropReach w L) {t : Nat} (ht : L t) (ver : PyVer)
    {d : ReprDecl} (hd : d ∈ reprs) (hc : d.cls ∈ printed)
    (hm : ∀ p ∈ propTable, p.cls = d.cls → ModelOf p (w.events t))
    (hdelay : d.cls = "Delay" → ∃ e ∈ w.events t, e.id = 138) :
    ∃ m, w.reprModel ver t d.cls (d.names.map Prod.fst) = .ok m ∧ m.map Prod.fst = d.names.map Prod.fst ∧
      ∀ x ∈ m, Prints d.cls (w.events t) x.1 x.2 := by
  obtain ⟨r', hty⟩ := C75_typed r
  exact repr_core r' hty ht ver hc hm hdelay

open Declared in
/-- C107 is false of the arpeggiator: printing it raises `KeyError`, whatever the file. -/
theorem C107_arp_refuted {w : World} {L : Nat → Prop} (r : WReach w L) {t : Nat} (ht : L t) (ver : PyVer)
    {d : ReprDecl} (hd : d ∈ reprs) (hc : d.cls = "Arp") (hty : Typed (w.events t))
    (hm : ∀ p ∈ propTable, p.cls = "Arp" → ModelOf p (w.events t)) :
    w.reprModel ver t d.cls (d.names.map Prod.fst) = .error .keyError := by
  have hn : ∃ rest, d.names.map Prod.fst = "chord" :: rest := by
    have : ∀ d ∈ reprs, d.cls = "Arp" → (d.names.map Prod.fst).head? = some "chord" := by decide +kernel
    have h := this d hd hc
    cases hl : d.names.map Prod.fst with
    | nil => rw [hl] at h; cases h
    | cons a l => rw [hl] at h; cases h; exact ⟨l, rfl⟩
  obtain ⟨rest, hn⟩ := hn
  have hp : (⟨"Arp", "chord", [], [215], .field "chord", none⟩ : PropRow) ∈ propTable := by decide +kernel
  have h := (C75_arp_refuted r ht ver _ hp rfl hty (hm _ hp rfl)).1
  have h2 := attrShown_table ver w t hp
  rw [h] at h2
  rw [hn, hc]
  unfold World.reprModel
  rw [h2]
  rfl

/-- C107 is false of delays without event 138: printing them raises `KeyError`. -/
theorem C107_delay_refuted [FloatEnv] {w : World} {L : Nat → Prop} (r : PropReach w L) {t : Nat} (ht : L t) (ver : PyVer)
    (hm : ∀ p ∈ propTable, p.cls = "Delay" → ModelOf p (w.events t)) (hno : ∀ e ∈ w.events t, e.id ≠ 138) :
    ∃ d ∈ Declared.reprs, d.cls = "Delay" ∧ w.reprModel ver t d.cls (d.names.map Prod.fst) = .error .keyError := by
  obtain ⟨r', hty⟩ := C75_typed r
  refine ⟨⟨"Delay", [("echoes", "descriptor"), ("fat_mode", "descriptor"), ("feedback", "descriptor"), ("mod_x", "property"),
    ("mod_y", "property"), ("pan", "descriptor"), ("ping_pong", "descriptor"), ("pitch_shift", "descriptor"),
    ("time", "descriptor")]⟩, by decide +kernel, rfl, ?_⟩
  have hget : ∀ p ∈ propTable, p.cls = "Delay" → ∃ s, w.attrShown ver t "Delay" p.attr = .ok s := by
    intro p hp h1
    obtain ⟨v, h3, _⟩ := C75_programs_partial r ht ver p hp (by rw [h1]; decide) (hm p hp h1)
    have := attrShown_table ver w t hp
    rw [h1, h3] at this
    exact ⟨_, this⟩
  have hx : w.attrShown ver t "Delay" "mod_x" = .error .keyError := by
    show (w.delayX t).map Shown.int = _
    rcases C81_delay r' ht hty 0 with ⟨x, y, h1, _⟩ | ⟨_, h2, _⟩
    · exfalso
      unfold valueOf at h1
      rw [List.find?_eq_none.2 (fun e he => by simpa using hno e he)] at h1
      cases h1
    · rw [h2]; rfl
  obtain ⟨s1, g1⟩ := hget ⟨"Delay", "echoes", [209], [], .field "echoes", none⟩ (by decide +kernel) rfl
  obtain ⟨s2, g2⟩ := hget ⟨"Delay", "fat_mode", [215], [], .flag 6 4 "delay.flags" false, none⟩ (by decide +kernel) rfl
  obtain ⟨s3, g3⟩ := hget ⟨"Delay", "feedback", [209], [], .field "feedback", none⟩ (by decide +kernel) rfl
  dsimp only at g1 g2 g3
  simp only [List.map_cons, World.reprModel, g1, g2, g3, hx, getattrOr]
  rfl

/-- The hypotheses of `C107_repr_partial` can be met: the BooBass of the demo project is printed with its three numbers. -/
example [FloatEnv] : (∃ d ∈ Declared.reprs, d.cls = "BooBass" ∧ d.cls ∈ printed ∧
      d.names.map Prod.fst = ["INTERNAL_NAME", "bass", "high", "mid"]) ∧
    PropReach (World.ofProject Demo.project) (· = 0) ∧
    (∀ p ∈ propTable, p.cls = "BooBass" → ModelOf p ((World.ofProject Demo.project).events 0)) ∧
    (World.ofProject Demo.project).reprModel .from311 0 "BooBass" ["INTERNAL_NAME", "bass", "high", "mid"] =
      .ok [("INTERNAL_NAME", .constant), ("bass", .field (.int 7)), ("high", .field (.int 0)), ("mid", .field (.int 65535))] := by
  refine ⟨by decide +kernel, .parsed Demo.parsed, ?_, rfl⟩
  intro p hp hc
  have : ∀ p ∈ propTable, p.cls = "BooBass" → p.ids ≠ [] := by decide +kernel
  refine ⟨fun h => absurd h (this p hp hc), ?_⟩
  rw [hc]
  exact Demo.bass_model.2

/-- The hypotheses of `C107_arp_refuted` can be met. -/
example : Typed ((World.ofProject Demo.arpProject).events 0) ∧ (∃ d ∈ Declared.reprs, d.cls = "Arp") ∧
    WReach (World.ofProject Demo.arpProject) (· = 0) ∧
    (∀ p ∈ propTable, p.cls = "Arp" → ModelOf p ((World.ofProject Demo.arpProject).events 0)) := by
  refine ⟨Demo.arp_typed, by decide +kernel, .parsed _, ?_⟩
  intro p hp hc
  have h1 : ∀ p ∈ propTable, p.cls = "Arp" → 215 ∈ p.view := by decide +kernel
  have h2 : ∀ x ∈ pluginClasses, x.1 ≠ "Arp" := by decide +kernel
  exact ⟨fun _ => ⟨_, rfl, h1 p hp hc⟩, fun k hk => absurd hc (h2 _ hk)⟩

/-- The hypotheses of `C107_delay_refuted` can be met. -/
example [FloatEnv] : PropReach (World.ofProject Demo.project) (· = 0) ∧
    (∀ p ∈ propTable, p.cls = "Delay" → ModelOf p ((World.ofProject Demo.project).events 0)) ∧
    ∀ e ∈ (World.ofProject Demo.project).events 0, e.id ≠ 138 := by
  refine ⟨.parsed Demo.parsed, ?_, ?_⟩
  · intro p hp hc
    have h1 : ∀ p ∈ propTable, p.cls = "Delay" → p.ids ≠ [] := by decide +kernel
    have h2 : ∀ x ∈ pluginClasses, x.1 ≠ "Delay" := by decide +kernel
    exact ⟨fun h => absurd h (h1 p hp hc), fun k hk => absurd hc (h2 _ hk)⟩
  · intro e he
    have he : e ∈ (World.ofProject Demo.project).project.events := he
    rw [ofProject_project] at he
    revert e
    decide +kernel

end PyFLP
