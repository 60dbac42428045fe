import Verif.Props.Mixer
import Verif.Props.Rack
/-!
# C96: numbers of inserts and slots, C97: channels by class and display groups
-/

namespace PyFLP
open Spec

/-! ## C96 -/

theorem filter_flags (parts : List (List Entry × Entry)) (ho : ∀ p ∈ parts, p.2.2.id = 147)
    (hf : ∀ p ∈ parts, (p.1.filter fun e => decide (e.2.id = 236)).length = 1) :
    ((parts.flatMap fun p => p.1 ++ [p.2]).filter fun e => decide (e.2.id = 236)).length = parts.length := by
  induction parts with
  | nil => rfl
  | cons p parts ih =>
    rw [List.flatMap_cons, List.filter_append, List.filter_append, List.length_append, List.length_append,
      ih (fun p hp => ho p (by simp [hp])) (fun p hp => hf p (by simp [hp])), hf p (by simp)]
    have : [p.2].filter (fun e => decide (e.2.id = 236)) = [] := by
      simp [ho p (by simp)]
    rw [this]
    simp only [List.length_nil, List.length_cons]
    omega

/-- C96: `len(project.mixer)` is the number of flag events; without any, it raises `NoModelsFound`. -/
theorem C96_len {w : World} {L : Nat → Prop} (r : WReach w L) {t : Nat} (ht : L t) :
    w.lenMixer t = if ∃ e ∈ w.events t, e.id = 236 then .ok ((w.events t).filter fun e => decide (e.id = 236)).length
      else .error .noModelsFound := by
  unfold World.lenMixer
  rw [count_entries r ht]
  have h1 : ((w.events t).filter fun e => decide (e.id = 236)).length =
      ((w.entries t).filter fun e => decide (e.2.id = 236)).length := by
    rw [← World.entries_events, List.filter_map, List.length_map]
    rfl
  rw [h1]
  by_cases hc : w.contains t 236
  · rw [if_pos hc, if_pos]
    obtain ⟨x, hx, hid⟩ := (contains_iff w t 236).1 hc
    refine ⟨w.ev x.1, ?_, by rw [(events_shown r ht x hx).2, hid]⟩
    rw [World.events_eq]
    exact List.mem_map.2 ⟨_, hx, rfl⟩
  · rw [if_neg hc, if_neg]
    rintro ⟨e, he, hid⟩
    rw [World.events_eq] at he
    obtain ⟨x, hx, rfl⟩ := List.mem_map.1 he
    refine hc ((contains_iff w t 236).2 ⟨x, hx, ?_⟩)
    rw [← (events_shown r ht x hx).2, hid]

/-- C96: if every insert ends with an `Output` event and has one flag event, and there are not too many of them,
`len(project.mixer)` is the number of inserts of the iteration. -/
theorem C96_inserts_partial {w : World} {L : Nat → Prop} (r : WReach w L) {t : Nat} (ht : L t)
    (hne : shown w.heap 0 ≠ []) (v : FLVersion) {parts : List (List Entry × Entry)} {rest : List Entry}
    (h : InsertParts (w.entries t) parts rest) (hf : ∀ p ∈ parts, (p.1.filter fun e => decide (e.2.id = 236)).length = 1)
    (hrest : ∀ e ∈ rest, e.2.id ≠ 236) (h0 : parts ≠ []) (hmax : parts.length ≤ maxInserts v) :
    w.lenMixer t = .ok (w.iterInserts t v).2.length ∧ (w.iterInserts t v).2.length = parts.length := by
  have hlen : (w.iterInserts t v).2.length = parts.length := by
    obtain ⟨h1, _⟩ := iterInserts_views r ht hne v h
    have := congrArg List.length h1
    rw [List.length_map, List.length_take] at this
    have hs : ∀ (ps : List (List Entry × Entry)) el, (shifted el ps).length = ps.length := by
      intro ps
      induction ps with
      | nil => intro el; rfl
      | cons p ps ih => intro el; simp [shifted, ih]
    rw [hs] at this
    omega
  refine ⟨?_, hlen⟩
  rw [hlen]
  have hfil : ((w.entries t).filter fun e => decide (e.2.id = 236)).length = parts.length := by
    rw [h.split, List.filter_append, List.length_append, filter_flags parts h.output hf]
    rw [List.filter_eq_nil_iff.2 (fun e he => by simpa using hrest e he)]
    rfl
  unfold World.lenMixer
  rw [count_entries r ht, hfil, if_pos]
  have : (w.entries t).filter (fun e => decide (e.2.id = 236)) ≠ [] := by
    intro hc
    rw [hc] at hfil
    exact h0 (List.length_eq_zero_iff.1 hfil.symm)
  obtain ⟨e, he⟩ := List.exists_mem_of_ne_nil _ this
  obtain ⟨he, hid⟩ := List.mem_filter.1 he
  have hev : e.2 ∈ w.events t := by
    rw [← World.entries_events]
    exact List.mem_map.2 ⟨e, he, rfl⟩
  rw [World.events_eq] at hev
  obtain ⟨x, hx, hx2⟩ := List.mem_map.1 hev
  refine (contains_iff w t 236).2 ⟨x, hx, ?_⟩
  rw [← (events_shown r ht x hx).2, hx2]
  simpa using hid

namespace Demo

/-- Two inserts with flags and outputs. -/
def desk : Project := ⟨0, 1, 96, [⟨199, .ascii, .str (PStr.lit "20.8.4"), 7⟩,
  ⟨236, .unknown, .bytes [], 0⟩, ⟨204, .unicode, .str (PStr.lit "A"), 4⟩, ⟨147, .i32, .lv (.int 7), 4⟩,
  ⟨236, .unknown, .bytes [], 0⟩, ⟨98, .u16, .lv (.int 0), 2⟩, ⟨147, .i32, .lv (.int 8), 4⟩, ⟨29, .u8, .lv (.int 1), 1⟩]⟩

def deskEntries : List Entry := (World.ofProject desk).entries 0

theorem desk_parts : InsertParts ((World.ofProject desk).entries 0)
    [(deskEntries.take 3, deskEntries.getD 3 default), ((deskEntries.drop 4).take 2, deskEntries.getD 6 default)]
    (deskEntries.drop 7) where
  split := by decide +kernel
  body := by decide +kernel
  output := by decide +kernel
  after := by decide +kernel

end Demo

open Demo in
/-- A case of C96. -/
example : WReach (World.ofProject desk) (· = 0) ∧ shown (World.ofProject desk).heap 0 ≠ [] ∧
    (∀ p ∈ [(deskEntries.take 3, deskEntries.getD 3 default), ((deskEntries.drop 4).take 2, deskEntries.getD 6 default)],
      (p.1.filter fun e => decide (e.2.id = 236)).length = 1) ∧ (∀ e ∈ deskEntries.drop 7, e.2.id ≠ 236) ∧
    2 ≤ maxInserts ⟨20, 8, 4, some 0⟩ ∧ (World.ofProject desk).lenMixer 0 = .ok 2 ∧
    ((World.ofProject desk).iterInserts 0 ⟨20, 8, 4, some 0⟩).2.length = 2 :=
  ⟨.parsed _, by decide +kernel, by decide +kernel, by decide +kernel, by decide +kernel, by decide +kernel, by decide +kernel⟩

/-- C96 is false of mixers with more inserts than `max_inserts`, in every project: the iteration ends there. -/
theorem C96_limit_refuted {w : World} {L : Nat → Prop} (r : WReach w L) {t : Nat} (ht : L t)
    (hne : shown w.heap 0 ≠ []) (v : FLVersion) {parts : List (List Entry × Entry)} {rest : List Entry}
    (h : InsertParts (w.entries t) parts rest) (hf : ∀ p ∈ parts, (p.1.filter fun e => decide (e.2.id = 236)).length = 1)
    (hmax : maxInserts v < parts.length) :
    (w.iterInserts t v).2.length = maxInserts v ∧ ∃ n, w.lenMixer t = .ok n ∧ maxInserts v < n := by
  obtain ⟨h1, _⟩ := iterInserts_views r ht hne v h
  have h2 := congrArg List.length h1
  rw [List.length_map, List.length_take] at h2
  have hs : ∀ (ps : List (List Entry × Entry)) el, (shifted el ps).length = ps.length := by
    intro ps
    induction ps with
    | nil => intro el; rfl
    | cons p ps ih => intro el; simp [shifted, ih]
  rw [hs] at h2
  have hfil : parts.length ≤ ((w.entries t).filter fun e => decide (e.2.id = 236)).length := by
    rw [h.split, List.filter_append, List.length_append, filter_flags parts h.output hf]
    omega
  refine ⟨by omega, ((w.entries t).filter fun e => decide (e.2.id = 236)).length, ?_, by omega⟩
  rw [C96_len r ht, if_pos]
  · rw [← World.entries_events, List.filter_map, List.length_map]
    rfl
  · have : (w.entries t).filter (fun e => decide (e.2.id = 236)) ≠ [] := by
      intro hc
      rw [hc] at hfil
      simp only [List.length_nil] at hfil
      omega
    obtain ⟨e, he⟩ := List.exists_mem_of_ne_nil _ this
    obtain ⟨he, hid⟩ := List.mem_filter.1 he
    refine ⟨e.2, ?_, by simpa using hid⟩
    rw [← World.entries_events]
    exact List.mem_map.2 ⟨e, he, rfl⟩

/-- C96 is false of the two events inserts are recognised by: a mixer may have inserts to iterate over, but no `len()`, and a
`len()` of 1 without any insert to iterate over. -/
theorem C96_events_refuted :
    ((Demo.consoleWorld.1.iterInserts Demo.consoleWorld.2 ⟨20, 8, 4, some 0⟩).2.length = 2 ∧
      Demo.consoleWorld.1.lenMixer Demo.consoleWorld.2 = .error .noModelsFound) ∧
    ∃ w : World, WReach w (· = 0) ∧ w.lenMixer 0 = .ok 1 ∧ (w.iterInserts 0 ⟨20, 8, 4, some 0⟩).2 = [] := by
  refine ⟨⟨by decide +kernel, by decide +kernel⟩, World.ofProject ⟨0, 1, 96, [⟨236, .unknown, .bytes [], 0⟩]⟩, .parsed _, ?_, ?_⟩
  · decide +kernel
  · decide +kernel

namespace Spec

/-- The number of effect slots FL Studio had, as documented: 4 up to 3.3.0, 8 from 3.3.0 on. -/
def documentedSlots (v : FLVersion) : Nat := if fromVersion 3 3 0 v then 8 else 4

end Spec

/-- C96: `max_slots` is never smaller than documented. -/
theorem C96_max_slots_partial (v : FLVersion) : documentedSlots v ≤ maxSlots v := by
  have key : ∀ k : Int × Int × Int, versionLe3 v k = decide (¬ fromVersion k.1 k.2.1 k.2.2 v) := by
    intro k
    unfold versionLe3 fromVersion
    rw [Bool.eq_iff_iff]
    split
    · simp; omega
    · split
      · simp; omega
      · simp; omega
  unfold documentedSlots maxSlots maxSlotsTable
  simp only [bandOf, key]
  have m : fromVersion 3 3 0 v → fromVersion 3 0 0 v := by unfold fromVersion; omega
  have m' : fromVersion 3 3 0 v → fromVersion 1 6 5 v := by unfold fromVersion; omega
  by_cases h : fromVersion 3 3 0 v
  · simp [h, m h, m' h]
  · simp only [h, if_false]
    split
    · omega
    · split <;> omega

/-- C96 is false as an equality: `max_slots` is 10 instead of 8 for FL Studio 3.3.0 and 8 instead of 4 for FL Studio 2. -/
theorem C96_max_slots_refuted :
    maxSlots ⟨3, 3, 0, none⟩ = 10 ∧ documentedSlots ⟨3, 3, 0, none⟩ = 8 ∧
    maxSlots ⟨2, 0, 0, none⟩ = 8 ∧ documentedSlots ⟨2, 0, 0, none⟩ = 4 := by decide

/-! ## C97 -/

theorem filter_blocks {α β : Type} (f : α → Bool) (g : β → Bool) (P : α → β → Prop) (hp : ∀ a b, P a b → f a = g b)
    (as : List α) : ∀ bs : List β, as.length = bs.length →
    (∀ (k : Nat) a b, as[k]? = some a → bs[k]? = some b → P a b) →
    (as.filter f).length = (bs.filter g).length ∧
    ∀ (k : Nat) a b, (as.filter f)[k]? = some a → (bs.filter g)[k]? = some b → P a b := by
  induction as with
  | nil =>
    intro bs hl _
    cases bs with
    | nil => exact ⟨rfl, fun k a b h => by simp at h⟩
    | cons b bs => simp at hl
  | cons a as ih =>
    intro bs hl h
    cases bs with
    | nil => simp at hl
    | cons b bs =>
      have hab := h 0 a b rfl rfl
      obtain ⟨i1, i2⟩ := ih bs (by simpa using hl) (fun k a' b' h1 h2 => h (k + 1) a' b' (by simpa using h1) (by simpa using h2))
      have he := hp a b hab
      cases hg : g b with
      | false =>
        rw [hg] at he
        rw [List.filter_cons_of_neg (by simp [he]), List.filter_cons_of_neg (by simp [hg])]
        exact ⟨i1, i2⟩
      | true =>
        rw [hg] at he
        rw [List.filter_cons_of_pos he, List.filter_cons_of_pos hg]
        refine ⟨by simp [i1], fun k a' b' h1 h2 => ?_⟩
        cases k with
        | zero => cases h1; cases h2; exact hab
        | succ k => exact i2 k a' b' (by simpa using h1) (by simpa using h2)

/-- C97 for racks all of whose channels are complete: iterating over the automations, instruments, layers or samplers gives the
channels of this class, as told by their events, in their order and with their events; the project does not change. -/
theorem C97_classes_partial {w : World} {L : Nat → Prop} (r : WReach w L) {t : Nat} (ht : L t)
    (hne : shown w.heap 0 ≠ []) {pre : List Entry} {blocks : List (List Entry)}
    (hl : w.entries t = pre ++ blocks.flatten) (hpre : ∀ e ∈ pre, isChannelEvent e = false) (hs : blocks ≠ [])
    (hb : ∀ b ∈ blocks, ∃ iid cls g, RackBlock ((w.entries t).filter fun e => decide (e.2.id = 231)) b iid cls g)
    (cls : ChClass) :
    ∃ w' cs, w.iterClass t cls = (w', cs, none) ∧ w'.project = w.project ∧
      cs.map (fun c => w'.entries c.tree) =
        (blocks.filter fun b => decide (classOf (b.map Prod.snd) = cls)).map (fun b => b.filter isChannelEvent) ∧
      ∀ c ∈ cs, c.cls = cls := by
  obtain ⟨w', cs, h1, h2, -, h4, -, h6⟩ := C72_channels_partial r ht hne hl hpre hs hb
  refine ⟨w', World.channelsOf cls cs, ?_, h4, ?_, ?_⟩
  · unfold World.iterClass
    rw [h1]
  · obtain ⟨f1, f2⟩ := filter_blocks (fun c : Chan => decide (c.cls = cls)) (fun b => decide (classOf (b.map Prod.snd) = cls))
      (fun c b => c.cls = classOf (b.map Prod.snd) ∧ w'.entries c.tree = b.filter isChannelEvent)
      (fun c b h => by rw [h.1]) cs blocks h2 (fun k c b hc hb => by
        obtain ⟨g, g1, _, g3⟩ := h6 k c b hc hb
        exact ⟨g1.cls, g3⟩)
    apply List.ext_getElem?
    intro k
    rw [List.getElem?_map, List.getElem?_map]
    unfold World.channelsOf
    cases hc : (cs.filter fun c => decide (c.cls = cls))[k]? with
    | none =>
      have : (blocks.filter fun b => decide (classOf (b.map Prod.snd) = cls))[k]? = none := by
        rw [List.getElem?_eq_none_iff] at hc ⊢
        omega
      rw [this]
      rfl
    | some c =>
      cases hb : (blocks.filter fun b => decide (classOf (b.map Prod.snd) = cls))[k]? with
      | none =>
        rw [List.getElem?_eq_none_iff] at hb
        obtain ⟨hlt, _⟩ := List.getElem?_eq_some_iff.1 hc
        omega
      | some b => exact congrArg some (f2 k c b hc hb).2
  · intro c hc
    simpa using (List.mem_filter.1 hc).2

/-- C97: `project.channels.groups` gives the display groups, one for each of their events, in their order; the project does not
change. -/
theorem C97_groups {w : World} {L : Nat → Prop} (r : WReach w L) {t : Nat} (ht : L t) (hne : shown w.heap 0 ≠ []) :
    ((w.iterGroups t).2.map fun u => (w.iterGroups t).1.entries u) =
      ((w.entries t).filter fun e => decide (e.2.id = 231)).map (fun e => [e]) ∧
    (w.iterGroups t).1.project = w.project := by
  obtain ⟨_, h2, h3, _⟩ := sepViews_spec r ht hne 231
  exact ⟨h2, h3⟩

/-- C97 is false of channels of other types: none of the four has them. -/
theorem C97_other_refuted {w w' : World} {t : Nat} {cs : List Chan} (h : w.iterRack t = (w', cs, none)) {c : Chan}
    (hc : c.cls = .channel) (cls : ChClass) (hcls : cls ≠ .channel) : c ∉ (w.iterClass t cls).2.1 := by
  unfold World.iterClass
  rw [h]
  intro hm
  have := (List.mem_filter.1 hm).2
  simp [hc] at this
  exact hcls this.symm

/-- A channel of the type 1. -/
example : ∃ (w : World) (c : Chan), (w.iterRack 0).2 = ([c], none) ∧ c.cls = .channel :=
  ⟨World.ofProject ⟨0, 1, 96, [⟨199, .ascii, .str (PStr.lit "20.8.3"), 7⟩, ⟨231, .unicode, .str (PStr.lit "All"), 8⟩,
    ⟨64, .u16, .lv (.int 7), 2⟩, ⟨21, .u8, .lv (.int 1), 1⟩, ⟨145, .i32, .lv (.int 0), 4⟩]⟩,
    ⟨2, .channel, 1, .lv (.int 7)⟩, by decide +kernel, rfl⟩

open Demo in
/-- A case of C97: the rack of C72 has one channel of three of the classes, and one display group. -/
example : (((rackOf band).1.iterClass (rackOf band).2 .layer).2.1.map fun c => c.iid) = [.lv (.int 1)] ∧
    (((rackOf band).1.iterClass (rackOf band).2 .sampler).2.1.map fun c => c.iid) = [.lv (.int 0)] ∧
    ((rackOf band).1.iterClass (rackOf band).2 .automation).2.1 = [] ∧
    ((rackOf band).1.iterGroups (rackOf band).2).2.length = 1 := by decide +kernel

end PyFLP
