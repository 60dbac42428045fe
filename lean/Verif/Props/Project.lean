import Verif.ProjectLemmas
import Verif.Props.Files
/-!
# Properties of projects (C41 – C45)
-/

namespace PyFLP

open Spec Heap

/-! ### C41: which events belong to which part of the project -/

namespace Spec

/-- Ids of time markers: numerator, denominator, position, name. -/
def markerIds : List Nat := [33, 34, 148, 205]
/-- Ids of pattern events and of settings that concern all patterns. -/
def patternIds : List Nat := [26, 30, 65, 67, 150, 160, 161, 162, 164, 193, 223, 224]
/-- Ids of arrangements, their tracks and settings that concern all arrangements. -/
def arrangementIds : List Nat := [17, 18, 99, 100, 152, 217, 233, 238, 239, 241]
/-- Ids of mixer settings, inserts and effect slots. -/
def mixerIds : List Nat := [29, 95, 98, 147, 149, 154, 204, 225, 235, 236]
/-- Ids of plugin events; generators of channels and effects of slots both have them. -/
def pluginIds : List Nat := [128, 155, 201, 203, 212, 213]
/-- Ids of channels, display groups and rack settings. -/
def rackIds : List Nat := [0, 2, 3, 11, 13, 15, 20, 21, 22, 32, 64, 69, 70, 71, 72, 73, 74, 75, 76, 83, 85, 86, 89,
  94, 97, 131, 132, 133, 135, 138, 139, 140, 142, 143, 144, 145, 153, 192, 196, 209, 215, 218, 219, 221, 228, 229,
  231, 234]

/-- `project.patterns`: pattern events, and the time markers before the first arrangement. -/
def patternsRule (before : List Ev) (e : Ev) : Bool :=
  patternIds.contains e.2 || (markerIds.contains e.2 && before.all fun x => x.2 != 99)
/-- `project.arrangements`: arrangement and track events, and the time markers after the start
of the first arrangement. -/
def arrangementsRule (before : List Ev) (e : Ev) : Bool :=
  arrangementIds.contains e.2 || (markerIds.contains e.2 && before.any fun x => x.2 == 99)
/-- `project.channels`: rack events and all plugin events. -/
def channelsRule (_ : List Ev) (e : Ev) : Bool := rackIds.contains e.2 || pluginIds.contains e.2
/-- `project.mixer`: mixer events and the plugin events after the first of them. -/
def mixerRule (before : List Ev) (e : Ev) : Bool :=
  mixerIds.contains e.2 || (pluginIds.contains e.2 && before.any fun x => mixerIds.contains x.2)

end Spec

theorem has_eq (en : IdEnum) (id : Nat) : en.has id = (en.map Prod.fst).contains id := by
  induction en with
  | nil => rfl
  | cons m en ih =>
    rw [List.map_cons, List.contains_cons, ← ih]
    simp [IdEnum.has, BEq.comm]

theorem L0 {w : World} {L : Nat → Prop} (r : WReach w L) : L 0 := (reach_good (wreach_inv r).1).1.vρ

theorem contains_perm {a b : List Nat} (h : a.all b.contains = true) (h' : b.all a.contains = true) (id : Nat) :
    a.contains id = b.contains id := by
  rw [Bool.eq_iff_iff, List.contains_iff_mem, List.contains_iff_mem]
  rw [List.all_eq_true] at h h'
  exact ⟨fun x => List.contains_iff_mem.1 (h id x), fun x => List.contains_iff_mem.1 (h' id x)⟩

theorem ids_or {en en' : IdEnum} (id : Nat) : (en.has id || en'.has id) = IdEnum.has (en ++ en') id := by
  simp [IdEnum.has]

theorem patternIds_eq (id : Nat) : (patternID.has id || patternsID.has id) = patternIds.contains id := by
  rw [ids_or, has_eq]; exact contains_perm (by decide) (by decide) id

theorem markerIds_eq (id : Nat) : timeMarkerID.has id = markerIds.contains id := by
  rw [has_eq]; exact contains_perm (by decide) (by decide) id

theorem arrangementIds_eq (id : Nat) :
    (arrangementID.has id || arrangementsID.has id || trackID.has id) = arrangementIds.contains id := by
  rw [ids_or, ids_or, has_eq]; exact contains_perm (by decide) (by decide) id

theorem mixerIds_eq (id : Nat) : (mixerID.has id || insertID.has id || slotID.has id) = mixerIds.contains id := by
  rw [ids_or, ids_or, has_eq]; exact contains_perm (by decide) (by decide) id

theorem pluginIds_eq (id : Nat) : pluginID.has id = pluginIds.contains id := by
  rw [has_eq]; exact contains_perm (by decide) (by decide) id

theorem rackIds_eq (id : Nat) : (channelID.has id || displayGroupID.has id || pluginID.has id || rackID.has id) =
    (rackIds ++ pluginIds).contains id := by
  rw [ids_or, ids_or, ids_or, has_eq]; exact contains_perm (by decide) (by decide) id

/-- C41. `project.patterns` is made of the project's events the rule names, in order. -/
theorem C41_patterns {w : World} {L : Nat → Prop} (r : WReach w L) :
    shown w.patterns.1.heap w.patterns.2 = keep patternsRule [] (shown w.heap 0) := by
  unfold World.patterns
  rw [pickView_shown r (L0 r)]
  refine pickBy_keep patternsStep (fun pre => pre.any fun x => x.2 == 99) patternsRule ?_ ?_ [] _
  · intro pre e
    unfold patternsStep patternsRule
    rw [patternIds_eq, markerIds_eq]
    by_cases h : e.2 = 99
    · rw [if_pos h, h]; simp [patternIds, markerIds]
    · rw [if_neg h]
      have hall : (pre.all fun x => x.2 != 99) = !(pre.any fun x => x.2 == 99) := by
        simp only [List.not_any_eq_all_not]; rfl
      rw [hall]
      cases markerIds.contains e.2 <;> cases (pre.any fun x => x.2 == 99) <;>
        cases patternIds.contains e.2 <;> rfl
  · intro pre e
    unfold patternsStep
    rw [List.any_append]
    by_cases h : e.2 = 99
    · simp [h]
    · rw [if_neg h]
      split <;> simp [h]

/-- C41, for `project.channels`. -/
theorem C41_channels {w : World} {L : Nat → Prop} (r : WReach w L) :
    shown w.channels.1.heap w.channels.2 = keep channelsRule [] (shown w.heap 0) := by
  unfold World.channels
  rw [pickView_shown r (L0 r)]
  refine pickBy_keep channelsStep (fun _ => ()) channelsRule ?_ (fun _ _ => by unfold channelsStep; split <;> rfl) [] _
  intro pre e
  unfold channelsStep channelsRule
  rw [rackIds_eq]
  by_cases h : e.2 = 236
  · rw [if_pos h, h]; simp [rackIds, pluginIds]
  · rw [if_neg h]
    dsimp only
    rw [Bool.eq_iff_iff]
    simp

theorem pickView_length {σ : Type} (w : World) (t : Nat) (step : σ → Nat → Bool × σ) (s : σ)
    (ht : t < w.heap.trees.length) :
    (w.pickView t step s).2 = w.heap.trees.length ∧
    (w.pickView t step s).1.heap.trees.length = w.heap.trees.length + 1 ∧
    ∀ u, u < w.heap.trees.length → shown (w.pickView t step s).1.heap u = shown w.heap u := by
  obtain ⟨e1, e2⟩ := pickView_eq w t step s
  obtain ⟨y1, _, y3, _⟩ := yieldViews_raw (ViewCall.lists w.heap t (.subtree fun a =>
      decide (a ∈ pickBy w.heap.idOf step s (w.heap.lst t)))) w.heap ht
  rw [← view_eq] at y1 y3
  refine ⟨?_, ?_, fun u hu => ?_⟩
  · rw [← e2] at y1
    simpa [ViewCall.lists] using y1
  · rw [e1]; exact y3
  · rw [e1]
    exact shown_view ht _ hu

/-- C41, for `project.arrangements` (the project needs a version). -/
theorem C41_arrangements {w w' : World} {L : Nat → Prop} (r : WReach w L) {t : Nat}
    (h : w.arrangements = (w', .ok t)) :
    shown w'.heap t = keep arrangementsRule [] (shown w.heap 0) := by
  have hlt := (reach_good (wreach_inv r).1).1.lt 0 (L0 r)
  have key : shown (w.pickView 0 arrangementsStep false).1.heap (w.pickView 0 arrangementsStep false).2 =
      keep arrangementsRule [] (shown w.heap 0) := by
    rw [pickView_shown r (L0 r)]
    refine pickBy_keep arrangementsStep (fun pre => pre.any fun x => x.2 == 99) arrangementsRule ?_ ?_ [] _
    · intro pre e
      unfold arrangementsStep arrangementsRule
      rw [arrangementIds_eq, markerIds_eq]
      by_cases h : e.2 = 99
      · rw [h]; simp [arrangementIds, markerIds]
      · have h' : (e.2 == 99) = false := by simpa using h
        rw [h', Bool.or_false]
        dsimp only
        cases markerIds.contains e.2 <;> cases (pre.any fun x => x.2 == 99) <;>
          cases arrangementIds.contains e.2 <;> rfl
    · intro pre e
      unfold arrangementsStep
      rw [List.any_append]
      simp only [List.any_cons, List.any_nil, Bool.or_false]
      split <;> rfl
  unfold World.arrangements World.channels World.patterns at h
  obtain ⟨a1, a2, _⟩ := pickView_length w 0 arrangementsStep false hlt
  generalize w.pickView 0 arrangementsStep false = p1 at *
  obtain ⟨b1, b2, b3⟩ := pickView_length p1.1 0 channelsStep () (by omega)
  dsimp only at h
  generalize p1.1.pickView 0 channelsStep () = p2 at *
  obtain ⟨c1, c2, c3⟩ := pickView_length p2.1 0 patternsStep false (by omega)
  generalize p2.1.pickView 0 patternsStep false = p3 at *
  split at h
  · cases h
  · injection h with h1 h2
    injection h2 with h2
    subst h1 h2
    rw [c3 _ (by omega), b3 _ (by omega)]
    exact key

/-- C41, for `project.mixer` (the project needs a version). -/
theorem C41_mixer {w w' : World} {L : Nat → Prop} (r : WReach w L) {t : Nat} (h : w.mixer = (w', .ok t)) :
    shown w'.heap t = keep mixerRule [] (shown w.heap 0) := by
  have key : shown (w.pickView 0 mixerStep false).1.heap (w.pickView 0 mixerStep false).2 =
      keep mixerRule [] (shown w.heap 0) := by
    rw [pickView_shown r (L0 r)]
    refine pickBy_keep mixerStep (fun pre => pre.any fun x => mixerIds.contains x.2) mixerRule ?_ ?_ [] _
    · intro pre e
      unfold mixerStep mixerRule
      rw [mixerIds_eq, pluginIds_eq]
      cases mixerIds.contains e.2 <;> cases (pre.any fun x => mixerIds.contains x.2) <;>
        cases pluginIds.contains e.2 <;> rfl
    · intro pre e
      unfold mixerStep
      rw [mixerIds_eq, List.any_append]
      simp only [List.any_cons, List.any_nil, Bool.or_false]
      cases mixerIds.contains e.2 <;> simp
  unfold World.mixer at h
  generalize w.pickView 0 mixerStep false = p1 at *
  dsimp only at h
  split at h
  · cases h
  · injection h with h1 h2
    injection h2 with h2
    subst h1 h2
    exact key

theorem keep_filter {α : Type} (rule : List α → α → Bool) (p : α → Bool) (before l : List α) :
    (keep rule before l).filter p = keep (fun pre e => rule pre e && p e) before l := by
  induction l generalizing before with
  | nil => rfl
  | cons a l ih =>
    simp only [keep]
    by_cases h1 : rule before a = true <;> by_cases h2 : p a = true <;> simp [h1, h2, ih]

/-- C41. Every time marker event belongs to the patterns or to the arrangements: the markers of
the patterns followed by those of the arrangements are all markers of the project, in order. -/
theorem C41_markers_split {w wa : World} {L : Nat → Prop} (r : WReach w L) {ta : Nat}
    (ha : w.arrangements = (wa, .ok ta)) :
    (shown w.patterns.1.heap w.patterns.2).filter (fun e => markerIds.contains e.2) ++
      (shown wa.heap ta).filter (fun e => markerIds.contains e.2) =
    (shown w.heap 0).filter fun e => markerIds.contains e.2 := by
  rw [C41_patterns r, C41_arrangements r ha, keep_filter, keep_filter]
  have hp : ∀ e : Ev, markerIds.contains e.2 = true → patternIds.contains e.2 = false ∧
      arrangementIds.contains e.2 = false := by
    intro e he
    simp only [markerIds, List.contains_iff_mem, List.mem_cons, List.not_mem_nil, or_false] at he
    rcases he with h | h | h | h <;> rw [h] <;> decide
  have hr1 : (fun pre e => patternsRule pre e && markerIds.contains e.2) =
      fun (pre : List Ev) (e : Ev) => markerIds.contains e.2 && pre.all fun x => x.2 != 99 := by
    funext pre e
    unfold patternsRule
    cases hm : markerIds.contains e.2
    · simp
    · rw [(hp e hm).1]; simp
  have hr2 : (fun pre e => arrangementsRule pre e && markerIds.contains e.2) =
      fun (pre : List Ev) (e : Ev) => markerIds.contains e.2 && pre.any fun x => x.2 == 99 := by
    funext pre e
    unfold arrangementsRule
    cases hm : markerIds.contains e.2
    · simp
    · rw [(hp e hm).2]; simp
  rw [hr1, hr2]
  -- after the first arrangement nothing more goes to the patterns
  have late : ∀ (l before : List Ev), (before.any fun x => x.2 == 99) = true →
      keep (fun (pre : List Ev) (e : Ev) => markerIds.contains e.2 && pre.all fun x => x.2 != 99) before l = [] ∧
      keep (fun (pre : List Ev) (e : Ev) => markerIds.contains e.2 && pre.any fun x => x.2 == 99) before l =
        l.filter fun e => markerIds.contains e.2 := by
    intro l
    induction l with
    | nil => intro before _; exact ⟨rfl, rfl⟩
    | cons a l ih =>
      intro before hb
      have hall : (before.all fun x => x.2 != 99) = false := by
        have : (before.all fun x => x.2 != 99) = !(before.any fun x => x.2 == 99) := by
          simp only [List.not_any_eq_all_not]; rfl
        rw [this, hb]; rfl
      obtain ⟨i1, i2⟩ := ih (before ++ [a]) (by rw [List.any_append, hb]; rfl)
      simp only [keep, hall, hb, Bool.and_false, Bool.and_true, i1, i2]
      exact ⟨rfl, by rw [List.filter_cons]⟩
  have gen : ∀ (l before : List Ev), (before.any fun x => x.2 == 99) = false →
      keep (fun (pre : List Ev) (e : Ev) => markerIds.contains e.2 && pre.all fun x => x.2 != 99) before l ++
      keep (fun (pre : List Ev) (e : Ev) => markerIds.contains e.2 && pre.any fun x => x.2 == 99) before l =
        l.filter fun e => markerIds.contains e.2 := by
    intro l
    induction l with
    | nil => intro before _; rfl
    | cons a l ih =>
      intro before hb
      have hall : (before.all fun x => x.2 != 99) = true := by
        have : (before.all fun x => x.2 != 99) = !(before.any fun x => x.2 == 99) := by
          simp only [List.not_any_eq_all_not]; rfl
        rw [this, hb]; rfl
      simp only [keep, hall, hb, Bool.and_false, Bool.and_true, Bool.false_eq_true, if_false]
      rw [List.filter_cons]
      by_cases h99 : a.2 = 99
      · have hm : markerIds.contains a.2 = false := by rw [h99]; decide
        obtain ⟨i1, i2⟩ := late l (before ++ [a]) (by rw [List.any_append]; simp [h99])
        simp only [hm, Bool.false_eq_true, if_false]
        rw [i1, i2]; rfl
      · have i := ih (before ++ [a]) (by rw [List.any_append, hb]; simp [h99])
        cases hm : markerIds.contains a.2
        · simpa using i
        · simp only [if_true, List.cons_append]
          rw [i]
  exact gen _ [] rfl

theorem split_unique {α β : Type} {f : α → β} {l pre post pre' post' : List α} {e e' : α} (hn : (l.map f).Nodup)
    (h : l = pre ++ e :: post) (h' : l = pre' ++ e' :: post') (he : f e = f e') : pre = pre' ∧ e = e' := by
  rcases List.append_eq_append_iff.1 (h.symm.trans h') with ⟨c, c1, c2⟩ | ⟨c, c1, c2⟩
  · cases c with
    | nil => simp only [List.append_nil, List.nil_append, List.cons.injEq] at c1 c2; exact ⟨c1.symm, c2.1⟩
    | cons x c =>
      simp only [List.cons_append, List.cons.injEq] at c2
      rw [h', c1, ← c2.1] at hn
      simp [List.nodup_append, List.nodup_cons, he] at hn
  · cases c with
    | nil => simp only [List.append_nil, List.nil_append, List.cons.injEq] at c1 c2; exact ⟨c1, c2.1.symm⟩
    | cons x c =>
      simp only [List.cons_append, List.cons.injEq] at c2
      rw [h, c1, ← c2.1] at hn
      simp [List.nodup_append, List.nodup_cons, he] at hn

theorem keep_disjoint {rule rule' : List Ev → Ev → Bool} (hr : ∀ pre e, rule pre e = true → rule' pre e = false)
    {l : List Ev} (hn : (l.map Prod.fst).Nodup) :
    ∀ x ∈ (keep rule [] l).map Prod.fst, x ∉ (keep rule' [] l).map Prod.fst := by
  intro x hx hx'
  obtain ⟨e, he, rfl⟩ := List.mem_map.1 hx
  obtain ⟨e', he', hee⟩ := List.mem_map.1 hx'
  obtain ⟨p, q, h1, h2⟩ := mem_keep.1 he
  obtain ⟨p', q', h1', h2'⟩ := mem_keep.1 he'
  obtain ⟨rfl, rfl⟩ := split_unique hn h1 h1' hee.symm
  rw [hr _ _ h2] at h2'
  cases h2'

theorem ids_apart {a b : List Nat} (h : a.all (fun x => !b.contains x) = true) {id : Nat}
    (ha : a.contains id = true) : b.contains id = false := by
  have := List.all_eq_true.1 h id (List.contains_iff_mem.1 ha)
  simpa using this

/-- C41. No event is at the same time part of the patterns and of the arrangements, or of one
of them and of the rack or the mixer. -/
theorem C41_disjoint {w wa wm : World} {L : Nat → Prop} (r : WReach w L) {ta tm : Nat}
    (ha : w.arrangements = (wa, .ok ta)) (hm : w.mixer = (wm, .ok tm)) :
    (∀ x ∈ w.patterns.1.refs w.patterns.2, x ∉ wa.refs ta ∧ x ∉ w.channels.1.refs w.channels.2 ∧ x ∉ wm.refs tm) ∧
    (∀ x ∈ wa.refs ta, x ∉ w.channels.1.refs w.channels.2 ∧ x ∉ wm.refs tm) := by
  have hn := (reach_good (wreach_inv r).1).2
  simp only [World.refs_eq, C41_patterns r, C41_channels r, C41_arrangements r ha, C41_mixer r hm]
  have key : ∀ {rule rule' : List Ev → Ev → Bool}, (∀ pre e, rule pre e = true → rule' pre e = false) →
      ∀ x ∈ (keep rule [] (shown w.heap 0)).map Prod.fst, x ∉ (keep rule' [] (shown w.heap 0)).map Prod.fst :=
    fun hr => keep_disjoint hr hn
  have hpa : ∀ pre e, patternsRule pre e = true → arrangementsRule pre e = false := by
    intro pre e h
    unfold patternsRule at h
    unfold arrangementsRule
    rcases Bool.or_eq_true_iff.1 h with h | h
    · rw [ids_apart (a := patternIds) (b := arrangementIds) (by decide) h,
        ids_apart (a := patternIds) (b := markerIds) (by decide) h]; rfl
    · obtain ⟨h1, h2⟩ := Bool.and_eq_true_iff.1 h
      rw [ids_apart (a := markerIds) (b := arrangementIds) (by decide) h1]
      have : (pre.any fun x => x.2 == 99) = false := by
        rw [List.any_eq_false]
        intro x hx
        have := List.all_eq_true.1 h2 x hx
        simpa using this
      rw [this]; simp
  have hx : ∀ (own : List Nat), own.all (fun x => !rackIds.contains x) = true →
      own.all (fun x => !pluginIds.contains x) = true → own.all (fun x => !mixerIds.contains x) = true →
      ∀ pre (e : Ev), own.contains e.2 = true → channelsRule pre e = false ∧ mixerRule pre e = false := by
    intro own h1 h2 h3 pre e h
    unfold channelsRule mixerRule
    rw [ids_apart h1 h, ids_apart h2 h, ids_apart h3 h]
    exact ⟨rfl, rfl⟩
  have hp : ∀ pre e, patternsRule pre e = true → channelsRule pre e = false ∧ mixerRule pre e = false := by
    intro pre e h
    unfold patternsRule at h
    refine hx (patternIds ++ markerIds) (by decide) (by decide) (by decide) pre e ?_
    rcases Bool.or_eq_true_iff.1 h with h | h
    · simp only [List.contains_iff_mem, List.mem_append] at h ⊢; exact .inl h
    · have := (Bool.and_eq_true_iff.1 h).1
      simp only [List.contains_iff_mem, List.mem_append] at this ⊢; exact .inr this
  have hq : ∀ pre e, arrangementsRule pre e = true → channelsRule pre e = false ∧ mixerRule pre e = false := by
    intro pre e h
    unfold arrangementsRule at h
    refine hx (arrangementIds ++ markerIds) (by decide) (by decide) (by decide) pre e ?_
    rcases Bool.or_eq_true_iff.1 h with h | h
    · simp only [List.contains_iff_mem, List.mem_append] at h ⊢; exact .inl h
    · have := (Bool.and_eq_true_iff.1 h).1
      simp only [List.contains_iff_mem, List.mem_append] at this ⊢; exact .inr this
  exact ⟨fun x h => ⟨key hpa x h, key (fun pre e h => (hp pre e h).1) x h, key (fun pre e h => (hp pre e h).2) x h⟩,
    fun x h => ⟨key (fun pre e h => (hq pre e h).1) x h, key (fun pre e h => (hq pre e h).2) x h⟩⟩


/-! ### Reading project values from the list of events -/

/-- The version in the value of the version event. -/
def versionOf : Option Value → Py FLVersion
  | none => .error .keyError
  | some (.str s) =>
    match intParts (pySplit 46 s) with
    | none => .error .valueError
    | some ps => FLVersion.ofParts ps
  | some _ => .error .typeError

theorem version_eq {w : World} {L : Nat → Prop} (r : WReach w L) :
    w.version = versionOf (valueOf w.project.events 199) := by
  unfold World.version World.firstStr World.firstEv
  rw [World.project_events]
  rcases World.first_value r (L0 r) 199 with ⟨ref, h1, _, h3, _⟩ | ⟨h1, h2⟩
  · rw [h1, h3]
    unfold versionOf
    dsimp only
    generalize (w.ev ref).value = v
    cases v <;> rfl
  · rw [h1, h2]; rfl

/-- The licensee in the value of its event. -/
def licenseeOf [UniEnv] : Option Value → Py (Option PStr)
  | none => .ok none
  | some (.str s) =>
    match licDecode s 0 with
    | .error e => .error e
    | .ok bs => if bs.all (· < 128) then .ok (some bs) else .error .unicodeError
  | some _ => .error .typeError

theorem licensee_eq [UniEnv] {w : World} {L : Nat → Prop} (r : WReach w L) :
    w.licensee = licenseeOf (valueOf w.project.events 200) := by
  unfold World.licensee World.firstStr World.firstEv
  rw [World.project_events, World.contains_eq r (L0 r)]
  rcases World.first_value r (L0 r) 200 with ⟨ref, h1, _, h3, _⟩ | ⟨h1, h2⟩
  · rw [h1, h3]
    unfold licenseeOf
    dsimp only
    generalize (w.ev ref).value = v
    cases v <;> rfl
  · rw [h2]; rfl

/-- The integer in the value of an event. -/
def intOf : Option Value → Py Int
  | none => .error .keyError
  | some (.lv (.int i)) => .ok i
  | some _ => .error .typeError

theorem firstInt_eq {w : World} {L : Nat → Prop} (r : WReach w L) (id : Nat) :
    w.firstInt id = intOf (valueOf w.project.events id) := by
  unfold World.firstInt World.firstEv
  rw [World.project_events]
  rcases World.first_value r (L0 r) id with ⟨ref, h1, _, h3, _⟩ | ⟨h1, h2⟩
  · rw [h1, h3]
    unfold intOf
    dsimp only
    generalize (w.ev ref).value = v
    cases v with
    | lv x => cases x <;> rfl
    | _ => rfl
  · rw [h1, h2]; rfl

/-- The tempo in the values of its three events (`Tempo`, coarse, fine). -/
def tempoOf (main coarse fine : Option Value) : Py (Option PyNum) :=
  if main.isSome then (intOf main).map fun (n : Int) => some (.float (fl ((n : Rat) / 1000)))
  else
    match (if coarse.isSome then (intOf coarse).map some else .ok none) with
    | .error e => .error e
    | .ok c =>
      if fine.isSome then
        match c, intOf fine with
        | _, .error e => .error e
        | none, .ok _ => .error .typeError
        | some c, .ok n => .ok (some (.float (addMilli c n)))
      else .ok (c.map .int)

theorem tempo_eq {w : World} {L : Nat → Prop} (r : WReach w L) :
    w.tempo = tempoOf (valueOf w.project.events 156) (valueOf w.project.events 66)
      (valueOf w.project.events 93) := by
  unfold World.tempo tempoOf
  have h0 := L0 r
  simp only [World.contains_eq r h0, firstInt_eq r, ← World.project_events]
  rfl

theorem assignFirst_eq {w : World} {L : Nat → Prop} (r : WReach w L) (id : Nat) (v : Value) (e : Exc) :
    (valueOf w.project.events id = none ∧ w.assignFirst id v e = (w, .error e)) ∨
    ∃ w', w.assignFirst id v e = (w', .ok ()) ∧ WReach w' L ∧ (valueOf w.project.events id).isSome ∧
      w'.project = { w.project with events := setFirst w.project.events id v } := by
  unfold World.assignFirst World.firstEv
  rw [World.contains_eq r (L0 r), ← World.project_events]
  rcases World.first_value r (L0 r) id with ⟨ref, h1, h2, h3, _⟩ | ⟨h1, h2⟩
  · rw [h1]
    rw [← World.project_events] at h3
    obtain ⟨g1, g2⟩ := World.first_set r (L0 r) v h1
    exact .inr ⟨_, by rw [h3]; rfl, g2, by rw [h3]; rfl, g1⟩
  · rw [← World.project_events] at h2
    exact .inl ⟨h2, by rw [h2]; rfl⟩

theorem valueOf_observe {evs evs' : List Event} (h : evs.map observe = evs'.map observe) (id : Nat) :
    valueOf evs id = valueOf evs' id := by
  induction evs generalizing evs' with
  | nil =>
    cases evs' with
    | nil => rfl
    | cons => simp at h
  | cons e evs ih =>
    cases evs' with
    | nil => simp at h
    | cons e' evs' =>
      simp only [List.map_cons, List.cons.injEq, observe, Prod.mk.injEq] at h
      obtain ⟨⟨h1, _, h3⟩, h4⟩ := h
      have := ih h4
      unfold valueOf at *
      simp only [List.find?_cons, h1]
      cases e'.id == id with
      | true => simp [h3]
      | false => exact this

/-! ### C42 -/

/-- C42. `project.ppq = value` succeeds exactly for the eleven timebases FL Studio has, and then
changes only the timebase; otherwise it raises `ValueError` and changes nothing. -/
theorem C42_ppq (w : World) (value : Int) :
    (∀ n : Nat, n ∈ ppqs → value = n →
      ∃ w', w.setPPQ value = (w', .ok ()) ∧ w'.project = { w.project with ppq := n }) ∧
    ((∀ n ∈ ppqs, value ≠ (n : Int)) → w.setPPQ value = (w, .error .valueError)) := by
  refine ⟨?_, ?_⟩
  · rintro n hn rfl
    refine ⟨{ w with ppq := n }, ?_, rfl⟩
    unfold World.setPPQ
    rw [if_pos (by rw [List.any_eq_true]; exact ⟨n, hn, by simp⟩)]
    rfl
  · intro h
    unfold World.setPPQ
    rw [if_neg]
    rw [List.any_eq_true]
    rintro ⟨n, hn, he⟩
    exact h n hn (of_decide_eq_true he).symm

/-- C42. `project.channel_count = value` refuses negative numbers only. -/
theorem C42_channel_count (w : World) (value : Int) :
    (∀ n : Nat, value = n →
      ∃ w', w.setChannelCount value = (w', .ok ()) ∧ w'.project = { w.project with channelCount := n }) ∧
    (value < 0 → w.setChannelCount value = (w, .error .valueError)) := by
  refine ⟨?_, fun h => by unfold World.setChannelCount; rw [if_pos h]⟩
  rintro n rfl
  exact ⟨{ w with channelCount := n }, by unfold World.setChannelCount; rw [if_neg (by omega)]; rfl, rfl⟩

/-- C42. What a saved project reads as after parsing it again: format, timebase, version,
tempo events, licensee and the value of every event are the same; the channel count is the
number of channels. -/
theorem C42_reread [FloatEnv] [UniEnv] {w : World} {L : Nat → Prop} (r : WReach w L) {file : Bytes}
    (hf : w.format ∈ formats) (hq : w.ppq ∈ ppqs) (ht : WellTyped w.project.events)
    (hv : ∀ e ∈ w.project.events, validValue e.kind e.len e.value) (h : saveBytes w.project = .ok file) :
    ∃ q, parseFile file = .ok q ∧
      let w' := World.ofProject q
      w'.format = w.format ∧ w'.ppq = w.ppq ∧ w'.channelCount = channelStarts w.project.events ∧
      w'.version = w.version ∧ w'.licensee = w.licensee ∧ w'.tempo = w.tempo ∧
      ∀ id, valueOf w'.project.events id = valueOf w.project.events id := by
  obtain ⟨q, h1, h2, h3, h4, h5, -⟩ := C04_save_parse w.project file hf hq ht hv h
  refine ⟨q, h1, h2, h3, h4, ?_⟩
  have r' : WReach (World.ofProject q) (· = 0) := .parsed q
  have hval : ∀ id, valueOf (World.ofProject q).project.events id = valueOf w.project.events id := by
    intro id
    rw [ofProject_project]
    exact valueOf_observe h5 id
  refine ⟨?_, ?_, ?_, hval⟩
  · rw [version_eq r', version_eq r, hval]
  · rw [licensee_eq r', licensee_eq r, hval]
  · rw [tempo_eq r', tempo_eq r, hval, hval, hval]

namespace Demo

/-- The world of the demo project. -/
def start : World := World.ofProject project

/-- It is reachable. -/
theorem start_reach : WReach start (· = 0) := .parsed project

/-- Hypotheses of `C42_reread`. -/
example [FloatEnv] [UniEnv] : WReach start (· = 0) ∧ start.format ∈ formats ∧ start.ppq ∈ ppqs ∧
    WellTyped start.project.events ∧ (∀ e ∈ start.project.events, validValue e.kind e.len e.value) ∧
    saveBytes start.project = .ok file := by
  have : start.project = project := ofProject_project project
  rw [this]
  exact ⟨start_reach, by decide, by decide, wellTyped, valid, saved⟩

end Demo

/-- C42 is false for `channel_count`: the assigned number is not stored in the file. -/
theorem C42_channel_count_refuted [FloatEnv] : ¬ ∀ (w w' : World) (L : Nat → Prop) (_ : WReach w L) (n : Nat)
    (file : Bytes) (q : Project), w.setChannelCount n = (w', .ok ()) → saveBytes w'.project = .ok file →
    parseFile file = .ok q → q.channelCount = n := by
  intro h
  have hw : (Demo.start.setChannelCount 7) = ({ Demo.start with channelCount := 7 }, .ok ()) := rfl
  have hp : ({ Demo.start with channelCount := 7 } : World).project = { Demo.project with channelCount := 7 } := by
    show Project.mk _ _ _ Demo.start.project.events = _
    rw [show Demo.start.project = Demo.project from ofProject_project _]; rfl
  have hs : saveBytes { Demo.project with channelCount := 7 } = .ok Demo.file := Demo.saved
  obtain ⟨q, h1, _, _, h4, _⟩ := C04_save_parse _ _ (by decide) (by decide) Demo.wellTyped Demo.valid Demo.saved
  have := h _ _ _ Demo.start_reach 7 Demo.file q hw (by rw [hp]; exact hs) h1
  rw [h4] at this
  exact absurd this (by decide +kernel)

/-! ### Examples for C41 -/

namespace Demo

/-- A version, a channel with a plugin, a marker of a pattern, an arrangement with a marker and a
track, a mixer insert with an effect, the insert's output. -/
def song : Project := ⟨0, 1, 96, [⟨199, .ascii, .str (PStr.lit "20.8.3"), 7⟩, ⟨64, .u16, .lv (.int 0), 2⟩,
  ⟨201, .unicode, .str (PStr.lit "BooBass"), 16⟩, ⟨65, .u16, .lv (.int 1), 2⟩, ⟨148, .u32, .lv (.int 96), 4⟩,
  ⟨99, .u16, .lv (.int 0), 2⟩, ⟨148, .u32, .lv (.int 192), 4⟩, ⟨236, .unknown, .bytes [], 0⟩,
  ⟨201, .unicode, .str (PStr.lit "Fruity Balance"), 30⟩, ⟨98, .u16, .lv (.int 0), 2⟩, ⟨147, .u32, .lv (.int 0), 4⟩]⟩

/-- Its world. -/
def songWorld : World := World.ofProject song

/-- It is reachable. -/
theorem song_reach : WReach songWorld (· = 0) := .parsed song

theorem song_shown : shown songWorld.heap 0 = [(0, 199), (1, 64), (2, 201), (3, 65), (4, 148), (5, 99), (6, 148),
    (7, 236), (8, 201), (9, 98), (10, 147)] := by decide +kernel

theorem song_version : songWorld.version = .ok ⟨20, 8, 3, none⟩ := by decide +kernel

theorem song_arrangements : ∃ w t, songWorld.arrangements = (w, .ok t) := by
  have h : (songWorld.arrangements).2.isOk = true := by decide +kernel
  generalize songWorld.arrangements = r at h
  obtain ⟨w, t | t⟩ := r
  · cases h
  · exact ⟨w, t, rfl⟩

theorem song_mixer : ∃ w t, songWorld.mixer = (w, .ok t) := by
  have h : (songWorld.mixer).2.isOk = true := by decide +kernel
  generalize songWorld.mixer = r at h
  obtain ⟨w, t | t⟩ := r
  · cases h
  · exact ⟨w, t, rfl⟩

example : shown songWorld.patterns.1.heap songWorld.patterns.2 = [(3, 65), (4, 148)] := by
  rw [C41_patterns song_reach, song_shown]; decide

example : shown songWorld.channels.1.heap songWorld.channels.2 = [(1, 64), (2, 201), (8, 201)] := by
  rw [C41_channels song_reach, song_shown]; decide

example : ∃ w t, songWorld.arrangements = (w, .ok t) ∧ shown w.heap t = [(5, 99), (6, 148)] := by
  obtain ⟨w, t, h⟩ := song_arrangements
  refine ⟨w, t, h, ?_⟩
  rw [C41_arrangements song_reach h, song_shown]; decide

theorem song_mixer_shown : ∃ w t, songWorld.mixer = (w, .ok t) ∧
    shown w.heap t = [(7, 236), (8, 201), (9, 98), (10, 147)] := by
  obtain ⟨w, t, h⟩ := song_mixer
  refine ⟨w, t, h, ?_⟩
  rw [C41_mixer song_reach h, song_shown]; decide

end Demo

/-- C41 does not hold for the rack and the mixer: the events of an effect's plugin are part of both. -/
theorem C41_rack_mixer_refuted : ¬ ∀ (w wm : World) (L : Nat → Prop) (tm : Nat), WReach w L → w.mixer = (wm, .ok tm) →
    ∀ x ∈ w.channels.1.refs w.channels.2, x ∉ wm.refs tm := by
  intro h
  obtain ⟨wm, tm, h1, h2⟩ := Demo.song_mixer_shown
  have := h _ wm _ tm Demo.song_reach h1 8
  rw [World.refs_eq, World.refs_eq, h2, C41_channels Demo.song_reach, Demo.song_shown] at this
  revert this
  decide

end PyFLP
