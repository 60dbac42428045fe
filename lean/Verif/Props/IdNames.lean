import Verif.IdNames
import Verif.Props.Declared
import Verif.Props.Files

/-!
# C125: an event id is one member for ever, with its declared name
-/

namespace PyFLP

namespace Spec

/-- The first of the classes that declares `v`, with the name it declares. -/
def claimed (cs : List IdClass) (v : Int) : Option (String × String) :=
  cs.findSome? fun c => (c.members.find? fun m => m.1 == v).map fun m => (c.name, m.2)

/-- The classes a program loads, in its order. -/
def loads (ops : List IdOp) : List IdClass :=
  ops.filterMap fun o => match o with | .load c => some c | _ => none

/-- Some program step looked `v` up at a time when no class that declares it was loaded. -/
def TooEarly (s : IdState) (ops : List IdOp) (v : Int) : Prop :=
  ∃ before after, ops = before ++ .look v :: after ∧ claimed (s.classes ++ loads before) v = none

/-- No number was looked up so far. -/
def Untouched (s : IdState) : Prop := s.made = []

end Spec

open Spec

theorem findSome_member (cs : List IdClass) (v : Int) :
    (cs.findSome? fun c => c.member v) = (claimed cs v).map fun d => IdMember.declared d.1 d.2 v := by
  induction cs with
  | nil => rfl
  | cons c cs ih =>
    unfold claimed at ih ⊢
    rw [List.findSome?_cons, List.findSome?_cons]
    unfold IdClass.member
    cases h : c.members.find? fun m => m.1 == v with
    | none => simpa [IdClass.member] using ih
    | some m => rfl

theorem claimed_append (cs ds : List IdClass) (v : Int) :
    claimed (cs ++ ds) v = (claimed cs v).or (claimed ds v) := by
  unfold claimed
  rw [List.findSome?_append]

theorem make_classes (s : IdState) (c : String) (v : Int) : (s.make c v).1.classes = s.classes := by
  unfold IdState.make
  split
  · rfl
  · split <;> rfl

theorem make_made {s : IdState} {c d : String} {v w : Int} :
    (d, w) ∈ (s.make c v).1.made ↔ (d, w) ∈ s.made ∨ ((d, w) = (c, v) ∧ inByte v = true) := by
  unfold IdState.make
  split
  · rename_i h
    constructor
    · exact Or.inl
    · rintro (h' | ⟨h', -⟩)
      · exact h'
      · rw [h']; exact h
  · split
    · rename_i h
      simp only [List.mem_cons]
      constructor
      · rintro (h' | h')
        · exact Or.inr ⟨h', h⟩
        · exact Or.inl h'
      · rintro (h' | ⟨h', -⟩)
        · exact Or.inr h'
        · exact Or.inl h'
    · rename_i h
      constructor
      · exact Or.inl
      · rintro (h' | ⟨-, h'⟩)
        · exact h'
        · exact absurd h' h

theorem lookup_classes (s : IdState) (v : Int) : (s.lookup v).1.classes = s.classes := by
  unfold IdState.lookup
  split
  · rfl
  · split
    · split
      · rfl
      · exact make_classes _ _ _
    · rfl

theorem lookup_made {s : IdState} {v w : Int} :
    ("EventEnum", w) ∈ (s.lookup v).1.made ↔
      ("EventEnum", w) ∈ s.made ∨ (w = v ∧ inByte v = true ∧ claimed s.classes v = none) := by
  unfold IdState.lookup
  split
  · rename_i h
    constructor
    · exact Or.inl
    · rintro (h' | ⟨h', -⟩)
      · exact h'
      · rw [h']; exact h
  · split
    · rename_i h
      rw [findSome_member]
      cases hc : claimed s.classes v with
      | some d => simp
      | none =>
        simp only [Option.map_none]
        rw [make_made]
        simp [h]
    · rename_i h
      simp [h]

theorem lookupIn_classes (s : IdState) (c : String) (v : Int) : (s.lookupIn c v).1.classes = s.classes := by
  unfold IdState.lookupIn
  split
  · rfl
  · split
    · rfl
    · exact make_classes _ _ _

theorem lookupIn_made {s : IdState} (hs : ∀ c ∈ s.classes, c.name ≠ "EventEnum") {c : String} {v w : Int} :
    ("EventEnum", w) ∈ (s.lookupIn c v).1.made ↔ ("EventEnum", w) ∈ s.made := by
  unfold IdState.lookupIn
  split
  · rfl
  · rename_i d hd
    split
    · rfl
    · rw [make_made]
      have hn : d.name = c := by simpa using List.find?_some hd
      have := hs d (List.mem_of_find?_eq_some hd)
      rw [hn] at this
      constructor
      · rintro (h | ⟨h, -⟩)
        · exact h
        · injection h with h1 h2
          exact absurd h1.symm this
      · exact Or.inl

/-- No class of a program is called like the base class (`EventEnum` can be derived from only under another name in
`pyflp`; members are told apart by the name of their class). -/
def Spec.NotBase (s : IdState) (ops : List IdOp) : Prop := ∀ c ∈ s.classes ++ loads ops, c.name ≠ "EventEnum"

theorem step_classes (s : IdState) (o : IdOp) : (s.step o).classes = s.classes ++ loads [o] := by
  cases o with
  | look v => simp [IdState.step, lookup_classes, loads]
  | lookIn c v => simp [IdState.step, lookupIn_classes, loads]
  | load c => simp [IdState.step, loads]

theorem loads_append (a b : List IdOp) : loads (a ++ b) = loads a ++ loads b := by
  simp [loads]

theorem run_append (s : IdState) (a b : List IdOp) : s.run (a ++ b) = (s.run a).run b := by
  simp [IdState.run]

theorem run_classes (s : IdState) (ops : List IdOp) : (s.run ops).classes = s.classes ++ loads ops := by
  induction ops generalizing s with
  | nil => simp [IdState.run, loads]
  | cons o ops ih =>
    rw [show s.run (o :: ops) = (s.step o).run ops from rfl, ih, step_classes, List.append_assoc, ← loads_append]
    rfl

theorem run_made {s : IdState} {ops : List IdOp} (hn : NotBase s ops) {v : Int} :
    ("EventEnum", v) ∈ (s.run ops).made ↔ ("EventEnum", v) ∈ s.made ∨ (inByte v = true ∧ TooEarly s ops v) := by
  induction ops generalizing s with
  | nil =>
    constructor
    · exact Or.inl
    · rintro (h | ⟨-, b, a, h, -⟩)
      · exact h
      · cases b <;> cases h
  | cons o ops ih =>
    rw [show s.run (o :: ops) = (s.step o).run ops from rfl]
    have hn' : NotBase (s.step o) ops := by
      intro c hc
      apply hn c
      rw [step_classes, List.append_assoc, ← loads_append] at hc
      exact hc
    rw [ih hn']
    have key : TooEarly s (o :: ops) v ↔ (o = .look v ∧ claimed s.classes v = none) ∨ TooEarly (s.step o) ops v := by
      constructor
      · rintro ⟨b, a, h, hc⟩
        cases b with
        | nil =>
          injection h with h1 h2
          refine Or.inl ⟨h1, ?_⟩
          simpa [loads] using hc
        | cons x b =>
          injection h with h1 h2
          subst h1
          refine Or.inr ⟨b, a, h2, ?_⟩
          rw [step_classes, List.append_assoc, ← loads_append]
          exact hc
      · rintro (⟨h, hc⟩ | ⟨b, a, h, hc⟩)
        · exact ⟨[], ops, by rw [h]; rfl, by simpa [loads] using hc⟩
        · refine ⟨o :: b, a, by rw [h]; rfl, ?_⟩
          rw [step_classes, List.append_assoc, ← loads_append] at hc
          exact hc
    rw [key]
    have hs : ("EventEnum", v) ∈ (s.step o).made ↔
        ("EventEnum", v) ∈ s.made ∨ (inByte v = true ∧ o = .look v ∧ claimed s.classes v = none) := by
      cases o with
      | look w =>
        rw [show s.step (.look w) = (s.lookup w).1 from rfl, lookup_made]
        constructor
        · rintro (h | ⟨rfl, h1, h2⟩)
          · exact Or.inl h
          · exact Or.inr ⟨h1, rfl, h2⟩
        · rintro (h | ⟨h1, h2, h3⟩)
          · exact Or.inl h
          · injection h2 with h2
            subst h2
            exact Or.inr ⟨rfl, h1, h3⟩
      | lookIn c w =>
        rw [show s.step (.lookIn c w) = (s.lookupIn c w).1 from rfl,
          lookupIn_made fun d hd => hn d (List.mem_append_left _ hd)]
        constructor
        · exact Or.inl
        · rintro (h | ⟨-, h, -⟩)
          · exact h
          · cases h
      | load c =>
        constructor
        · exact Or.inl
        · rintro (h | ⟨-, h, -⟩)
          · exact h
          · cases h
    rw [hs]
    constructor
    · rintro ((h | ⟨h1, h2⟩) | ⟨h1, h2⟩)
      · exact Or.inl h
      · exact Or.inr ⟨h1, Or.inl h2⟩
      · exact Or.inr ⟨h1, Or.inr h2⟩
    · rintro (h | ⟨h1, h2 | h2⟩)
      · exact Or.inl (Or.inl h)
      · exact Or.inl (Or.inr ⟨h1, h2⟩)
      · exact Or.inr ⟨h1, h2⟩

theorem lookup_result {s : IdState} {v : Int} (hv : 0 ≤ v ∧ v ≤ 255) (hs : ("EventEnum", v) ∉ s.made) :
    (s.lookup v).2 = .ok (match claimed s.classes v with
      | some d => .declared d.1 d.2 v
      | none => .made "EventEnum" v) := by
  have hb : inByte v = true := by unfold inByte; simp [hv]
  unfold IdState.lookup
  rw [if_neg hs, if_pos hb, findSome_member]
  cases claimed s.classes v with
  | some d => rfl
  | none =>
    simp only [Option.map_none]
    unfold IdState.make
    rw [if_neg hs, if_pos hb]

theorem lookup_seen {s : IdState} {v : Int} (hs : ("EventEnum", v) ∈ s.made) :
    s.lookup v = (s, .ok (.made "EventEnum" v)) := by
  unfold IdState.lookup
  rw [if_pos hs]

/-- C125. **What `EventEnum(v)` is, after any program.**  A byte gives the member that the first of the loaded classes
declares, unless the number was looked up at some earlier time when none of the classes loaded by then declared it: then, and
when no class declares it, it is a member that bears the number as its name. -/
theorem C125_exact (s : IdState) (hs : Untouched s) (ops : List IdOp) (hn : NotBase s ops) (v : Int) (hv : 0 ≤ v ∧ v ≤ 255) :
    ((s.run ops).lookup v).2 = .ok (.made "EventEnum" v) ∧ (TooEarly s ops v ∨ claimed (s.classes ++ loads ops) v = none) ∨
    ∃ cls name, claimed (s.classes ++ loads ops) v = some (cls, name) ∧ ¬ TooEarly s ops v ∧
      ((s.run ops).lookup v).2 = .ok (.declared cls name v) := by
  have hb : inByte v = true := by unfold inByte; simp [hv]
  by_cases he : TooEarly s ops v
  · left
    exact ⟨by rw [lookup_seen ((run_made hn).2 (Or.inr ⟨hb, he⟩))], Or.inl he⟩
  · have hm : ("EventEnum", v) ∉ (s.run ops).made := by
      intro h
      rcases (run_made hn).1 h with h | ⟨-, h⟩
      · rw [hs] at h
        cases h
      · exact he h
    rw [lookup_result hv hm, run_classes]
    cases hc : claimed (s.classes ++ loads ops) v with
    | none => exact Or.inl ⟨rfl, Or.inr rfl⟩
    | some d => exact Or.inr ⟨d.1, d.2, rfl, he, rfl⟩

theorem lookup_range {s : IdState} (hs : ∀ p ∈ s.made, inByte p.2 = true) {v : Int} :
    (s.lookup v).2 = .error .valueError ∧ (s.lookup v).1 = s ∧ ¬ (0 ≤ v ∧ v ≤ 255) ∨
    ∃ m, (s.lookup v).2 = .ok m ∧ m.value = v ∧ 0 ≤ v ∧ v ≤ 255 := by
  by_cases hm : ("EventEnum", v) ∈ s.made
  · have := hs _ hm
    unfold inByte at this
    simp only [Bool.and_eq_true, decide_eq_true_eq] at this
    exact Or.inr ⟨.made "EventEnum" v, by rw [lookup_seen hm], rfl, this.1, this.2⟩
  · by_cases hv : 0 ≤ v ∧ v ≤ 255
    · right
      rw [lookup_result hv hm]
      cases claimed s.classes v with
      | none => exact ⟨_, rfl, rfl, hv⟩
      | some d => exact ⟨_, rfl, rfl, hv⟩
    · left
      have hb : ¬ (inByte v = true) := by
        unfold inByte
        simpa using hv
      unfold IdState.lookup
      rw [if_neg hm, if_neg hb]
      exact ⟨rfl, rfl, hv⟩

theorem make_inByte {s : IdState} (hs : ∀ p ∈ s.made, inByte p.2 = true) (c : String) (v : Int) :
    ∀ p ∈ (s.make c v).1.made, inByte p.2 = true := by
  rintro ⟨d, w⟩ hp
  rcases make_made.1 hp with h | ⟨h, hb⟩
  · exact hs _ h
  · injection h with h1 h2
    rw [h2]
    exact hb

theorem step_inByte {s : IdState} (hs : ∀ p ∈ s.made, inByte p.2 = true) (o : IdOp) :
    ∀ p ∈ (s.step o).made, inByte p.2 = true := by
  cases o with
  | look v =>
    show ∀ p ∈ (s.lookup v).1.made, inByte p.2 = true
    unfold IdState.lookup
    split
    · exact hs
    · split
      · split
        · exact hs
        · exact make_inByte hs _ _
      · exact hs
  | lookIn c v =>
    show ∀ p ∈ (s.lookupIn c v).1.made, inByte p.2 = true
    unfold IdState.lookupIn
    split
    · exact hs
    · split
      · exact hs
      · exact make_inByte hs _ _
  | load c => exact hs

theorem run_inByte {s : IdState} (hs : ∀ p ∈ s.made, inByte p.2 = true) (ops : List IdOp) :
    ∀ p ∈ (s.run ops).made, inByte p.2 = true := by
  induction ops generalizing s with
  | nil => exact hs
  | cons o ops ih => exact ih (step_inByte hs o)

/-- C125. After any program, `EventEnum(v)` is a member that is equal to `v` if `v` is a byte; otherwise it raises `ValueError`
and leaves everything as it was. -/
theorem C125_value (s : IdState) (hs : Untouched s) (ops : List IdOp) (v : Int) :
    ((0 ≤ v ∧ v ≤ 255) → ∃ m, ((s.run ops).lookup v).2 = .ok m ∧ m.value = v) ∧
    (¬ (0 ≤ v ∧ v ≤ 255) → (s.run ops).lookup v = (s.run ops, .error .valueError)) := by
  have h0 : ∀ p ∈ s.made, inByte p.2 = true := by rw [hs]; intro p hp; cases hp
  rcases lookup_range (run_inByte h0 ops) (v := v) with ⟨h1, h2, h3⟩ | ⟨m, h1, h2, h3⟩
  · exact ⟨fun h => absurd h h3, fun _ => Prod.ext h2 h1⟩
  · exact ⟨fun _ => ⟨m, h1, h2⟩, fun h => absurd h3 h⟩

/-- C125. **One object for ever.**  Whatever a program did before and does afterwards - opening files, calling the classes,
importing more modules - the member that a number gave once is the one it gives at every later time. -/
theorem C125_same (s : IdState) (before after : List IdOp) (hn : NotBase s (before ++ after)) (v : Int)
    (m : IdMember) (hm : ((s.run before).lookup v).2 = .ok m) :
    ((s.run (before ++ .look v :: after)).lookup v).2 = .ok m := by
  rw [run_append]
  generalize hs1 : s.run before = s1 at hm ⊢
  have hn1 : NotBase s1 after := by
    intro c hc
    apply hn c
    rw [← hs1, run_classes, List.append_assoc, ← loads_append] at hc
    exact hc
  show (((s1.lookup v).1.run after).lookup v).2 = .ok m
  have hn2 : NotBase (s1.lookup v).1 after := by
    intro c hc
    rw [lookup_classes] at hc
    exact hn1 c hc
  by_cases hseen : ("EventEnum", v) ∈ (s1.lookup v).1.made
  · rw [lookup_seen ((run_made hn2).2 (Or.inl hseen))]
    rw [← hm]
    rcases lookup_made.1 hseen with h | ⟨-, hb, hc⟩
    · rw [lookup_seen h]
    · by_cases h : ("EventEnum", v) ∈ s1.made
      · rw [lookup_seen h]
      · have hv : 0 ≤ v ∧ v ≤ 255 := by unfold inByte at hb; simpa using hb
        rw [lookup_result hv h, hc]
  · have h1 : ("EventEnum", v) ∉ s1.made := fun h => hseen (lookup_made.2 (Or.inl h))
    have hb : inByte v = true := by
      cases hb : inByte v with
      | true => rfl
      | false =>
        unfold IdState.lookup at hm
        rw [if_neg h1, hb] at hm
        cases hm
    have hv : 0 ≤ v ∧ v ≤ 255 := by unfold inByte at hb; simpa using hb
    obtain ⟨d, hd⟩ : ∃ d, claimed s1.classes v = some d := by
      cases hc : claimed s1.classes v with
      | some d => exact ⟨d, rfl⟩
      | none => exact absurd (lookup_made.2 (Or.inr ⟨rfl, hb, hc⟩)) hseen
    rw [lookup_result hv h1, hd] at hm
    have h2 : ("EventEnum", v) ∉ ((s1.lookup v).1.run after).made := by
      intro h
      rcases (run_made hn2).1 h with h | ⟨-, b, a, h, hc⟩
      · exact hseen h
      · rw [lookup_classes, claimed_append, hd] at hc
        cases hc
    rw [lookup_result hv h2, run_classes, lookup_classes, claimed_append, hd]
    exact hm

/-- C125. **The ids of FL Studio's events have their names.**  Whatever a program did since `import pyflp`, the number of every
event that the modules of `pyflp` declare (those of `pyflp.controller`, which is not imported, apart) gives the declared
member: `EventEnum(193)` is `PatternID.Name`. -/
theorem C125_declared_partial (ops : List IdOp) (hn : ∀ c ∈ loads ops, c.name ≠ "EventEnum")
    (d : Declared.EventDecl) (hd : d ∈ loaded) :
    ((idStart.run ops).lookup d.id).2 = .ok (.declared d.cls d.member d.id) := by
  have hall : ∀ d ∈ loaded, claimed idStart.classes d.id = some (d.cls, d.member) ∧ d.id ≤ 255 := by decide +kernel
  obtain ⟨h1, h2⟩ := hall d hd
  have hn' : NotBase idStart ops := by
    intro c hc
    rcases List.mem_append.1 hc with hc | hc
    · have : ∀ c ∈ idStart.classes, c.name ≠ "EventEnum" := by decide +kernel
      exact this c hc
    · exact hn c hc
  rcases C125_exact idStart rfl ops hn' d.id ⟨by omega, by omega⟩ with ⟨-, ⟨b, a, -, h⟩ | h⟩ | ⟨c, n, h, -, h'⟩
  · rw [claimed_append, h1] at h
    cases h
  · rw [claimed_append, h1] at h
    cases h
  · rw [claimed_append, h1] at h
    injection h with h
    injection h with h3 h4
    rw [h', ← h3, ← h4]

/-- C125 fails for `pyflp.controller`: if a file with an event 226 was opened before that module is imported, the id is shown
as 226 ever after, and not as `ControllerID.MIDI`, although the module declares it. -/
theorem C125_late_refuted :
    ¬ ∀ (ops : List IdOp) (d : Declared.EventDecl), d ∈ Declared.events →
      (∃ c ∈ idStart.classes ++ loads ops, c = idClassOf d.cls) → (∀ c ∈ loads ops, c.name ≠ "EventEnum") →
      ((idStart.run ops).lookup d.id).2 = .ok (.declared d.cls d.member d.id) := by
  intro h
  have := h [.look 226, .load (idClassOf "ControllerID")] ⟨"ControllerID", "MIDI", 226, "MIDIControllerEvent"⟩
    (by decide +kernel) (by decide +kernel) (by decide +kernel)
  revert this
  decide +kernel

/-- C125. Calling one of the classes, as in `PatternID(v)`, never changes what `EventEnum(v)` is: for any program, leaving out
all such calls gives the same members. -/
theorem C125_classes_apart (s : IdState) (hs : Untouched s) (ops : List IdOp) (hn : NotBase s ops) (v : Int)
    (hv : 0 ≤ v ∧ v ≤ 255) :
    ((s.run ops).lookup v).2 =
      ((s.run (ops.filter fun o => match o with | .lookIn _ _ => false | _ => true)).lookup v).2 := by
  generalize hf : (fun o : IdOp => match o with | .lookIn _ _ => false | _ => true) = f
  have hl : ∀ ops : List IdOp, loads (ops.filter f) = loads ops := by
    intro ops
    unfold loads
    rw [List.filterMap_filter]
    congr 1
    funext o
    cases o <;> simp [← hf]
  have hn' : NotBase s (ops.filter f) := by
    intro c hc
    rw [hl] at hc
    exact hn c hc
  have he : TooEarly s (ops.filter f) v ↔ TooEarly s ops v := by
    constructor
    · rintro ⟨b, a, h, hc⟩
      obtain ⟨l1, l2, h1, h2, h3⟩ := List.filter_eq_append_iff.1 h
      obtain ⟨l3, l4, h4, h5, h6, h7⟩ := List.filter_eq_cons_iff.1 h3
      refine ⟨l1 ++ l3, l4, by rw [h1, h4, List.append_assoc], ?_⟩
      have : loads l3 = [] := by
        rw [← hl l3, List.filter_eq_nil_iff.2 (fun x hx => h5 x hx)]
        rfl
      rw [loads_append, this, List.append_nil, ← hl l1, h2]
      exact hc
    · rintro ⟨b, a, h, hc⟩
      refine ⟨b.filter f, a.filter f, ?_, by rw [hl]; exact hc⟩
      rw [h, List.filter_append, List.filter_cons_of_pos (by rw [← hf])]
  rcases C125_exact s hs ops hn v hv with ⟨h1, h2⟩ | ⟨c, n, h1, h2, h3⟩
  · rcases C125_exact s hs (ops.filter f) hn' v hv with ⟨h4, -⟩ | ⟨c, n, h4, h5, h6⟩
    · rw [h1, h4]
    · rw [he] at h5
      rw [hl] at h4
      rcases h2 with h2 | h2
      · exact absurd h2 h5
      · rw [h2] at h4
        cases h4
  · rcases C125_exact s hs (ops.filter f) hn' v hv with ⟨-, h4⟩ | ⟨c', n', h4, h5, h6⟩
    · rw [he, hl] at h4
      rcases h4 with h4 | h4
      · exact absurd h4 h2
      · rw [h1] at h4
        cases h4
    · rw [hl, h1] at h4
      injection h4 with h4
      injection h4 with h7 h8
      rw [h3, h6, h7, h8]

/-- C125. **What `PatternID(v)` and the like are, after any program**, for a class whose members are different bytes: the member
that the class declares for `v`, or else one of that class that bears the number as its name; for other numbers `ValueError`,
and nothing changes. -/
theorem C125_called (s : IdState) (hs : Untouched s) (ops : List IdOp) (c : IdClass)
    (hc : (s.run ops).classes.find? (fun d => d.name == c.name) = some c) (hm : ∀ m ∈ c.members, 0 ≤ m.1 ∧ m.1 ≤ 255)
    (hu : (c.members.map Prod.fst).Nodup) (v : Int) :
    (∀ n, (v, n) ∈ c.members → ((s.run ops).lookupIn c.name v).2 = .ok (.declared c.name n v)) ∧
    ((∀ n, (v, n) ∉ c.members) → 0 ≤ v ∧ v ≤ 255 → ((s.run ops).lookupIn c.name v).2 = .ok (.made c.name v)) ∧
    (¬ (0 ≤ v ∧ v ≤ 255) → (s.run ops).lookupIn c.name v = (s.run ops, .error .valueError)) := by
  have h0 : ∀ p ∈ s.made, inByte p.2 = true := by rw [hs]; intro p hp; cases hp
  have hb := run_inByte h0 ops
  generalize s.run ops = s1 at hc hb ⊢
  have hno : (∀ n, (v, n) ∉ c.members) → c.member v = none := by
    intro h
    unfold IdClass.member
    rw [List.find?_eq_none.2, Option.map_none]
    rintro ⟨w, n⟩ hmem e
    have : w = v := by simpa using e
    subst this
    exact h n hmem
  have hl : s1.lookupIn c.name v = match c.member v with | some m => (s1, .ok m) | none => s1.make c.name v := by
    unfold IdState.lookupIn
    rw [hc]
    rfl
  rw [hl]
  refine ⟨fun n hn => ?_, fun h hv => ?_, fun hv => ?_⟩
  · have : c.member v = some (.declared c.name n v) := by
      unfold IdClass.member
      have hf : c.members.find? (fun m => m.1 == v) = some (v, n) := by
        clear hl hno hc hm
        generalize c.members = l at hn hu ⊢
        induction l with
        | nil => cases hn
        | cons a l ih =>
          rw [List.map_cons, List.nodup_cons] at hu
          rcases List.mem_cons.1 hn with rfl | hn
          · simp
          · have : a.1 ≠ v := fun e => hu.1 (List.mem_map.2 ⟨(v, n), hn, e.symm⟩)
            rw [List.find?_cons_of_neg (by simpa using this)]
            exact ih hn hu.2
      rw [hf]
      rfl
    rw [this]
  · rw [hno h]
    show (s1.make c.name v).2 = _
    unfold IdState.make
    have hv : inByte v = true := by unfold inByte; simp [hv]
    split
    · rfl
    · simp
  · have hn : ∀ n, (v, n) ∉ c.members := fun n hn => hv (hm _ hn)
    rw [hno hn]
    show s1.make c.name v = _
    unfold IdState.make
    have hv' : ¬ inByte v = true := by unfold inByte; simpa using hv
    rw [if_neg fun h => hv' (hb _ h), if_neg hv']

/-- The hypotheses of `C125_called` can be met, by every class of the source. -/
example : ∀ c ∈ idStart.classes, (idStart.run [.look 5, .lookIn "PatternID" 5]).classes.find? (fun d => d.name == c.name) = some c ∧
    (∀ m ∈ c.members, 0 ≤ m.1 ∧ m.1 ≤ 255) ∧ (c.members.map Prod.fst).Nodup := by decide +kernel

/-- C125 fails on interpreters whose `Enum.__new__` refuses a class that has no declared members (CPython 3.11.10): there no
number has a member, in any program, so that no event can be made at all. -/
theorem C125_strict_refuted (s : IdState) (hs : Untouched s) (v : Int) : s.lookupStrict v = (s, .error .typeError) := by
  unfold IdState.lookupStrict
  rw [hs, if_neg (by intro h; cases h)]

/-- C125. **The events of opened files.**  In any program since `import pyflp`, the id of every event of every file that opens
is a member that is equal to the number stored in the file; its name is the declared one if the modules loaded by
`import pyflp` declare the number, and the number itself in a program that imports no other classes. -/
theorem C125_opened [FloatEnv] (file : Bytes) (p : Project) (h : parseFile file = .ok p) (e : Event) (he : e ∈ p.events)
    (ops : List IdOp) (hn : ∀ c ∈ loads ops, c.name ≠ "EventEnum") :
    ∃ m, ((idStart.run ops).lookup e.id).2 = .ok m ∧ m.value = e.id ∧
      (∀ d ∈ loaded, d.id = e.id → m.name = d.member) ∧
      ((∀ d ∈ loaded, d.id ≠ e.id) → loads ops = [] → m.name = toString (e.id : Int)) := by
  obtain ⟨b, a, hsplit⟩ := List.append_of_mem he
  have hid : e.id < 256 := ((C04_parsed_wellTyped file p h).1 b e a hsplit).1
  obtain ⟨m, hm, hmv⟩ := (C125_value idStart rfl ops e.id).1 ⟨by omega, by omega⟩
  refine ⟨m, hm, hmv, ?_, ?_⟩
  · intro d hd hde
    have := C125_declared_partial ops hn d hd
    rw [hde, hm] at this
    injection this with this
    rw [this]
    rfl
  · intro hnone hl
    have hcl : claimed idStart.classes e.id = none := by
      cases hc : claimed idStart.classes e.id with
      | none => rfl
      | some x =>
        exfalso
        have hall : ∀ n ∈ List.range 256, (claimed idStart.classes (n : Int)).isSome = true → ∃ d ∈ loaded, d.id = n := by
          decide +kernel
        obtain ⟨d, hd, hd'⟩ := hall e.id (List.mem_range.2 hid) (by rw [hc]; rfl)
        exact hnone d hd hd'
    have hn' : NotBase idStart ops := by
      intro c hc
      rcases List.mem_append.1 hc with hc | hc
      · have : ∀ c ∈ idStart.classes, c.name ≠ "EventEnum" := by decide +kernel
        exact this c hc
      · exact hn c hc
    rcases C125_exact idStart rfl ops hn' e.id ⟨by omega, by omega⟩ with ⟨h', -⟩ | ⟨c, n, h', -⟩
    · rw [h'] at hm
      injection hm with hm
      rw [← hm]
      rfl
    · rw [hl, List.append_nil, hcl] at h'
      cases h'

/-- Examples: a program that looks up 193, calls `PatternID(5)`, looks up 5 and 226, imports `pyflp.controller` and looks all
of them up again. -/
example : Untouched idStart ∧
    NotBase idStart [.look 193, .lookIn "PatternID" 5, .look 5, .look 226, .load (idClassOf "ControllerID")] ∧
    [193, 5, 226, 227, 256, -1].map (fun v => ((idStart.run [.look 193, .lookIn "PatternID" 5, .look 5, .look 226,
      .load (idClassOf "ControllerID")]).lookup v).2) =
    [.ok (.declared "PatternID" "Name" 193), .ok (.made "EventEnum" 5), .ok (.made "EventEnum" 226),
      .ok (.declared "ControllerID" "Remote" 227), .error .valueError, .error .valueError] := by
  refine ⟨rfl, ?_, ?_⟩
  · unfold NotBase
    decide +kernel
  · decide +kernel

/-- Some events of the demonstration project have a declared id. -/
example : ∃ e ∈ Demo.project.events, ∃ d ∈ loaded, d.id = e.id := by decide +kernel

end PyFLP
