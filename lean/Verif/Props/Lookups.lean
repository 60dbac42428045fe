import Verif.Lookups
import Verif.Props.Loops
import Verif.Props.Slices
/-!
# C118: lookups that leave their iterator early
-/

namespace PyFLP

open Spec Heap

namespace Spec

/-- The first of the models, given by their event objects, that passes a test; the exception of a test that raises before. -/
def firstThat (test : List Entry → Int → Py Bool) : List (List Entry) → Int → Py (Option (List Entry))
  | [], _ => .ok none
  | m :: ms, idx =>
    match test m idx with
    | .error e => .error e
    | .ok true => .ok (some m)
    | .ok false => firstThat test ms (idx + 1)

/-- The test looks at nothing but the event objects of the model and their values. -/
def LooksAt (test : World → Nat → Int → Py Bool) (f : List Entry → Int → Py Bool) : Prop :=
  ∀ (w : World) (L : Nat → Prop) (u : Nat) (idx : Int), WReach w L → L u → test w u idx = f (w.entries u) idx

/-- Only the trees of the project differ: no event, no header number. -/
def OnlyTrees (w w' : World) : Prop :=
  w'.store = w.store ∧ w'.format = w.format ∧ w'.channelCount = w.channelCount ∧ w'.ppq = w.ppq

end Spec

theorem entries_refs (w : World) (t : Nat) : w.entries t = (w.refs t).map fun ref => (ref, w.ev ref) := by
  rw [World.entries_eq, World.refs_eq, List.map_map]; rfl

theorem Spec.OnlyTrees.ev {w w' : World} (h : OnlyTrees w w') : w'.ev = w.ev := by
  funext r; unfold World.ev; rw [h.1]

theorem next_trees {w w' : World} {t : Nat} {g : Generator} {s s' : g.σ} {o : Option Nat}
    (h : w.next t g s = (w', o, s')) : OnlyTrees w w' := by
  unfold World.next at h
  split at h
  · cases h; exact ⟨rfl, rfl, rfl, rfl⟩
  · cases h; exact ⟨rfl, rfl, rfl, rfl⟩

theorem Spec.OnlyTrees.trans {a b c : World} (h : OnlyTrees a b) (k : OnlyTrees b c) : OnlyTrees a c :=
  ⟨k.1.trans h.1, k.2.1.trans h.2.1, k.2.2.1.trans h.2.2.1, k.2.2.2.trans h.2.2.2⟩

/-- The views of a loop, all collected first, leave everything but the trees. -/
theorem collect_trees (w : World) (t : Nat) (c : LoopCall) : OnlyTrees w (w.collect t c).1 := by
  have key : ∀ (els : List (List Nat)) (w : World), OnlyTrees w (w.listViews t els).1 := by
    intro els
    induction els with
    | nil => intro w; exact ⟨rfl, rfl, rfl, rfl⟩
    | cons el els ih =>
      intro w
      exact OnlyTrees.trans (b := { w with heap := (w.heap.subtree t fun a => decide (a ∈ el)).1 }) ⟨rfl, rfl, rfl, rfl⟩ (ih _)
  cases c with
  | patterns => exact key _ w
  | _ => exact ⟨rfl, rfl, rfl, rfl⟩

theorem search_from {t : Nat} {w : World} {L : Nat → Prop} (r : WReach w L) (ht : L t) (hne : shown w.heap 0 ≠ [])
    (c : LoopCall) {test : World → Nat → Int → Py Bool} {f : List Entry → Int → Py Bool} (hf : LooksAt test f)
    {w2 : World} {s : (c.generator t).σ} {idx : Int} {w' : World} {res : Py (Option Nat)}
    (se : Search t (c.generator t) test w2 s idx w' res) :
    ∀ {L2 : Nat → Prop} {vs : List Nat}, ForLoop t (c.generator t) w L w2 L2 s vs false → OnlyTrees w w2 →
    OnlyTrees w w' ∧ (∃ L' : Nat → Prop, WReach w' L' ∧ (∀ u, L u → L' u ∧ w'.refs u = w.refs u) ∧ ∀ u, res = .ok (some u) → L' u) ∧
    res.map (Option.map w'.entries) =
      firstThat f (((w.collect t c).2.map (w.collect t c).1.entries).drop vs.length) idx := by
  -- the model that comes next
  have step : ∀ {w2 L2 s vs w3 v s'}, ForLoop t (c.generator t) w L w2 L2 s vs false → OnlyTrees w w2 →
      w2.next t (c.generator t) s = (w3, some v, s') →
      ((w.collect t c).2.map (w.collect t c).1.entries).drop vs.length =
        w3.entries v :: ((w.collect t c).2.map (w.collect t c).1.entries).drop (vs.length + 1) ∧
      OnlyTrees w w3 ∧ ∃ L3 : Nat → Prop, WReach w3 L3 ∧ L3 v ∧ ∀ u, L u → L3 u ∧ w3.refs u = w.refs u := by
    intro w2 L2 s vs w3 v s' run k hn
    have k3 := k.trans (next_trees hn)
    obtain ⟨w1, us, h1, h2, h3, h4, h5, h6, h7, h8⟩ := C110_loop r ht hne c (run.yields hn)
    rw [h1]
    dsimp only
    refine ⟨?_, k3, _, h6, .inr rfl, h8⟩
    have hl : vs.length < us.length := by have := h3; rw [List.length_append, List.length_singleton] at this; omega
    have hk1 : OnlyTrees w w1 := by have := collect_trees w t c; rw [h1] at this; exact this
    have hv : w3.refs v = (us.map w1.refs)[vs.length]'(by simpa using hl) := by
      have := congrArg (·[vs.length]?) h2
      simp only [List.map_append, List.map_cons, List.map_nil, List.length_append, List.length_cons, List.length_nil,
        List.getElem?_take] at this
      rw [List.getElem?_append_right (by simp)] at this
      simp only [List.length_map, Nat.sub_self, List.getElem?_cons_zero] at this
      rw [if_pos (by omega), List.getElem?_eq_getElem (by simpa using hl)] at this
      exact Option.some.inj this
    rw [List.drop_eq_getElem_cons (by simpa using hl)]
    congr 1
    rw [List.getElem_map] at hv ⊢
    rw [entries_refs, entries_refs, hv, k3.ev, hk1.ev]
  induction se with
  | @ends w2 s idx w3 s' hn =>
    intro L2 vs run k
    obtain ⟨w1, us, h1, h2, h3, h4, h5, h6, h7, h8⟩ := C110_loop r ht hne c run
    have hle : us.length ≤ vs.length := by
      have := h5 rfl
      rw [hn] at this
      simp only [Option.isSome_none, Bool.false_eq_true, false_iff, Nat.not_lt] at this
      exact this
    obtain ⟨_, _, -, -, -, -, -, g6, -, g8⟩ := C110_loop r ht hne c (run.ends hn)
    refine ⟨k.trans (next_trees hn), ⟨L2, g6, g8, fun u hu => by cases hu⟩, ?_⟩
    rw [h1, List.drop_eq_nil_of_le (by simpa using hle)]
    rfl
  | @found w2 s idx w3 v s' hn hts =>
    intro L2 vs run k
    obtain ⟨e, k3, L3, r3, hv, h8⟩ := step run k hn
    refine ⟨k3, ⟨L3, r3, h8, fun u hu => by cases hu; exact hv⟩, ?_⟩
    rw [e]
    rw [hf w3 L3 v idx r3 hv] at hts
    unfold firstThat
    rw [hts]
    rfl
  | @raises w2 s idx w3 v s' x hn hts =>
    intro L2 vs run k
    obtain ⟨e, k3, L3, r3, hv, h8⟩ := step run k hn
    refine ⟨k3, ⟨L3, r3, h8, fun u hu => by cases hu⟩, ?_⟩
    rw [e]
    rw [hf w3 L3 v idx r3 hv] at hts
    unfold firstThat
    rw [hts]
    rfl
  | @skips w2 s idx w3 v s' w4 res hn hts rest ih =>
    intro L2 vs run k
    obtain ⟨e, k3, L3, r3, hv, h8⟩ := step run k hn
    obtain ⟨i1, i2, i3⟩ := ih (run.yields hn) k3
    refine ⟨i1, i2, ?_⟩
    rw [i3, e]
    rw [hf w3 L3 v idx r3 hv] at hts
    conv => rhs; unfold firstThat
    rw [hts, List.length_append]
    rfl

/-- Every lookup comes to an end. -/
theorem search_ends {t : Nat} {w : World} {L : Nat → Prop} (r : WReach w L) (ht : L t) (hne : shown w.heap 0 ≠ [])
    (c : LoopCall) (test : World → Nat → Int → Py Bool) (n : Nat) :
    ∀ {w2 : World} {L2 : Nat → Prop} {s : (c.generator t).σ} {vs : List Nat} (idx : Int),
    ForLoop t (c.generator t) w L w2 L2 s vs false → (w.collect t c).2.length ≤ vs.length + n →
    ∃ w' res, Search t (c.generator t) test w2 s idx w' res := by
  induction n with
  | zero =>
    intro w2 L2 s vs idx run hn
    obtain ⟨w1, us, h1, -, -, -, h5, -⟩ := C110_loop r ht hne c run
    rw [h1] at hn
    have := h5 rfl
    rcases hx : w2.next t (c.generator t) s with ⟨w3, o, s'⟩
    rw [hx] at this
    cases o with
    | none => exact ⟨_, _, .ends hx⟩
    | some v => exact absurd (this.1 rfl) (by simpa using hn)
  | succ n ih =>
    intro w2 L2 s vs idx run hn
    rcases hx : w2.next t (c.generator t) s with ⟨w3, o, s'⟩
    cases o with
    | none => exact ⟨_, _, .ends hx⟩
    | some v =>
      cases ht2 : test w3 v idx with
      | error e => exact ⟨_, _, .raises hx ht2⟩
      | ok b =>
        cases b with
        | true => exact ⟨_, _, .found hx ht2⟩
        | false =>
          obtain ⟨w', res, h⟩ := ih (idx + 1) (run.yields hx) (by rw [List.length_append, List.length_singleton]; omega)
          exact ⟨w', res, .skips hx ht2 h⟩

/-- C118. A lookup `for model in collection: if test(model): return model`, whose test looks at the events of the model, comes to
an end, although it leaves the iterator early it finds what it would find in `list(collection)`, or raises what that would raise,
and nothing of the project changes.  Everything that was usable stays usable and shows the same. -/
theorem C118_search {t : Nat} {w : World} {L : Nat → Prop} (r : WReach w L) (ht : L t) (hne : shown w.heap 0 ≠ [])
    (c : LoopCall) {test : World → Nat → Int → Py Bool} {f : List Entry → Int → Py Bool} (hf : LooksAt test f) (idx : Int) :
    (∃ w' res, Search t (c.generator t) test w (c.generator t).start idx w' res) ∧
    ∀ w' res, Search t (c.generator t) test w (c.generator t).start idx w' res →
      res.map (Option.map w'.entries) = firstThat f ((w.collect t c).2.map (w.collect t c).1.entries) idx ∧
      w'.project = w.project ∧
      ∃ L' : Nat → Prop, WReach w' L' ∧ (∀ u, L u → L' u ∧ w'.entries u = w.entries u) ∧ ∀ u, res = .ok (some u) → L' u := by
  refine ⟨search_ends r ht hne c test _ idx .start (Nat.le_add_left _ _), fun w' res se => ?_⟩
  obtain ⟨k, ⟨L', r', h1, h2⟩, h3⟩ := search_from r ht hne c hf se .start ⟨rfl, rfl, rfl, rfl⟩
  have hent : ∀ u, L u → w'.entries u = w.entries u := fun u hu => by
    rw [entries_refs, entries_refs, (h1 u hu).2, k.ev]
  refine ⟨h3, ?_, L', r', fun u hu => ⟨(h1 u hu).1, hent u hu⟩, h2⟩
  obtain ⟨g0, _⟩ := reach_good (wreach_inv r).1
  have h0 := hent 0 g0.vρ
  unfold World.project
  rw [← World.entries_events, ← World.entries_events, h0, k.2.1, k.2.2.1, k.2.2.2]

/-! ### The lookups of the collections -/

theorem firstThat_getItem {α : Type} (i : Subscript) (name : α → Option Value) (ent : α → List Entry)
    {f : List Entry → Int → Py Bool} (us : List α) : ∀ (idx : Int),
    (∀ u ∈ us, ∀ idx, f (ent u) idx = .ok (subscriptIs i (name u) idx)) →
    match getItem i (us.map fun u => (u, name u)) idx with
    | .ok u => firstThat f (us.map ent) idx = .ok (some (ent u))
    | .error e => e = .modelNotFound ∧ firstThat f (us.map ent) idx = .ok none := by
  induction us with
  | nil => intro idx _; exact ⟨rfl, rfl⟩
  | cons u us ih =>
    intro idx h
    simp only [List.map_cons, firstThat, h u List.mem_cons_self idx]
    have := ih (idx + 1) fun u hu => h u (List.mem_cons_of_mem _ hu)
    have hg : getItem i ((u, name u) :: us.map fun u => (u, name u)) idx =
        if subscriptIs i (name u) idx then .ok u else getItem i (us.map fun u => (u, name u)) (idx + 1) := rfl
    rw [hg]
    cases subscriptIs i (name u) idx with
    | true => simp
    | false => simpa using this

namespace Spec

/-- What a lookup finds, compared with the lookup that creates all models first. -/
def SameLookup (w' : World) (res : Py (Option Nat)) (all : World × Py Nat) : Prop :=
  match all with
  | (w1, .ok u1) => ∃ u, res = .ok (some u) ∧ w'.entries u = w1.entries u1
  | (_, .error e) => e = .modelNotFound ∧ res = .ok none

end Spec

theorem sameLookup {t : Nat} {w : World} {L : Nat → Prop} (r : WReach w L) (ht : L t) (hne : shown w.heap 0 ≠ [])
    (c : LoopCall) (i : Subscript) (idx : Int) {name : World → Nat → Option Value} {id : Nat}
    (hname : ∀ (w : World) (L : Nat → Prop) u, WReach w L → L u → name w u = valueOf (w.events u) id)
    (hall : ∀ u ∈ (w.collect t c).2, name (w.collect t c).1 u = valueOf ((w.collect t c).1.events u) id) :
    (∃ w' res, Search t (c.generator t) (fun w u idx => .ok (subscriptIs i (name w u) idx)) w (c.generator t).start idx w' res) ∧
    ∀ w' res, Search t (c.generator t) (fun w u idx => .ok (subscriptIs i (name w u) idx)) w (c.generator t).start idx w' res →
      SameLookup w' res ((w.collect t c).1,
        getItem i ((w.collect t c).2.map fun u => (u, name (w.collect t c).1 u)) idx) ∧ w'.project = w.project ∧
      ∃ L' : Nat → Prop, WReach w' L' ∧ (∀ u, L u → L' u ∧ w'.entries u = w.entries u) ∧ ∀ u, res = .ok (some u) → L' u := by
  obtain ⟨h1, h2⟩ := C118_search r ht hne c (test := fun w u idx => .ok (subscriptIs i (name w u) idx))
    (f := fun es idx => .ok (subscriptIs i (valueOf (es.map Prod.snd) id) idx))
    (fun w L u idx r hu => by dsimp only; rw [hname w L u r hu, World.entries_events]) idx
  refine ⟨h1, fun w' res se => ?_⟩
  obtain ⟨e, p, l⟩ := h2 w' res se
  refine ⟨?_, p, l⟩
  have := firstThat_getItem i (name (w.collect t c).1) (w.collect t c).1.entries
    (f := fun es idx => .ok (subscriptIs i (valueOf (es.map Prod.snd) id) idx)) (w.collect t c).2 idx
    (fun u hu idx => by rw [hall u hu, World.entries_events])
  unfold SameLookup
  revert this
  generalize getItem i ((w.collect t c).2.map fun u => (u, name (w.collect t c).1 u)) idx = z
  intro this
  cases z with
  | ok u1 =>
    dsimp only at this ⊢
    rw [this] at e
    cases res with
    | error x => cases e
    | ok o =>
      cases o with
      | none => cases e
      | some u => exact ⟨u, rfl, Option.some.inj (Except.ok.inj e)⟩
  | error x =>
    dsimp only at this ⊢
    rw [this.2] at e
    refine ⟨this.1, ?_⟩
    cases res with
    | error x => cases e
    | ok o =>
      cases o with
      | none => rfl
      | some u => cases e

/-- C118. `project.patterns[i]` leaves the iterator at the pattern it finds; that pattern has the events of the one that is found
among all patterns. -/
theorem C118_patterns {t : Nat} {w : World} {L : Nat → Prop} (r : WReach w L) (ht : L t) (hne : shown w.heap 0 ≠ []) (i : Subscript) :
    (∃ w' res, w.PatternLookup t i w' res) ∧
    ∀ w' res, w.PatternLookup t i w' res → SameLookup w' res (w.getPattern t i) ∧ w'.project = w.project ∧
      ∃ L' : Nat → Prop, WReach w' L' ∧ (∀ u, L u → L' u ∧ w'.entries u = w.entries u) ∧ ∀ u, res = .ok (some u) → L' u :=
  sameLookup r ht hne .patterns i 0 (name := World.patternName) (id := 193)
    (fun _ _ _ r hu => prop_spec r hu 193)
    (fun _ hu => prop_spec (iterPatterns_spec r ht hne).1 (.inr hu) 193)

/-- C118. The same of `project.arrangements[i]` when the project has arrangements. -/
theorem C118_arrangements {t : Nat} {w : World} {L : Nat → Prop} (r : WReach w L) (ht : L t) (hne : shown w.heap 0 ≠ [])
    {n : Nat} (hn : w.lenArrangements t = .ok n) (i : Subscript) :
    (∃ w' res, w.ArrangementLookup t n i w' res) ∧
    ∀ w' res, w.ArrangementLookup t n i w' res → SameLookup w' res (w.getArrangement t i) ∧ w'.project = w.project ∧
      ∃ L' : Nat → Prop, WReach w' L' ∧ (∀ u, L u → L' u ∧ w'.entries u = w.entries u) ∧ ∀ u, res = .ok (some u) → L' u := by
  have := sameLookup r ht hne (.subtrees Bool arrangementStep false n) i 0 (name := World.arrangementName) (id := 241)
    (fun _ _ _ r hu => prop_spec r hu 241)
    (fun _ hu => prop_spec (subViews_spec r ht hne arrangementStep false (n : Int)).1 (.inr hu) 241)
  unfold World.getArrangement World.iterArrangements
  rw [hn]
  exact this

/-- C118. The same of `project.mixer[i]`. -/
theorem C118_mixer {t : Nat} {w : World} {L : Nat → Prop} (r : WReach w L) (ht : L t) (hne : shown w.heap 0 ≠[]) (v : FLVersion)
    (i : Subscript) :
    (∃ w' res, w.InsertLookup t v i w' res) ∧
    ∀ w' res, w.InsertLookup t v i w' res → SameLookup w' res (w.getInsert t v i) ∧ w'.project = w.project ∧
      ∃ L' : Nat → Prop, WReach w' L' ∧ (∀ u, L u → L' u ∧ w'.entries u = w.entries u) ∧ ∀ u, res = .ok (some u) → L' u :=
  sameLookup r ht hne (.subtrees Unit insertStep () (maxInserts v)) i (-1) (name := World.insertName) (id := 204)
    (fun _ _ _ r hu => prop_spec r hu 204)
    (fun _ hu => prop_spec (subViews_spec r ht hne insertStep () (maxInserts v)).1 (.inr hu) 204)

/-- C118. The same of `insert[i]` when the insert has parameters. -/
theorem C118_slots {t : Nat} {w : World} {L : Nat → Prop} (r : WReach w L) (ht : L t) (hne : shown w.heap 0 ≠ []) (i : Subscript) :
    (∃ w' res, w.SlotLookup t i w' res) ∧
    ∀ w' res, w.SlotLookup t i w' res → SameLookup w' res (w.getSlot t true i) ∧ w'.project = w.project ∧
      ∃ L' : Nat → Prop, WReach w' L' ∧ (∀ u, L u → L' u ∧ w'.entries u = w.entries u) ∧ ∀ u, res = .ok (some u) → L' u :=
  sameLookup r ht hne (.divide 98 [98, 128, 155, 201, 203, 212, 213]) i 0 (name := World.slotName) (id := 203)
    (fun _ _ _ r hu => prop_spec r hu 203)
    (fun _ hu => prop_spec (divViews_spec r ht hne 98 [98, 128, 155, 201, 203, 212, 213]).1 (.inr hu) 203)


/-! ### The current pattern -/

theorem patternIid_value {w : World} {L : Nat → Prop} (r : WReach w L) {u : Nat} (hu : L u) :
    w.patternIid u = ((valueOf (w.events u) 65).map Except.ok).getD (.error .keyError) := by
  unfold World.patternIid
  rcases World.first_value r hu 65 with ⟨ref, h1, _, h2, _⟩ | ⟨h1, h2⟩
  · rw [h1, h2]; rfl
  · rw [h1, h2]; rfl

theorem firstThat_findIid (w : World) (v : Value) {f : List Entry → Int → Py Bool} (us : List Nat) : ∀ (idx : Int),
    (∀ u ∈ us, ∀ idx, f (w.entries u) idx = (w.patternIid u).map fun iid => decide (iid = v)) →
    firstThat f (us.map w.entries) idx = (w.findIid v us).map (Option.map w.entries) := by
  induction us with
  | nil => intro _ _; rfl
  | cons u us ih =>
    intro idx h
    have hr := ih (idx + 1) fun u hu => h u (List.mem_cons_of_mem _ hu)
    have hu := h u List.mem_cons_self idx
    simp only [List.map_cons, firstThat, World.findIid, hu]
    cases w.patternIid u with
    | error e => rfl
    | ok iid =>
      by_cases hv : iid = v
      · simp [Except.map, hv]
      · simp only [Except.map, hv, decide_false, if_false]
        exact hr

/-- C118. The same of `project.patterns.current`, for the number `v` of the selected pattern: it is the first pattern with this
number, `None` if there is none, and the exception of a pattern before that has no number. -/
theorem C118_current {t : Nat} {w : World} {L : Nat → Prop} (r : WReach w L) (ht : L t) (hne : shown w.heap 0 ≠ []) (v : Value) :
    (∃ w' res, w.CurrentLookup t v w' res) ∧
    ∀ w' res, w.CurrentLookup t v w' res →
      res.map (Option.map w'.entries) =
        ((w.iterPatterns t).1.findIid v (w.iterPatterns t).2).map (Option.map (w.iterPatterns t).1.entries) ∧
      w'.project = w.project ∧
      ∃ L' : Nat → Prop, WReach w' L' ∧ (∀ u, L u → L' u ∧ w'.entries u = w.entries u) ∧ ∀ u, res = .ok (some u) → L' u := by
  obtain ⟨h1, h2⟩ := C118_search r ht hne .patterns
    (test := fun w u _ => (w.patternIid u).map fun iid => decide (iid = v))
    (f := fun es _ => (((valueOf (es.map Prod.snd) 65).map Except.ok).getD (.error .keyError)).map fun iid => decide (iid = v))
    (fun w L u idx r hu => by dsimp only; rw [patternIid_value r hu, World.entries_events]) 0
  refine ⟨h1, fun w' res se => ?_⟩
  obtain ⟨e, p, l⟩ := h2 w' res se
  refine ⟨?_, p, l⟩
  rw [e]
  exact firstThat_findIid (w.iterPatterns t).1 v (w.iterPatterns t).2 0 fun u hu idx => by
    rw [patternIid_value (iterPatterns_spec r ht hne).1 (.inr hu), World.entries_events]

/-! ### The channels -/

namespace Spec

/-- What `project.channels[i]` has to give for the parts of the rack: the exception of the first part that is no channel, or the first
channel that is wanted, whichever comes first. -/
def RackLooks (i : Subscript) (groups : List Entry) (parts : List (List Entry)) (w' : World) (res : Py (Chan × List Chan)) : Prop :=
  ∃ n, (∀ k < n, ∃ b q, parts[k]? = some b ∧ channelResult groups b = .ok q ∧ ¬ Wanted i ((b.filter isChannelEvent).map Prod.snd)) ∧
    match parts[n]? with
    | none => res = .error .channelNotFound
    | some b =>
      match channelResult groups b with
      | .error x => res = .error x
      | .ok (iid, cls, g) => Wanted i ((b.filter isChannelEvent).map Prod.snd) ∧
          ∃ u v seen, res = .ok (⟨u, cls, v, iid⟩, seen ++ [⟨u, cls, v, iid⟩]) ∧ seen.length = n ∧
            w'.entries u = b.filter isChannelEvent ∧ w'.entries v = [g]

end Spec

theorem nextChannel_trees {w w' : World} {t : Nat} {gs : List Nat} {f f' : Frame (List Nat × Bool)} {o : Option (Py Chan)}
    (h : w.nextChannel t gs f = (w', o, f')) : OnlyTrees w w' := by
  unfold World.nextChannel at h
  split at h
  · next hn => cases h; exact next_trees hn
  · next hn => cases h; exact next_trees hn

theorem nextChannel_next {w w' : World} {t : Nat} {gs : List Nat} {f f' : Frame (List Nat × Bool)} {c : Chan}
    (h : w.nextChannel t gs f = (w', some (.ok c), f')) :
    w.next t ((LoopCall.divide 64 World.rackIds).generator t) f = (w', some c.tree, f') := by
  unfold World.nextChannel at h
  split at h
  · cases h
  · next u _ hn =>
    injection h with h1 h2
    injection h2 with h2 h3
    injection h2 with h2
    subst h1 h3
    have : c.tree = u := by
      unfold World.channelOf at h2
      repeat' split at h2
      all_goals first | (cases h2; done) | (cases h2; rfl)
    rw [this]
    exact hn


theorem rackSearch_from {t : Nat} {w w0 : World} {L : Nat → Prop} (r : WReach w L) (ht : L t) (hne : shown w.heap 0 ≠ [])
    {gs : List Nat} (hg : w.sepViews t 231 = (w0, gs)) (htx : NamesAreText w.project.events) (i : Subscript)
    {w2 : World} {f : Frame (List Nat × Bool)} {seen : List Chan} {w' : World} {res : Py (Chan × List Chan)}
    (se : RackSearch t gs i w2 f seen w' res) :
    ∀ {L2 : Nat → Prop} {vs : List Nat},
      ForLoop t ((LoopCall.divide 64 World.rackIds).generator t) w0 (fun u => L u ∨ u ∈ gs) w2 L2 f vs false → w2.project = w.project →
      w2.entries t = w.entries t → seen.length = vs.length →
      (∀ k < vs.length, ∃ b q, (cutBefore beginsChannel [] (w.entries t))[k]? = some b ∧
        channelResult ((w.entries t).filter fun e => decide (e.2.id = 231)) b = .ok q ∧
        ¬ Wanted i ((b.filter isChannelEvent).map Prod.snd)) →
      RackLooks i ((w.entries t).filter fun e => decide (e.2.id = 231)) (cutBefore beginsChannel [] (w.entries t)) w' res ∧
      w'.project = w.project := by
  have htext : ∀ e ∈ w.entries t, e.2.id = 201 → ∃ s, e.2.value = .str s := by
    intro e he hid
    have : e.2 ∈ w.project.events := events_sub r ht _ (by rw [← World.entries_events]; exact List.mem_map_of_mem he)
    exact htx _ this (by rw [hid]; simp)
  obtain ⟨a1, -, a3, -⟩ := sepViews_spec r ht hne 231
  rw [hg] at a1 a3
  dsimp only at a1 a3
  have hne0 := shown_ne_of_entries a3 hne
  have step : ∀ {w2 L2 f vs w3 o f'},
      ForLoop t ((LoopCall.divide 64 World.rackIds).generator t) w0 (fun u => L u ∨ u ∈ gs) w2 L2 f vs false →
      w2.project = w.project → w2.entries t = w.entries t → w2.nextChannel t gs f = (w3, some (Except.ok o), f') →
      w3.project = w.project ∧ w3.entries t = w.entries t ∧ ∃ b g, (cutBefore beginsChannel [] (w.entries t))[vs.length]? = some b ∧
        channelResult ((w.entries t).filter fun e => decide (e.2.id = 231)) b = .ok (o.iid, o.cls, g) ∧
        w3.entries o.tree = b.filter isChannelEvent ∧ w3.entries o.group = [g] ∧
        (w3.rackMatch i o = true ↔ Wanted i ((b.filter isChannelEvent).map Prod.snd)) := by
    intro w2 L2 f vs w3 o f' run hp he hn
    have hc := C110_channels r ht hne hg run (by rw [he]; exact htext)
    have run2 := run.yields (nextChannel_next hn)
    have i2 := loop_inv a1 (.inl ht) hne0 run2
    have i1 := loop_inv a1 (.inl ht) hne0 run
    rw [he] at hc
    have hround := C110_round a1 (.inl ht) hne0 _ run
    rw [nextChannel_next hn] at hround
    dsimp only at hround
    cases hb : (cutBefore beginsChannel [] (w.entries t))[vs.length]? with
    | none =>
      rw [hb] at hc
      obtain ⟨q, hq⟩ := hc
      rw [hn] at hq; cases hq
    | some b =>
      rw [hb] at hc
      obtain ⟨w4, o4, f4, h1, h2, h3⟩ := hc
      rw [hn] at h1
      cases h1
      refine ⟨h2.trans hp, (hround.2 t (i1.old t (.inl ht))).trans he, b, ?_⟩
      cases hr : channelResult ((w.entries t).filter fun e => decide (e.2.id = 231)) b with
      | error x => rw [hr] at h3; cases h3
      | ok q =>
        obtain ⟨iid, cls, g⟩ := q
        rw [hr] at h3
        obtain ⟨u, v, h4, h5, h6⟩ := h3
        cases h4
        refine ⟨g, rfl, rfl, h5, h6, ?_⟩
        rw [rackMatch_iff i2.reach (i2.mem _ (by simp)) (by rw [h2, hp]; exact htx), ← World.entries_events, h5]
  induction se with
  | @ends w2 f seen w3 f' hn =>
    intro L2 vs run hp he hs hk
    have hc := C110_channels r ht hne hg run (by rw [he]; exact htext)
    rw [he] at hc
    cases hb : (cutBefore beginsChannel [] (w.entries t))[vs.length]? with
    | none =>
      refine ⟨⟨vs.length, hk, by rw [hb]⟩, ?_⟩
      rw [hb] at hc
      obtain ⟨q, hq⟩ := hc
      rw [hn] at hq
      cases hq
      exact hp
    | some b =>
      rw [hb] at hc
      obtain ⟨w4, o4, f4, h1, h2, h3⟩ := hc
      rw [hn] at h1
      cases h1
  | @raises w2 f seen w3 f' x hn =>
    intro L2 vs run hp he hs hk
    refine ⟨⟨vs.length, hk, ?_⟩, ?_⟩
    all_goals
      have hc := C110_channels r ht hne hg run (by rw [he]; exact htext)
      rw [he] at hc
      cases hb : (cutBefore beginsChannel [] (w.entries t))[vs.length]? with
      | none =>
        rw [hb] at hc
        obtain ⟨q, hq⟩ := hc
        rw [hn] at hq
        cases hq
      | some b =>
        rw [hb] at hc
        obtain ⟨w4, o4, f4, h1, h2, h3⟩ := hc
        rw [hn] at h1
        cases h1
        first
        | exact h2.trans hp
        | dsimp only
          cases hr : channelResult ((w.entries t).filter fun e => decide (e.2.id = 231)) b with
          | error y => rw [hr] at h3; cases h3; rfl
          | ok q =>
            rw [hr] at h3
            obtain ⟨u, v, h4, _⟩ := h3
            cases h4
  | @found w2 f seen w3 f' c hn hm =>
    intro L2 vs run hp he hs hk
    obtain ⟨h1, h2, b, g, h3, h4, h5, h6, h7⟩ := step run hp he hn
    refine ⟨⟨vs.length, hk, ?_⟩, h1⟩
    rw [h3]
    dsimp only
    rw [h4]
    exact ⟨h7.1 hm, c.tree, c.group, seen, rfl, hs, h5, h6⟩
  | @skips w2 f seen w3 f' c w4 res hn hm rest ih =>
    intro L2 vs run hp he hs hk
    obtain ⟨h1, h2, b, g, h3, h4, h5, h6, h7⟩ := step run hp he hn
    refine ih (run.yields (nextChannel_next hn)) h1 h2 (by simp [hs]) ?_
    intro k hk'
    rw [List.length_append, List.length_singleton] at hk'
    by_cases hkk : k < vs.length
    · exact hk k hkk
    · have : k = vs.length := by omega
      subst this
      exact ⟨b, _, h3, h4, fun hw => by rw [h7.2 hw] at hm; cases hm⟩

theorem rackSearch_ends {t : Nat} {w : World} {L : Nat → Prop} (r : WReach w L) (ht : L t) (hne : shown w.heap 0 ≠ []) (gs : List Nat)
    (i : Subscript) (n : Nat) :
    ∀ {w2 : World} {L2 : Nat → Prop} {f : Frame (List Nat × Bool)} {vs : List Nat} (seen : List Chan),
    ForLoop t ((LoopCall.divide 64 World.rackIds).generator t) w L w2 L2 f vs false →
    (w.collect t (.divide 64 World.rackIds)).2.length ≤ vs.length + n →
    ∃ w' res, RackSearch t gs i w2 f seen w' res := by
  induction n with
  | zero =>
    intro w2 L2 f vs seen run hn
    obtain ⟨w1, us, h1, -, -, -, h5, -⟩ := C110_loop r ht hne (.divide 64 World.rackIds) run
    rw [h1] at hn
    have := h5 rfl
    rcases hx : w2.nextChannel t gs f with ⟨w3, o, f'⟩
    cases o with
    | none => exact ⟨_, _, .ends hx⟩
    | some c =>
      cases c with
      | error e => exact ⟨_, _, .raises hx⟩
      | ok c =>
        rw [nextChannel_next hx] at this
        exact absurd (this.1 rfl) (by simpa using hn)
  | succ n ih =>
    intro w2 L2 f vs seen run hn
    rcases hx : w2.nextChannel t gs f with ⟨w3, o, f'⟩
    cases o with
    | none => exact ⟨_, _, .ends hx⟩
    | some c =>
      cases c with
      | error e => exact ⟨_, _, .raises hx⟩
      | ok c =>
        cases hm : w3.rackMatch i c with
        | true => exact ⟨_, _, .found hx hm⟩
        | false =>
          obtain ⟨w', res, h⟩ := ih (seen ++ [c]) (run.yields (nextChannel_next hx))
            (by rw [List.length_append, List.length_singleton]; omega)
          exact ⟨w', res, .skips hx hm h⟩

/-- C118. `project.channels[i]` comes to an end; it gives the first channel that is wanted, or the exception of a part before it that is
no channel, and changes nothing of the project; what comes after the channel it finds does not matter. -/
theorem C118_channels {t : Nat} {w : World} {L : Nat → Prop} (r : WReach w L) (ht : L t) (hne : shown w.heap 0 ≠ [])
    (htx : NamesAreText w.project.events) (i : Subscript) :
    (∃ w' res, w.ChannelLookup t i w' res) ∧
    ∀ w' res, w.ChannelLookup t i w' res →
      RackLooks i ((w.entries t).filter fun e => decide (e.2.id = 231)) (cutBefore beginsChannel [] (w.entries t)) w' res ∧
      w'.project = w.project := by
  obtain ⟨a1, -, a3, -, a5⟩ := sepViews_spec r ht hne 231
  have hne0 := shown_ne_of_entries a3 hne
  refine ⟨rackSearch_ends a1 (.inl ht) hne0 _ i _ [] .start (Nat.le_add_left _ _), fun w' res se => ?_⟩
  refine rackSearch_from r ht hne (w0 := (w.sepViews t 231).1) (gs := (w.sepViews t 231).2) rfl htx i se .start ?_ ?_ rfl
    (fun k hk => absurd hk (by simp))
  · exact a3
  · exact a5 t ((reach_good (wreach_inv r).1).1.lt t ht)


/-! ### The hypotheses can be met -/

open Demo in
/-- `patterns[0]` and `patterns[1]` of `tune`: the first lookup creates one view less than the iteration. -/
example : WReach tuneWorld.1 (fun u => u = 0 ∨ u = tuneWorld.2) ∧ shown tuneWorld.1.heap 0 ≠ [] ∧
    (tuneWorld.1.iterPatterns tuneWorld.2).2 = [2, 3] ∧
    (∃ w', tuneWorld.1.PatternLookup tuneWorld.2 (.int 0) w' (.ok (some 2)) ∧ w'.heap.trees.length = 3) ∧
    (tuneWorld.1.iterPatterns tuneWorld.2).1.heap.trees.length = 4 ∧
    (tuneWorld.1.getPattern tuneWorld.2 (.int 0)).2 = .ok 2 := by
  refine ⟨tune_reach, by decide +kernel, by decide +kernel, ⟨tuneFirst.1, ?_, by decide +kernel⟩, by decide +kernel, by decide +kernel⟩
  refine .found (s' := tuneFirst.2.2) ?_ (by decide +kernel)
  have h1 : Demo.tuneFirst.2.1 = some 2 := by decide +kernel
  exact Prod.ext rfl (Prod.ext h1 rfl)

open Demo in
/-- The hypotheses of the other theorems. -/
example : (WReach albumWorld.1 (fun u => u = 0 ∨ u = albumWorld.2) ∧ shown albumWorld.1.heap 0 ≠ [] ∧
      albumWorld.1.lenArrangements albumWorld.2 = .ok 2 ∧ (albumWorld.1.getArrangement albumWorld.2 (.int 1)).2 = .ok 3) ∧
    (WReach consoleWorld.1 (fun u => u = 0 ∨ u = consoleWorld.2) ∧ shown consoleWorld.1.heap 0 ≠ [] ∧
      (consoleWorld.1.getInsert consoleWorld.2 ⟨20, 8, 4, some 0⟩ (.int 0)).2 = .ok 3) ∧
    (WReach slotWorld (· = 0) ∧ shown slotWorld.heap 0 ≠ [] ∧ (slotWorld.getSlot 0 true (.int 2)).2 = .ok 3) ∧
    ((tuneWorld.1.iterPatterns tuneWorld.2).1.findIid (.lv (.int 2)) (tuneWorld.1.iterPatterns tuneWorld.2).2 = .ok (some 3)) ∧
    (WReach (rackOf band).1 (fun u => u = 0 ∨ u = (rackOf band).2) ∧ shown (rackOf band).1.heap 0 ≠ []) :=
  ⟨⟨album_reach, by decide +kernel, by decide +kernel, by decide +kernel⟩, ⟨console_reach, by decide +kernel, by decide +kernel⟩,
    ⟨.parsed _, by decide +kernel, by decide +kernel⟩, by decide +kernel, ⟨band_reach, by decide +kernel⟩⟩

end PyFLP
