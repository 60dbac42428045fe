import Verif.Props.Splices
import Verif.Props.Stale
/-!
# What was not edited survives any history of edits byte for byte (C149)
-/

namespace PyFLP

open Spec Heap

namespace Spec

/-- The states a program can reach from a project it has opened, as `WReach`, with what it has done so far: `added` is the number of
events it has inserted, `changed` are the event objects it has assigned to and `removed` those it has taken out.  The events of the
project that was opened have the numbers from 0 on. -/
inductive Edited (p : Project) : World → (Nat → Prop) → (added : Nat) → (changed removed : List Nat) → Prop
  | opened : Edited p (World.ofProject p) (· = 0) 0 [] []
  | view {w L n c d t} (r : Edited p w L n c d) (ht : L t) (hne : shown w.heap 0 ≠ []) (call : ViewCall) :
      Edited p { w with heap := (view w.heap t call).1 } (fun u => L u ∨ u ∈ (view w.heap t call).2) n c d
  | pop {w L n c d t id k h' x} (r : Edited p w L n c d) (ht : L t) (hp : w.heap.pop t id k = (h', .ok x)) :
      Edited p { w with heap := h' } (fun u => L u ∧ ∀ v ∈ u :: w.heap.ancestors u,
        v ∈ t :: w.heap.ancestors t ∨ x ∉ (shown w.heap v).map Prod.fst) n c (x :: d)
  | insert {w L n c d t pos h'} (r : Edited p w L n c d) (ht : L t) (e : Event)
      (hi : w.heap.insert t pos w.store.length e.id = (h', .ok ())) :
      Edited p { w with heap := h', store := w.store ++ [e] } (fun u => L u ∧ ∀ v ∈ u :: w.heap.ancestors u,
        v ∈ t :: w.heap.ancestors t → v = 0) (n + 1) c d
  | assign {w L n c d} (r : Edited p w L n c d) (ref : Nat) (v : Value) :
      Edited p (w.setEv ref { w.ev ref with value := v }) L n (ref :: c) d
  | header {w L n c d} (r : Edited p w L n c d) (format : Int) (channelCount ppq : Nat) :
      Edited p { w with format := format, channelCount := channelCount, ppq := ppq } L n c d

/-- The event data of the file consist of these pieces, one for each of the events. -/
def MadeOf [FloatEnv] (file : Bytes) (evs : List Event) (pieces : List Bytes) : Prop :=
  file.drop 22 = pieces.flatten ∧ evs.map Event.toBytes = pieces.map .ok

end Spec

theorem Spec.Edited.reach {p : Project} {w : World} {L : Nat → Prop} {n : Nat} {c d : List Nat} (r : Edited p w L n c d) : WReach w L := by
  induction r with
  | opened => exact .parsed p
  | view _ ht hne call ih => exact .view ih ht hne call
  | pop _ ht hp ih => exact .pop ih ht hp
  | insert _ ht e hi ih => exact .insert ih ht e hi
  | assign _ ref v ih => exact .assign ih ref v
  | header _ f k q ih => exact .header ih f k q

/-- The event objects a project shows after a removal. -/
theorem popped_refs {w : World} {L : Nat → Prop} (r : WReach w L) {t id : Nat} {n : Int} {h' : Heap} {x : Nat} (ht : L t)
    (hp : w.heap.pop t id n = (h', .ok x)) : ({ w with heap := h' } : World).refs 0 = (w.refs 0).filter fun y => decide (y ≠ x) := by
  obtain ⟨hr, hinv⟩ := wreach_inv r
  have h21 := C21_pop_through_view hr ht id n
  cases hpp : plainPop (shown w.heap t) id n with
  | error e => rw [hpp] at h21; rw [h21.1] at hp; cases hp
  | ok res =>
    obtain ⟨ev, l'⟩ := res
    rw [hpp] at h21
    obtain ⟨h'', q1, -, -, -, -, q6, -⟩ := h21
    rw [hp] at q1
    injection q1 with q1 q1'
    subst q1
    cases q1'
    obtain ⟨g, hn⟩ := reach_good hr
    obtain ⟨c1, -, -⟩ := g.chain_facts t ht
    obtain ⟨-, m2⟩ := q6 0 c1
    rw [World.refs_eq, World.refs_eq]
    dsimp only
    rw [m2, List.filter_map]
    rfl

/-- Which event objects a project shows after a history of edits, and which of them are as they were. -/
theorem edited_refs {p : Project} {w : World} {L : Nat → Prop} {n : Nat} {c d : List Nat} (r : Edited p w L n c d) :
    w.store.length = p.events.length + n ∧
    (w.refs 0).filter (fun i => decide (i < p.events.length)) = (List.range p.events.length).filter (fun i => decide (i ∉ d)) ∧
    ∀ i, i < p.events.length → i ∉ c → w.store[i]? = p.events[i]? := by
  induction r with
  | opened =>
    refine ⟨rfl, ?_, fun _ _ _ => rfl⟩
    have h : (World.ofProject p).refs 0 = List.range p.events.length := by
      rw [World.refs_eq]
      show (shown (Heap.ofEvents _) 0).map Prod.fst = _
      rw [shown_ofEvents, List.map_map]
      have : (Prod.fst ∘ fun x : Event × Nat => (x.2, x.1.id)) = Prod.snd := rfl
      rw [this, List.zipIdx_eq_zip_range', List.map_snd_zip (by simp), List.range_eq_range']
    rw [h]
    apply List.filter_congr
    intro i hi
    simpa using hi
  | @view w L n c d t r ht hne call ih =>
    obtain ⟨i1, i2, i3⟩ := ih
    refine ⟨i1, ?_, i3⟩
    obtain ⟨g, _⟩ := reach_good (wreach_inv r.reach).1
    have : ({ w with heap := (view w.heap t call).1 } : World).refs 0 = w.refs 0 := by
      rw [World.refs_eq, World.refs_eq]
      dsimp only
      rw [shown_view (g.lt t ht) call (g.lt 0 g.vρ)]
    rw [this, i2]
  | @pop w L n c d t id k h' x r ht hp ih =>
    obtain ⟨i1, i2, i3⟩ := ih
    refine ⟨i1, ?_, i3⟩
    rw [popped_refs r.reach ht hp, List.filter_filter]
    have h1 : ((w.refs 0).filter fun i => decide (i < p.events.length) && decide (i ≠ x)) =
        ((w.refs 0).filter fun i => decide (i < p.events.length)).filter fun i => decide (i ≠ x) := by
      rw [List.filter_filter]
      exact List.filter_congr fun i _ => Bool.and_comm _ _
    rw [h1, i2, List.filter_filter]
    apply List.filter_congr
    intro i _
    by_cases h : i = x <;> simp [h]
  | @insert w L n c d t pos h' r ht e hi ih =>
    obtain ⟨i1, i2, i3⟩ := ih
    refine ⟨by simp [i1]; omega, ?_, fun i hi' hc => ?_⟩
    · obtain ⟨k, hk⟩ := shown_inserted (wreach_inv r.reach).1 ht hi
      have : ({ w with heap := h', store := w.store ++ [e] } : World).refs 0 =
          (w.refs 0).take k ++ w.store.length :: (w.refs 0).drop k := by
        rw [World.refs_eq, World.refs_eq]
        dsimp only
        rw [hk]
        simp
      rw [this, List.filter_append, List.filter_cons_of_neg (by simp; omega), ← List.filter_append, List.take_append_drop, i2]
    · show (w.store ++ [e])[i]? = _
      rw [List.getElem?_append_left (by omega)]
      exact i3 i hi' hc
  | @assign w L n c d r ref v ih =>
    obtain ⟨i1, i2, i3⟩ := ih
    refine ⟨by simpa [World.setEv] using i1, i2, fun i hi hc => ?_⟩
    show (w.store.set ref _)[i]? = _
    rw [List.getElem?_set_ne (fun h => hc (by simp [h]))]
    exact i3 i hi (fun h => hc (by simp [h]))
  | header r _ _ _ ih => exact ih

variable [FloatEnv]

/-- The pieces of a saved file. -/
theorem saved_madeOf {p : Project} {file : Bytes} (h : saveBytes p = .ok file) : ∃ pieces, MadeOf file p.events pieces := by
  obtain ⟨f0, f1, c0, c1, p0, p1, s0, s1, s2, s3, body, e1, -, -, -, -, e6⟩ := saved_parts h
  have : ∀ {l : List Event} {x : Bytes}, eventsBytes l = .ok x → ∃ raws : List Bytes, l.map Event.toBytes = raws.map .ok ∧ x = raws.flatten := by
    intro l
    induction l with
    | nil => intro x hx; cases hx; exact ⟨[], rfl, rfl⟩
    | cons q l ih =>
      intro x hx
      obtain ⟨u, v, q1, q2, rfl⟩ := seqBuild_inv (show seqBuild q.toBytes (eventsBytes l) = .ok x from hx)
      obtain ⟨raws, r1, r2⟩ := ih q2
      exact ⟨u :: raws, by simp [q1, r1], by simp [r2]⟩
  obtain ⟨raws, r1, r2⟩ := this e6
  exact ⟨raws, by rw [e1, ← r2]; rfl, r1⟩

/-- The pieces of the events that are as they were. -/
theorem kept_pieces {p : Project} {refs : List Nat} {get : Nat → Event} {pieces old : List Bytes} {before after : Bytes} {c : List Nat}
    (hp : MadeOf after (refs.map get) pieces) (ho : MadeOf before p.events old)
    (hget : ∀ i, (hi : i < p.events.length) → i ∉ c → get i = p.events[i]) :
    (refs.zip pieces).map Prod.fst = refs ∧ (refs.zip pieces).map Prod.snd = pieces ∧
    ∀ i b, (i, b) ∈ refs.zip pieces → i < p.events.length → i ∉ c → old[i]? = some b := by
  have hlen : refs.length = pieces.length := by simpa using congrArg List.length hp.2
  refine ⟨List.map_fst_zip (by omega), List.map_snd_zip (by omega), fun i b hm hi hc => ?_⟩
  obtain ⟨j, hj, hje⟩ := List.mem_iff_getElem.1 hm
  rw [List.getElem_zip, Prod.mk.injEq] at hje
  rw [List.length_zip] at hj
  have h1 : ((refs.map get).map Event.toBytes)[j]? = (pieces.map (Except.ok (ε := Exc)))[j]? := by rw [hp.2]
  rw [List.map_map, List.getElem?_map, List.getElem?_map, List.getElem?_eq_getElem (by omega), List.getElem?_eq_getElem (by omega),
    hje.1, hje.2, Option.map_some, Option.map_some, Option.some.injEq, Function.comp_apply, hget i hi hc] at h1
  have h2 : (p.events.map Event.toBytes)[i]? = (old.map (Except.ok (ε := Exc)))[i]? := by rw [ho.2]
  rw [List.getElem?_map, List.getElem?_map, List.getElem?_eq_getElem hi, Option.map_some, h1] at h2
  cases ho' : old[i]? with
  | none => rw [ho'] at h2; cases h2
  | some b' =>
    rw [ho'] at h2
    simp only [Option.map_some, Option.some.injEq, Except.ok.injEq] at h2
    rw [h2]

/-- **C149**: whatever a program does with a project it has opened, when it saves it again, the event data of the file consist of one
piece for each event it now has; labelled with the numbers of the event objects, the pieces of the events that were opened are those of
all that were not removed, each once and in the old order; each that was not assigned to has exactly the bytes it would have had in the
file at the beginning; and there are no others than these and those of the events that were inserted. -/
theorem C149_survives {p : Project} {w : World} {L : Nat → Prop} {n : Nat} {c d : List Nat} (r : Edited p w L n c d)
    {before after : Bytes} (hb : saveBytes p = .ok before) (ha : saveBytes w.project = .ok after) :
    ∃ (old : List Bytes) (new : List (Nat × Bytes)), MadeOf before p.events old ∧ MadeOf after w.project.events (new.map Prod.snd) ∧
      ((new.map Prod.fst).filter fun i => decide (i < p.events.length)) =
        (List.range p.events.length).filter (fun i => decide (i ∉ d)) ∧
      (∀ i b, (i, b) ∈ new → i < p.events.length → i ∉ c → old[i]? = some b) ∧
      (new.map Prod.fst).Nodup ∧ ∀ i ∈ new.map Prod.fst, i < p.events.length + n := by
  obtain ⟨old, ho⟩ := saved_madeOf hb
  obtain ⟨pieces, hp⟩ := saved_madeOf ha
  obtain ⟨i1, i2, i3⟩ := edited_refs r
  obtain ⟨k1, k2, k3⟩ := kept_pieces (c := c) (show MadeOf after ((w.refs 0).map w.ev) pieces from hp) ho (fun i hi hc => by
    unfold World.ev
    rw [List.getD_eq_getElem?_getD, i3 i hi hc, List.getElem?_eq_getElem hi]
    rfl)
  obtain ⟨-, hn⟩ := reach_good (wreach_inv r.reach).1
  refine ⟨old, (w.refs 0).zip pieces, ho, by rw [k2]; exact hp, by rw [k1]; exact i2, k3, by rw [k1, World.refs_eq]; exact hn, ?_⟩
  rw [k1]
  intro i hi
  rw [World.refs_eq] at hi
  obtain ⟨x, hx, rfl⟩ := List.mem_map.1 hi
  have := ((wreach_inv r.reach).2 x hx).1
  omega

/-- **C149**, from file to file: a file is opened, edited in any way and saved.  Each event that was neither assigned to nor removed and
whose data is in the form that FL Studio writes (`canonPayload`) has in the new file exactly the id and the data it had in the old one.
This holds of all events of unknown kinds and all colours, whatever their data. -/
theorem C149_file {file : Bytes} {p : Project} (hopen : parseFile file = .ok p) {w : World} {L : Nat → Prop} {n : Nat} {c d : List Nat}
    (r : Edited p w L n c d) {after : Bytes} (ha : saveBytes w.project = .ok after) :
    ∃ (fs : List (Nat × Bytes)) (new : List (Nat × Bytes)), Splits (file.drop 22) fs ∧ fs.length = p.events.length ∧
      MadeOf after w.project.events (new.map Prod.snd) ∧
      ((new.map Prod.fst).filter fun i => decide (i < fs.length)) = (List.range fs.length).filter (fun i => decide (i ∉ d)) ∧
      (new.map Prod.fst).Nodup ∧ (∀ i ∈ new.map Prod.fst, i < fs.length + n) ∧
      ∀ i b f e, (i, b) ∈ new → fs[i]? = some f → p.events[i]? = some e → i ∉ c →
        e.id = f.1 ∧ (canonPayload e.kind f.2 → b = frame f) ∧ (e.kind = .unknown ∨ e.kind = .color → b = frame f) := by
  obtain ⟨f0, f1, c0, c1, p0, p1, s0, s1, s2, s3, data, h1, -, -, -, -, -, -, -, fs, st', hs, hr⟩ := parseFile_ok hopen
  obtain ⟨r1, r2⟩ := runs_zip hr
  obtain ⟨pieces, hp⟩ := saved_madeOf ha
  obtain ⟨i1, i2, i3⟩ := edited_refs r
  obtain ⟨-, hn⟩ := reach_good (wreach_inv r.reach).1
  have hlen : (w.refs 0).length = pieces.length := by
    have := congrArg List.length hp.2
    rw [show w.project.events = (w.refs 0).map w.ev from rfl] at this
    simpa using this
  have k1 : ((w.refs 0).zip pieces).map Prod.fst = w.refs 0 := List.map_fst_zip (by omega)
  have k2 : ((w.refs 0).zip pieces).map Prod.snd = pieces := List.map_snd_zip (by omega)
  refine ⟨fs, (w.refs 0).zip pieces, by rw [h1]; exact hs, r1.symm, by rw [k2]; exact hp, by rw [k1, ← r1]; exact i2,
    by rw [k1, World.refs_eq]; exact hn, ?_, ?_⟩
  · rw [k1]
    intro i hi
    rw [World.refs_eq] at hi
    obtain ⟨x, hx, rfl⟩ := List.mem_map.1 hi
    have := ((wreach_inv r.reach).2 x hx).1
    omega
  · intro i b f e hm hf he hc
    have hi : i < p.events.length := (List.getElem?_eq_some_iff.1 he).1
    have hz : (f, e) ∈ fs.zip p.events := by
      refine List.mem_iff_getElem?.2 ⟨i, ?_⟩
      rw [List.getElem?_zip_eq_some]
      exact ⟨hf, he⟩
    obtain ⟨q1, q2, q3, -, -⟩ := r2 _ hz
    dsimp only at q1 q2 q3
    obtain ⟨j, hj, hje⟩ := List.mem_iff_getElem.1 hm
    rw [List.getElem_zip, Prod.mk.injEq] at hje
    rw [List.length_zip] at hj
    have hb : e.toBytes = .ok b := by
      have g1 : (((w.refs 0).map w.ev).map Event.toBytes)[j]? = (pieces.map (Except.ok (ε := Exc)))[j]? := by rw [← hp.2]; rfl
      have g2 : w.ev i = e := by
        unfold World.ev
        rw [List.getD_eq_getElem?_getD, i3 i hi hc, he]
        rfl
      rw [List.map_map, List.getElem?_map, List.getElem?_map, List.getElem?_eq_getElem (by omega), List.getElem?_eq_getElem (by omega),
        hje.1, hje.2, Option.map_some, Option.map_some, Option.some.injEq, Function.comp_apply, g2] at g1
      exact g1
    have key : canonPayload e.kind f.2 → b = frame f := by
      intro hcan
      have hpay : e.payload = .ok f.2 := by
        unfold Event.payload
        rw [q2]
        exact kind_canon q3 hcan
      have hid : e.id < 256 := by rw [q1]; exact splits_ids hs f (List.mem_of_getElem? hf)
      have := toBytes_eq hid hpay
      rw [hb] at this
      unfold Event.fr at this
      rw [pay_eq hpay, q1] at this
      exact Except.ok.inj this
    refine ⟨q1, key, ?_⟩
    rintro (hk | hk)
    · exact key (by rw [hk]; trivial)
    · exact key (by rw [hk]; trivial)

omit [FloatEnv] in
/-- The events that are opened and not taken out, whatever was used. -/
theorem used_refs (ids : List Nat) (us : List Use)
    (new : ∀ e ∈ (useAll (SHeap.ofEvents (ids.zipIdx.map Prod.swap)) us).1.flatMap Use.brings, ids.length ≤ e.1) :
    let u := useAll (SHeap.ofEvents (ids.zipIdx.map Prod.swap)) us
    let left := ((shown u.2.flat 0).map Prod.fst).filter fun i => decide (i < ids.length)
    left.Sublist (List.range ids.length) ∧ ids.length ≤ left.length + (u.1.map Use.takes).sum := by
  intro u left
  have hrefs : (ids.zipIdx.map Prod.swap).map Prod.fst = List.range ids.length := by
    rw [List.map_map, List.zipIdx_eq_zip_range']
    exact (List.map_snd_zip (by simp)).trans List.range_eq_range'.symm
  have hlt : ∀ e ∈ ids.zipIdx.map Prod.swap, e.1 < ids.length := by
    intro e he
    have := List.mem_map_of_mem (f := Prod.fst) he
    rw [hrefs] at this
    simpa using this
  obtain ⟨gone, g1, g2⟩ := C143_conserved (ids.zipIdx.map Prod.swap) us
  have hord := C143_order (ids.zipIdx.map Prod.swap) us (fun e he he' => by have := new e he; have := hlt e he'; omega)
  have hleft : left = ((shown u.2.flat 0).filter fun e => decide (e ∈ ids.zipIdx.map Prod.swap)).map Prod.fst := by
    show List.filter _ (List.map _ _) = _
    rw [List.filter_map]
    apply congrArg (List.map _)
    apply List.filter_congr
    intro e he
    have hm := g2.subset (List.mem_append_left gone he)
    simp only [Function.comp_apply, decide_eq_decide]
    rcases List.mem_append.1 hm with h | h
    · exact ⟨fun _ => h, fun _ => hlt e h⟩
    · have := new e h
      exact ⟨fun h' => by omega, fun h' => hlt e h'⟩
  refine ⟨?_, ?_⟩
  · rw [hleft, ← hrefs]
    exact hord.map _
  · have hper := (g2.map Prod.fst).filter fun i => decide (i < ids.length)
    rw [List.map_append, List.filter_append, List.map_append, List.filter_append, hrefs] at hper
    have hl := hper.length_eq
    rw [List.length_append, List.length_append] at hl
    have hr : (List.range ids.length).filter (fun i => decide (i < ids.length)) = List.range ids.length := by
      rw [List.filter_eq_self]
      intro i hi
      simpa using hi
    rw [hr, List.length_range] at hl
    have hg : ((gone.map Prod.fst).filter fun i => decide (i < ids.length)).length ≤ gone.length :=
      Nat.le_trans (List.length_filter_le _ _) (by simp)
    have : left.length = (((shown u.2.flat 0).map Prod.fst).filter fun i => decide (i < ids.length)).length := rfl
    have e : (shown (useAll (SHeap.ofEvents (ids.zipIdx.map Prod.swap)) us).2.flat 0) = shown u.2.flat 0 := rfl
    rw [e] at hl
    have e2 : (u.1.map Use.takes).sum = gone.length := g1.symm
    omega

/-- **C149**, with views that are out of date: a project is used in any way, also through views that no longer show what the project has.
Let `store` be the event objects, as they are when it is saved: those of the project it was opened as, `changed` the numbers of those
that were assigned to, and new ones.  Then what is left of the events that were opened is in the old order and none twice, at most as many
are missing as there were successful removals, and each that is left and was not assigned to has exactly the bytes it would have had. -/
theorem C149_out_of_date (p : Project) (us : List Use) {store : List Event} {changed : List Nat}
    (new : ∀ e ∈ (useAll (SHeap.ofEvents ((p.events.map Event.id).zipIdx.map Prod.swap)) us).1.flatMap Use.brings, p.events.length ≤ e.1)
    (same : ∀ i, i < p.events.length → i ∉ changed → store[i]? = p.events[i]?) {q : Project}
    (hq : q.events = (shown (useAll (SHeap.ofEvents ((p.events.map Event.id).zipIdx.map Prod.swap)) us).2.flat 0).map
      fun e => store.getD e.1 default)
    {before after : Bytes} (hb : saveBytes p = .ok before) (ha : saveBytes q = .ok after) :
    ∃ (old : List Bytes) (new : List (Nat × Bytes)), MadeOf before p.events old ∧ MadeOf after q.events (new.map Prod.snd) ∧
      ((new.map Prod.fst).filter fun i => decide (i < p.events.length)).Sublist (List.range p.events.length) ∧
      p.events.length ≤ ((new.map Prod.fst).filter fun i => decide (i < p.events.length)).length +
        ((useAll (SHeap.ofEvents ((p.events.map Event.id).zipIdx.map Prod.swap)) us).1.map Use.takes).sum ∧
      ∀ i b, (i, b) ∈ new → i < p.events.length → i ∉ changed → old[i]? = some b := by
  obtain ⟨old, ho⟩ := saved_madeOf hb
  obtain ⟨pieces, hp⟩ := saved_madeOf ha
  have hev : q.events = ((shown (useAll (SHeap.ofEvents ((p.events.map Event.id).zipIdx.map Prod.swap)) us).2.flat 0).map Prod.fst).map
      fun i => store.getD i default := by
    rw [hq, List.map_map]; rfl
  have hp' := hp
  rw [hev] at hp'
  obtain ⟨k1, k2, k3⟩ := kept_pieces (c := changed) hp' ho (fun i hi hc => by
    rw [List.getD_eq_getElem?_getD, same i hi hc, List.getElem?_eq_getElem hi]; rfl)
  have hu := used_refs (p.events.map Event.id) us (by rw [List.length_map]; exact new)
  rw [List.length_map] at hu
  exact ⟨old, _, ho, by rw [k2]; exact hp, by rw [k1]; exact hu.1, by rw [k1]; exact hu.2, k3⟩

namespace SurvivalDemo

/-- A version, two channels, the first one with a name, and an event of an unknown kind. -/
def small : Project := ⟨0, 2, 96, [
  ⟨199, .ascii, .str (PStr.lit "20.8.3"), 7⟩,
  ⟨64, .u16, .lv (.int 0), 2⟩,
  ⟨203, .unicode, .str (PStr.lit "Bass"), 10⟩,
  ⟨64, .u16, .lv (.int 1), 2⟩,
  ⟨255, .unknown, .bytes [1, 2, 3], 3⟩]⟩

/-- It with another name of the channel. -/
def named : World := (World.ofProject small).setEv 2 { (World.ofProject small).ev 2 with value := .str (PStr.lit "Kick") }

/-- It, with another event of an unknown kind put before its name. -/
def grown : World := { named with heap := (named.heap.insert 0 2 5 254).1, store := named.store ++ [⟨254, .unknown, .bytes [9], 1⟩] }

/-- It without the second channel. -/
def shrunk : World := { grown with heap := (grown.heap.pop 0 64 1).1 }

omit [FloatEnv] in
theorem shrunk_edited : ∃ L, Edited small shrunk L 1 [2] [3] := by
  have a : Edited small named (· = 0) 0 [2] [] := .assign .opened 2 (.str (PStr.lit "Kick"))
  have b := Edited.insert a rfl (pos := 2) (h' := (named.heap.insert 0 2 5 254).1) ⟨254, .unknown, .bytes [9], 1⟩ (Prod.ext rfl (by decide +kernel))
  have c := Edited.pop b (t := 0) (id := 64) (k := 1) (h' := (grown.heap.pop 0 64 1).1) (x := 3)
    ⟨rfl, fun v _ hv => by
      have : named.heap.ancestors 0 = [] := by decide +kernel
      rw [this] at hv
      simpa using hv⟩ (Prod.ext rfl (by decide +kernel))
  exact ⟨_, c⟩

theorem small_saved : saveBytes small = .ok ([70, 76, 104, 100, 6, 0, 0, 0, 0, 0, 2, 0, 96, 0, 70, 76, 100, 116, 32, 0, 0, 0] ++
    [199, 7, 50, 48, 46, 56, 46, 51, 0] ++ [64, 0, 0] ++ [203, 10, 66, 0, 97, 0, 115, 0, 115, 0, 0, 0] ++ [64, 1, 0] ++ [255, 3, 1, 2, 3]) := by
  have hb : eventsBytes small.events = .ok ([199, 7, 50, 48, 46, 56, 46, 51, 0] ++ [64, 0, 0] ++
      [203, 10, 66, 0, 97, 0, 115, 0, 115, 0, 0, 0] ++ [64, 1, 0] ++ [255, 3, 1, 2, 3]) := by
    rw [eventsBytes_eq (by
      intro e he
      simp only [small, List.mem_cons, List.not_mem_nil, or_false] at he
      rcases he with rfl | rfl | rfl | rfl | rfl <;> exact ⟨by decide, _, rfl⟩)]
    have hf : small.events.map Event.fr = [(199, [50, 48, 46, 56, 46, 51, 0]), (64, [0, 0]), (203, [66, 0, 97, 0, 115, 0, 115, 0, 0, 0]),
      (64, [1, 0]), (255, [1, 2, 3])] := rfl
    rw [hf]
    simp [frames, frame, Demo.varBuild_small]
  unfold saveBytes
  rw [show channelLen small.events = .ok 2 from rfl, hb]
  rfl

omit [FloatEnv] in
theorem shrunk_events : shrunk.project = ⟨0, 2, 96, [
    ⟨199, .ascii, .str (PStr.lit "20.8.3"), 7⟩, ⟨64, .u16, .lv (.int 0), 2⟩, ⟨254, .unknown, .bytes [9], 1⟩,
    ⟨203, .unicode, .str (PStr.lit "Kick"), 10⟩, ⟨255, .unknown, .bytes [1, 2, 3], 3⟩]⟩ := by
  have h : shrunk.project.events = [
    ⟨199, .ascii, .str (PStr.lit "20.8.3"), 7⟩, ⟨64, .u16, .lv (.int 0), 2⟩, ⟨254, .unknown, .bytes [9], 1⟩,
    ⟨203, .unicode, .str (PStr.lit "Kick"), 10⟩, ⟨255, .unknown, .bytes [1, 2, 3], 3⟩] := by decide +kernel
  have : shrunk.project = ⟨0, 2, 96, shrunk.project.events⟩ := rfl
  rw [this, h]

theorem shrunk_saved : saveBytes shrunk.project = .ok ([70, 76, 104, 100, 6, 0, 0, 0, 0, 0, 1, 0, 96, 0, 70, 76, 100, 116, 32, 0, 0, 0] ++
    [199, 7, 50, 48, 46, 56, 46, 51, 0] ++ [64, 0, 0] ++ [254, 1, 9] ++ [203, 10, 75, 0, 105, 0, 99, 0, 107, 0, 0, 0] ++ [255, 3, 1, 2, 3]) := by
  rw [shrunk_events]
  unfold saveBytes
  dsimp only
  rw [eventsBytes_eq (by
      intro e he
      simp only [List.mem_cons, List.not_mem_nil, or_false] at he
      rcases he with rfl | rfl | rfl | rfl | rfl <;> exact ⟨by decide, _, rfl⟩)]
  have hf : List.map Event.fr [
    ⟨199, .ascii, .str (PStr.lit "20.8.3"), 7⟩, ⟨64, .u16, .lv (.int 0), 2⟩, ⟨254, .unknown, .bytes [9], 1⟩,
    ⟨203, .unicode, .str (PStr.lit "Kick"), 10⟩, ⟨255, .unknown, .bytes [1, 2, 3], 3⟩] =
      [(199, [50, 48, 46, 56, 46, 51, 0]), (64, [0, 0]), (254, [9]), (203, [75, 0, 105, 0, 99, 0, 107, 0, 0, 0]), (255, [1, 2, 3])] := rfl
  have hb : frames [(199, [50, 48, 46, 56, 46, 51, 0]), (64, [0, 0]), (254, [9]), (203, [75, 0, 105, 0, 99, 0, 107, 0, 0, 0]), (255, [1, 2, 3])] =
      [199, 7, 50, 48, 46, 56, 46, 51, 0] ++ [64, 0, 0] ++ [254, 1, 9] ++ [203, 10, 75, 0, 105, 0, 99, 0, 107, 0, 0, 0] ++ [255, 3, 1, 2, 3] := by
    simp [frames, frame, Demo.varBuild_small]
  rw [hf, hb]
  rfl

/-- The file, before anything is done. -/
def smallFile : Bytes := [70, 76, 104, 100, 6, 0, 0, 0, 0, 0, 2, 0, 96, 0, 70, 76, 100, 116, 32, 0, 0, 0] ++
    ([199, 7, 50, 48, 46, 56, 46, 51, 0] ++ [64, 0, 0] ++ [203, 10, 66, 0, 97, 0, 115, 0, 115, 0, 0, 0] ++ [64, 1, 0] ++ [255, 3, 1, 2, 3])

theorem small_opened : parseFile smallFile = .ok small := by
  rw [parse_iff]
  refine ⟨_, _, _, _, _, _, _, _, _, _, _, rfl, by decide, by decide, by decide, by decide, rfl, rfl, rfl, [(199, [50, 48, 46, 56, 46, 51, 0]), (64, [0, 0]),
    (203, [66, 0, 97, 0, 115, 0, 115, 0, 0, 0]), (64, [1, 0]), (255, [1, 2, 3])], ?_, ?_⟩
  · have := splits_frames (fs := [(199, [50, 48, 46, 56, 46, 51, 0]), (64, [0, 0]),
      (203, [66, 0, 97, 0, 115, 0, 115, 0, 0, 0]), (64, [1, 0]), (255, [1, 2, 3])]) (by
        intro f hf
        simp only [List.mem_cons, List.not_mem_nil, or_false] at hf
        rcases hf with rfl | rfl | rfl | rfl | rfl <;> simp [FrameOK, sizeOK])
    simpa [frames, frame, Demo.varBuild_small] using this
  · refine .cons ⟨rfl, rfl, rfl, rfl, ?_, ?_, ?_, ?_⟩ (.cons ⟨rfl, rfl, rfl, rfl, ?_, ?_, ?_, ?_⟩ (.cons ⟨rfl, rfl, rfl, rfl, ?_, ?_, ?_, ?_⟩
      (.cons ⟨rfl, rfl, rfl, rfl, ?_, ?_, ?_, ?_⟩ (.cons ⟨rfl, rfl, rfl, rfl, ?_, ?_, ?_, ?_⟩ .nil)))) <;>
      first
      | (intro h; exact absurd h (by decide))
      | (intro h h'; first | exact rfl | exact absurd h' (by decide) | exact absurd h (by decide))
      | exact fun _ => ⟨_, rfl, [20, 8, 3], by decide +kernel⟩
      | exact fun _ => rfl

end SurvivalDemo

open SurvivalDemo in
/-- A project with two channels: after giving the first one another name, inserting an event and taking out the second channel, both
files can be written, so the theorem applies; the version, the first channel and the last event survive. -/
example : ∃ L before after, Edited small shrunk L 1 [2] [3] ∧ saveBytes small = .ok before ∧ saveBytes shrunk.project = .ok after ∧
    (List.range small.events.length).filter (fun i => decide (i ∉ [3])) = [0, 1, 2, 4] := by
  obtain ⟨L, hL⟩ := shrunk_edited
  exact ⟨L, _, _, hL, small_saved, shrunk_saved, by decide⟩

open SurvivalDemo in
/-- The same project: two views of the second channel are made and its event is removed through both of them, the second
of which is out of date by then, so that the last event of the project goes too; then an event is inserted.  The hypothesis is met: of the
five events two are missing, no more than were taken out. -/
example : let us := [Use.view 0 (.separate 64), .view 0 (.separate 64), .pop 2 64 0, .pop 4 64 0, .insert 0 0 (5, 254)]
    let u := useAll (SHeap.ofEvents ((small.events.map Event.id).zipIdx.map Prod.swap)) us
    (∀ e ∈ u.1.flatMap Use.brings, small.events.length ≤ e.1) ∧ (u.1.map Use.takes).sum = 2 ∧
      (shown u.2.flat 0).map Prod.fst = [5, 0, 1, 2] := by
  decide +kernel

open SurvivalDemo in
/-- The file of the project is opened again, edited as above and saved: the hypotheses of `C149_file` are met. -/
example : ∃ file q w L after, parseFile file = .ok q ∧ Edited q w L 1 [2] [3] ∧ saveBytes w.project = .ok after ∧
    (q.events[4]?.map Event.kind) = some .unknown := by
  obtain ⟨L, hL⟩ := shrunk_edited
  exact ⟨smallFile, small, shrunk, L, _, small_opened, hL, shrunk_saved, rfl⟩

end PyFLP
