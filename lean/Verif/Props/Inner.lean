import Verif.Props.Nested
import Verif.Props.Declared
import Verif.Props.PropTable
/-!
# A model within a model shows all that its properties need (C90)
-/

namespace PyFLP

open Spec Heap Declared

theorem first_find? (h : Heap) (t id : Nat) : h.first t id = match (shown h t).find? (fun x => x.2 == id) with
    | some x => .ok x.1
    | none => .error .keyError := by
  rcases first_spec h t id with ⟨pre, post, ref, h1, h2, h3⟩ | ⟨h1, h2⟩
  · rw [h1, h2, List.find?_append]
    have : pre.find? (fun x => x.2 == id) = none := by
      rw [List.find?_eq_none]
      intro x hx
      simpa using h3 x hx
    rw [this]
    simp
  · have : (shown h t).find? (fun x => x.2 == id) = none := by
      rw [List.find?_eq_none]
      intro x hx
      simpa using h2 x hx
    rw [h1, this]

/-- Which event a descriptor finds in a nested model: the one it would find in the parent. -/
theorem firstOf_nested {w w' : World} {t u : Nat} {ids : List Nat}
    (h : shown w'.heap u = (shown w.heap t).filter fun x => decide (x.2 ∈ ids)) :
    ∀ l : List Nat, (∀ i ∈ l, i ∈ ids) → w'.firstOf u l = w.firstOf t l := by
  intro l
  induction l with
  | nil => intro _; rfl
  | cons id l ih =>
    intro hl
    have hid : id ∈ ids := hl id (by simp)
    have hfind : (shown w'.heap u).find? (fun x => x.2 == id) = (shown w.heap t).find? (fun x => x.2 == id) := by
      rw [h, List.find?_filter]
      apply congrArg (fun p => List.find? p (shown w.heap t))
      funext x
      by_cases hx : x.2 = id
      · simp [hx, hid]
      · simp [hx]
    have hcont : ∀ (v : World) (s : Nat), v.contains s id = ((shown v.heap s).find? fun x => x.2 == id).isSome := by
      intro v s
      unfold World.contains shown
      rw [Bool.eq_iff_iff, List.find?_isSome, List.any_eq_true]
      simp only [beq_iff_eq, List.mem_map]
      exact ⟨fun ⟨x, hx, e⟩ => ⟨_, ⟨x, hx, rfl⟩, e⟩, fun ⟨_, ⟨x, hx, rfl⟩, e⟩ => ⟨x, hx, e⟩⟩
    unfold World.firstOf
    rw [hcont, hcont, hfind, first_find?, first_find?, hfind, ih fun i hi => hl i (by simp [hi])]

/-- **C90**, completeness: every model within a model has all events that the properties of its class need.  Each property of the model
reads as if it looked at the events of the parent itself, and an assignment through the model has the result and stores the value that an
assignment at the parent would; a property without ids of its own reads the event of the parent that has the ids of the model, if that
is one. -/
theorem C90_complete {w : World} {L : Nat → Prop} (r : WReach w L) {t : Nat} (ht : L t) {d : NestedDecl} (hd : d ∈ nested) :
    ∃ ids, d.events.mapM idOf = some ids ∧ ids ≠ [] ∧ ∃ w' u, nestedProp ids w t = (w', u) ∧ ∀ (ver : PyVer), ∀ p ∈ propTable, p.cls = d.model →
      (p.ids ≠ [] → p.read ver w' u = p.read ver w t ∧
        ∀ x, (p.write ver w' u x).2 = (p.write ver w t x).2 ∧ (p.write ver w' u x).1.store = (p.write ver w t x).1.store) ∧
      (p.ids = [] → (∀ e, (w.events t).filter (fun e => decide (e.id ∈ ids)) = [e] → p.read ver w' u = (p.descr ver).get e) ∧
        ((w.events t).filter (fun e => decide (e.id ∈ ids)) = [] → p.read ver w' u = .error .indexError) ∧
        (1 < ((w.events t).filter (fun e => decide (e.id ∈ ids))).length → p.read ver w' u = .error .lookupError)) := by
  have hall : ∀ d ∈ nested, (d.events.mapM idOf).isSome ∧ d.events.mapM idOf ≠ some [] ∧
      ∀ p ∈ propTable, p.cls = d.model → ∀ i ∈ p.ids, i ∈ (d.events.mapM idOf).getD [] := by decide +kernel
  obtain ⟨a1, a2, a3⟩ := hall d hd
  obtain ⟨ids, hids⟩ := Option.isSome_iff_exists.1 a1
  rw [hids] at a2 a3
  obtain ⟨g, -⟩ := reach_good (wreach_inv r).1
  obtain ⟨n1, -, n3, -, -, -⟩ := nested_raw w (g.lt t ht) (g.sorted ht) ids
  have hev : ∀ x, (nestedProp ids w t).1.ev x = w.ev x := fun x => by unfold World.ev; rw [n3]
  refine ⟨ids, hids, fun h => a2 (by rw [h]), (nestedProp ids w t).1, (nestedProp ids w t).2, rfl, ?_⟩
  generalize (nestedProp ids w t).1 = w' at n1 n3 hev ⊢
  generalize (nestedProp ids w t).2 = u at n1 ⊢
  refine fun ver p hp hc => ⟨fun hne => ?_, fun h0 => ?_⟩
  · have hget : w'.getEvent u p.ids = w.getEvent t p.ids := by
      unfold World.getEvent
      rw [if_neg (by simpa using hne), if_neg (by simpa using hne)]
      exact firstOf_nested n1 _ (a3 p hp hc)
    refine ⟨?_, fun x => ?_⟩
    · unfold PropRow.read Descr.read
      rw [descr_ids, hget]
      cases w.getEvent t p.ids with
      | error e => rfl
      | ok o =>
        cases o with
        | none => rfl
        | some ref => dsimp only; rw [hev]
    · unfold PropRow.write Descr.write
      rw [descr_readonly, descr_ids, hget]
      cases w.getEvent t p.ids with
      | error e => exact ⟨rfl, n3⟩
      | ok o =>
        cases o with
        | none => exact ⟨rfl, n3⟩
        | some ref =>
          simp only [hev]
          cases (p.descr ver).set (w.ev ref) x with
          | error e => exact ⟨rfl, n3⟩
          | ok e =>
            refine ⟨rfl, ?_⟩
            show w'.store.set ref e = w.store.set ref e
            rw [n3]
  · have hfil : (w.events t).filter (fun e => decide (e.id ∈ ids)) =
        (w'.refs u).map w.ev := by
      rw [World.refs_eq, n1, World.events_eq, List.filter_map, List.map_map]
      apply congrArg (List.map _)
      apply List.filter_congr
      intro x hx
      show decide ((w.ev x.1).id ∈ ids) = _
      rw [(events_shown r ht x hx).2]
    have hlen : (w'.heap.lst u).length =
        (w'.refs u).length := by
      rw [World.refs_eq]; simp [shown]
    rw [hfil]
    unfold PropRow.read Descr.read
    rw [descr_ids, h0]
    unfold World.getEvent
    rw [if_pos (by rfl), hlen]
    refine ⟨fun e he => ?_, fun he => ?_, fun he => ?_⟩
    · match hr : w'.refs u with
      | [] => rw [hr] at he; cases he
      | [ref] =>
        rw [hr] at he
        rw [if_neg (by simp)]
        dsimp only
        rw [hev]
        cases he
        rfl
      | _ :: _ :: _ => rw [hr] at he; cases he
    · rw [List.map_eq_nil_iff] at he
      rw [he, if_neg (by simp)]
    · rw [List.length_map] at he
      rw [if_pos he]

/-- The keyboard of a channel has three kinds of events, and its class has properties of the table. -/
example : ∃ d ∈ nested, d.model = "Keyboard" ∧ d.events.mapM idOf = some [142, 135, 215] ∧
    (propTable.filter fun p => p.cls == "Keyboard").length = 5 := by
  refine ⟨⟨"Channel", "keyboard", "Keyboard", [("ChannelID", "FineTune"), ("ChannelID", "RootNote"), ("ChannelID", "Parameters")]⟩, ?_, rfl, ?_, ?_⟩ <;>
    decide +kernel

end PyFLP
