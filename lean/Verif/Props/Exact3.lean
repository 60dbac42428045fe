import Verif.Props.Events
import Verif.Props.Structured
import Verif.Props.Descriptors
import Verif.Props.Notes
import Verif.Props.Playlist
import Verif.Props.ChannelProps
/-!
# Single properties in full (C10, C35, C39, C55, C70, C78, C80)

What happens where the properties as stated do not hold.
-/

namespace PyFLP

open Spec Heap

/-! ### Sizes of events (C10) -/

/-- C10, for every event that can be serialised: `size` is the number of bytes exactly if the payload has the size that belongs to
the id (any, if the id is at least 192). -/
theorem C10_exact [FloatEnv] (e : Event) (raw payload : Bytes) (h : e.toBytes = .ok raw) (hp : e.payload = .ok payload) :
    e.size = .ok raw.length ↔ dataSizeOK e.id payload.length := by
  obtain ⟨h1, h2, h3⟩ := toBytes_ok h
  unfold Event.size dataSizeOK
  by_cases h192 : 192 ≤ e.id
  · rw [if_pos h192, h]
    exact ⟨fun _ => .inr (.inr (.inr h192)), fun _ => rfl⟩
  · rw [hp] at h2
    have hlen : raw.length = payload.length + 1 := by
      rw [h3]
      unfold frame Event.fr
      dsimp only
      rw [if_pos (show e.id < 192 by omega)]
      simp [← Except.ok.inj h2]
    rw [if_neg h192, hlen]
    by_cases h128 : 128 ≤ e.id
    · rw [if_pos h128, Except.ok.injEq]; omega
    · rw [if_neg h128]
      by_cases h64 : 64 ≤ e.id
      · rw [if_pos h64, Except.ok.injEq]; omega
      · rw [if_neg h64, Except.ok.injEq]; omega

example [FloatEnv] : (⟨5, .unknown, .bytes [1, 2, 3], 1⟩ : Event).toBytes = .ok [5, 1, 2, 3] ∧
    (⟨5, .unknown, .bytes [1, 2, 3], 1⟩ : Event).payload = .ok [1, 2, 3] ∧ ¬ dataSizeOK 5 3 :=
  ⟨rfl, rfl, by unfold dataSizeOK; omega⟩

/-! ### Flags (C35) -/

theorem flag_bits_exact {ver : PyVer} {members flag n m : Nat} (hf : flag ≠ 0) (hsub : flag &&& members = flag) {on : Bool}
    (hm : (m : Int) = if on then flagOr n flag else flagAndNot ver members n flag) (i : Nat) :
    m.testBit i = if on then n.testBit i || flag.testBit i
      else n.testBit i && !flag.testBit i && (decide (ver = .upTo310) || decide (i ≤ Nat.log2 members)) := by
  cases on with
  | true =>
    rw [if_pos rfl] at hm ⊢
    have hm' : m = n ||| flag := Int.ofNat.inj (show (m : Int) = ((n ||| flag : Nat) : Int) from hm)
    subst hm'
    exact Nat.testBit_or ..
  | false =>
    rw [if_neg (by simp)] at hm ⊢
    cases ver with
    | upTo310 =>
      have hm' : m = n ^^^ (n &&& flag) := Int.ofNat.inj (show (m : Int) = ((n ^^^ (n &&& flag) : Nat) : Int) from hm)
      subst hm'
      rw [Nat.testBit_xor, Nat.testBit_and]
      cases n.testBit i <;> cases flag.testBit i <;> rfl
    | from311 =>
      have hm' : m = n &&& (allBits members - flag) :=
        Int.ofNat.inj (show (m : Int) = ((n &&& (allBits members - flag) : Nat) : Int) from hm)
      subst hm'
      have hne : members ≠ 0 := by
        rintro rfl
        rw [Nat.and_zero] at hsub
        exact hf hsub.symm
      have k2 : flag < 2 ^ (Nat.log2 members + 1) := by
        have h1 : members < 2 ^ (Nat.log2 members + 1) := Nat.lt_log2_self
        have h2 : flag ≤ members := by rw [← hsub]; exact Nat.and_le_right
        omega
      have hall : allBits members - flag = 2 ^ (Nat.log2 members + 1) - (flag + 1) := by
        unfold allBits
        rw [if_neg hne]
        omega
      rw [Nat.testBit_and, hall, Nat.testBit_two_pow_sub_succ k2]
      have hd : decide (i < Nat.log2 members + 1) = decide (i ≤ Nat.log2 members) := by
        rw [decide_eq_decide]; omega
      rw [hd]
      cases n.testBit i <;> cases flag.testBit i <;> cases decide (i ≤ Nat.log2 members) <;> rfl

/-- C35, for every flag word and value: all bits of the new word.  Setting adds the bits of the flag.  Clearing removes them, and from
Python 3.11 on also every bit above the highest one that any member of the enumeration has. -/
theorem C35_exact {w : World} {L : Nat → Prop} (r : WReach w L) {t : Nat} (ht : L t) (ver : PyVer)
    (members flag : Nat) (ids : List Nat) (key : String) (inverted : Bool) (default : Option Bool) {k : Nat}
    {e : Event} {n : Nat} (hT : Target (w.events t) ids k e) (hw : FlagWord e key n) (hf : flag ≠ 0)
    (member : flag &&& members = flag) (b : Bool) :
    ∃ w' e' m, (flagProp ver members flag ids key inverted default).write w t b = (w', .ok ()) ∧
      w'.events t = (w.events t).set k e' ∧ FlagWord e' key m ∧
      (∃ i, w.project.events[i]? = some e ∧
        w'.project = { w.project with events := w.project.events.set i e' }) ∧
      ∀ i, m.testBit i = if b != inverted then n.testBit i || flag.testBit i
        else n.testBit i && !flag.testBit i && (decide (ver = .upTo310) || decide (i ≤ Nat.log2 members)) := by
  obtain ⟨w', e', m, h1, _, h2, h3, h4, h5, _⟩ :=
    flag_write r ht ver members flag ids key inverted default hT hw b
  exact ⟨w', e', m, h1, h2, h4, h3, flag_bits_exact hf member h5⟩

/-! ### Items of changed lists (C55) -/

namespace Spec

/-- As `DReach`, but with all item objects fetched so far, also those from before a deletion. -/
inductive AReach : ListObj → List Item → Prop
  | parsed (l : List Rec) : AReach (.parse l) []
  | fetch {s hs} (r : AReach s hs) : AReach s (hs ++ s.items)
  | edit {s hs it} (r : AReach s hs) (h : it ∈ hs) (key : String) (x : Option LV) : AReach (s.set it key x).1 hs
  | delete {s hs i} (r : AReach s hs) (h : i < s.list.length) : AReach (s.delete i).1 hs

/-- The record an item object shows. -/
def recordOf (s : ListObj) (it : Item) : Rec := s.objs.getD it.ref []

end Spec

theorem areach_inv {s : ListObj} {hs : List Item} (r : AReach s hs) :
    (∀ a ∈ s.list, a < s.objs.length) ∧ ∀ it ∈ hs, it.ref < s.objs.length := by
  induction r with
  | parsed l => exact ⟨fun a ha => by simpa [ListObj.parse] using ha, by simp⟩
  | fetch r ih =>
    refine ⟨ih.1, fun it hit => ?_⟩
    rcases List.mem_append.1 hit with h | h
    · exact ih.2 it h
    · obtain ⟨⟨a, i⟩, hx, rfl⟩ := List.mem_map.1 h
      exact ih.1 _ (List.mem_of_getElem? (List.mem_zipIdx_iff_getElem?.1 hx))
  | @edit s hs it r hm key x ih =>
    unfold ListObj.set
    dsimp only
    split
    · refine ⟨fun a ha => ?_, fun j hj => by simpa using ih.2 j hj⟩
      rcases List.mem_or_eq_of_mem_set ha with h | rfl
      · simpa using ih.1 a h
      · simpa using ih.2 it hm
    · exact ⟨fun a ha => by simpa using ih.1 a ha, fun j hj => by simpa using ih.2 j hj⟩
  | @delete s hs i r h ih =>
    unfold ListObj.delete
    rw [if_pos h]
    exact ⟨fun a ha => ih.1 a (List.eraseIdx_subset ha), ih.2⟩

theorem item_set_exact {s : ListObj} {hs : List Item} (h1 : ∀ a ∈ s.list, a < s.objs.length)
    (h2 : ∀ it ∈ hs, it.ref < s.objs.length) {it : Item} (hm : it ∈ hs) (key : String) (x : Option LV) :
    let s' := (s.set it key x).1
    (s.set it key x).2 = (if it.index < s.value.length then .ok () else .error .indexError) ∧
    s'.value.length = s.value.length ∧
    (∀ i < s.value.length, s'.value[i]? =
      if i = it.index ∨ s.list[i]? = some it.ref then some (Rec.put (recordOf s it) key x) else s.value[i]?) ∧
    (∀ j ∈ hs, recordOf s' j = if j.ref = it.ref then Rec.put (recordOf s it) key x else recordOf s j) ∧
    (∀ i, ∀ j ∈ hs, recordOf (s.delete i).1 j = recordOf s j) := by
  have href := h2 it hm
  have hlen : s.value.length = s.list.length := by simp [ListObj.value]
  have hobj : ∀ a, (s.objs.set it.ref (Rec.put (recordOf s it) key x)).getD a [] =
      if a = it.ref then Rec.put (recordOf s it) key x else s.objs.getD a [] := by
    intro a
    rw [List.getD_eq_getElem?_getD, List.getElem?_set]
    by_cases e : it.ref = a
    · subst e
      rw [if_pos rfl, if_pos href, if_pos rfl]
      rfl
    · rw [if_neg e, if_neg (fun h => e h.symm), List.getD_eq_getElem?_getD]
  have hs : s.set it key x = if it.index < s.list.length
      then (⟨s.objs.set it.ref (Rec.put (recordOf s it) key x), s.list.set it.index it.ref⟩, .ok ())
      else (⟨s.objs.set it.ref (Rec.put (recordOf s it) key x), s.list⟩, .error .indexError) := rfl
  dsimp only
  rw [hs, hlen]
  refine ⟨by split <;> rfl, ?_, fun i hi => ?_, fun j hj => ?_, fun i j hj => ?_⟩
  · split <;> simp [ListObj.value]
  · by_cases hlt : it.index < s.list.length
    · rw [if_pos hlt]
      simp only [ListObj.value, List.getElem?_map, List.getElem?_set]
      by_cases e : it.index = i
      · subst e
        rw [if_pos rfl, if_pos hlt, if_pos (.inl rfl)]
        simp only [Option.map_some, hobj, if_true]
      · rw [if_neg e, List.getElem?_eq_getElem hi]
        simp only [Option.map_some, hobj]
        by_cases e2 : s.list[i] = it.ref
        · rw [if_pos e2, if_pos (.inr (by rw [e2]))]
        · rw [if_neg e2, if_neg]
          rintro (h | h)
          · exact e h.symm
          · exact e2 (Option.some.inj h)
    · rw [if_neg hlt]
      simp only [ListObj.value, List.getElem?_map]
      rw [List.getElem?_eq_getElem hi]
      simp only [Option.map_some, hobj]
      by_cases e2 : s.list[i] = it.ref
      · rw [if_pos e2, if_pos (.inr (by rw [e2]))]
      · rw [if_neg e2, if_neg]
        rintro (h | h)
        · omega
        · exact e2 (Option.some.inj h)
  · unfold recordOf
    split <;> exact hobj j.ref
  · unfold recordOf ListObj.delete
    split <;> rfl

/-- C55, for item objects of any age: an item keeps showing the record it was fetched with, also after that record has been deleted.
An assignment changes this record wherever it stands in the list, and stores it at the place the item was fetched from,
over whatever is there now; if the list has become too short, the record changes and `IndexError` is raised. -/
theorem C55_exact {s : ListObj} {hs : List Item} (r : AReach s hs) {it : Item} (hm : it ∈ hs) (key : String) (x : Option LV) :
    let s' := (s.set it key x).1
    (s.set it key x).2 = (if it.index < s.value.length then .ok () else .error .indexError) ∧
    s'.value.length = s.value.length ∧
    (∀ i < s.value.length, s'.value[i]? =
      if i = it.index ∨ s.list[i]? = some it.ref then some (Rec.put (recordOf s it) key x) else s.value[i]?) ∧
    (∀ j ∈ hs, recordOf s' j = if j.ref = it.ref then Rec.put (recordOf s it) key x else recordOf s j) ∧
    (∀ i, ∀ j ∈ hs, recordOf (s.delete i).1 j = recordOf s j) := by
  exact item_set_exact (areach_inv r).1 (areach_inv r).2 hm key x

/-- Of three records the first has been deleted; the item of the third one is out of the list. -/
example : ∃ s : ListObj, AReach s ([] ++ (ListObj.parse [[("key", some (.int 1))], [("key", some (.int 2))],
      [("key", some (.int 3))]]).items) ∧ s.value = [[("key", some (.int 2))], [("key", some (.int 3))]] ∧
    recordOf s ⟨2, 2⟩ = [("key", some (.int 3))] ∧ (s.set ⟨2, 2⟩ "key" (some (.int 9))).2 = .error .indexError ∧
    (s.set ⟨2, 2⟩ "key" (some (.int 9))).1.value = [[("key", some (.int 2))], [("key", some (.int 9))]] :=
  ⟨_, .delete (i := 0) (.fetch (.parsed _)) (by decide), by decide, by decide, by decide, by decide⟩

/-! ### Loop position (C70) -/

theorem selection_kind : enumType enums 217 = some (.struct .plSelection) := by decide +kernel
theorem loop_kind : enumType enums 152 = some .u16t := by decide +kernel

/-- C70, for every state: without a selection and without an old event the position is `None` and cannot be set.  Otherwise both ends
are read, either may be missing (`None`).  Assigning: if the start is missing, `PropertyCannotBeSet` is raised and nothing changes.  If
only the end is missing, it is raised after the start has been changed.  Otherwise both are changed. -/
theorem C70_exact {w : World} {L : Nat → Prop} (r : WReach w L) {t : Nat} (ht : L t) (hty : Typed (w.events t)) (a b : Int) :
    (valueOf (w.events t) 217 = none ∧ valueOf (w.events t) 152 = none ∧ w.loopPos t = .ok none ∧
      w.setLoopPos t a b = (w, .error .propertyCannotBeSet)) ∨
    ∃ x y, Loop (w.events t) x y ∧ w.loopPos t = .ok (some (x, y)) ∧
      (x = none → w.setLoopPos t a b = (w, .error .propertyCannotBeSet)) ∧
      (x ≠ none → ∃ w' rest, w.setLoopPos t a b = (w', rest) ∧ WReach w' L ∧
        rest = (if y = none then .error .propertyCannotBeSet else .ok ()) ∧
        w'.loopPos t = .ok (some (some (.int a), if y = none then none else some (.int b))) ∧
        ∃ i e v, w.project.events[i]? = some e ∧ (e.id = 217 ∨ e.id = 152) ∧
          w'.project = { w.project with events := w.project.events.set i { e with value := v } }) := by
  cases h217 : valueOf (w.events t) 217 with
  | none =>
    cases h152 : valueOf (w.events t) 152 with
    | none => exact .inl ⟨rfl, rfl, (C70_get r ht).2 h217 h152, (C70_set_partial r ht a b).2 h217 h152⟩
    | some v =>
      obtain ⟨x, y, rfl⟩ := typed_value hty loop_kind h152
      · right
        have hL : Loop (w.events t) (some (.int x)) (some (.int y)) := .inr ⟨h217, x, y, h152, rfl, rfl⟩
        refine ⟨_, _, hL, (C70_get r ht).1 _ _ hL, (fun h => nomatch h), fun _ => ?_⟩
        obtain ⟨w', s1, s2, s3, i, e, v, s4, s5, s6⟩ := (C70_set_partial r ht a b).1 _ _ hL
        refine ⟨w', _, s1, s3, by simp, by rw [(C70_get s3 ht).1 _ _ s2]; simp, i, e, v, s4, ?_, s6⟩
        rcases s5 with ⟨s5, _⟩ | ⟨s5, _⟩
        · exact .inl s5
        · exact .inr s5
  | some v =>
    obtain ⟨rec, rfl, hf⟩ := typed_value hty selection_kind h217
    obtain ⟨x, hx⟩ := typed_field hf (key := "start") (by decide)
    obtain ⟨y, hy⟩ := typed_field hf (key := "end") (by decide)
    right
    have hL : Loop (w.events t) x y := .inl ⟨rec, h217, hx, hy⟩
    refine ⟨x, y, hL, (C70_get r ht).1 _ _ hL, ?_, ?_⟩
    · rintro rfl
      unfold World.setLoopPos
      rw [World.contains_eq r ht, h217, if_pos Option.isSome_some]
      rcases World.first_value r ht 217 with ⟨ref, f1, _, f2, _⟩ | ⟨f1, f2⟩
      · rw [h217] at f2
        injection f2 with f2
        rw [f1]
        simp only [structSet, ← f2, hx]
      · rw [h217] at f2; cases f2
    · intro hxn
      obtain ⟨x, rfl⟩ := Option.ne_none_iff_exists'.1 hxn
      cases y with
      | some y =>
        obtain ⟨w', s1, s2, s3, i, e, v, s4, s5, s6⟩ := (C70_set_partial r ht a b).1 _ _ hL
        refine ⟨w', _, s1, s3, by simp, by rw [(C70_get s3 ht).1 _ _ s2]; simp, i, e, v, s4, ?_, s6⟩
        rcases s5 with ⟨s5, _⟩ | ⟨s5, _⟩
        · exact .inl s5
        · exact .inr s5
      | none =>
        rcases World.first_value r ht 217 with ⟨ref, f1, flt, f2, f3⟩ | ⟨f1, f2⟩
        · rw [h217] at f2
          injection f2 with f2
          obtain ⟨u1, u2, u3⟩ := lookup_update hx (some (.int a))
          obtain ⟨g1, g2, g3, i, g4, g5⟩ := first_assign r ht (.fields (Rec.update rec "start" (some (.int a)))) f1
          refine ⟨w.setEv ref { w.ev ref with value := .fields (Rec.update rec "start" (some (.int a))) },
            .error .propertyCannotBeSet, ?_, g3, rfl, ?_, i, w.ev ref, _, g4, .inl f3, g5⟩
          · have hs : structSet (w.ev ref) "start" (some (.int a)) =
                .ok { w.ev ref with value := .fields (Rec.update rec "start" (some (.int a))) } := by
              simp only [structSet, ← f2, hx]
            have hev : (w.setEv ref { w.ev ref with value := .fields (Rec.update rec "start" (some (.int a))) }).ev ref =
                { w.ev ref with value := .fields (Rec.update rec "start" (some (.int a))) } := by
              rw [World.ev_setEv]; simp [flt]
            have hend : Rec.lookup (Rec.update rec "start" (some (.int a))) "end" = some none := by
              rw [u3 "end" (by decide), hy]
            unfold World.setLoopPos
            rw [World.contains_eq r ht, h217, if_pos Option.isSome_some, f1]
            dsimp only
            rw [hs]
            dsimp only
            rw [hev]
            simp only [structSet, hend]
          · refine (C70_get g3 ht).1 _ _ (.inl ⟨_, ?_, u1, ?_⟩)
            · rw [g1]; exact valueOf_setFirst_self (by rw [h217]; rfl)
            · rw [u3 "end" (by decide), hy]
              rfl
        · rw [h217] at f2; cases f2

example : Typed ((World.ofProject (Demo.loops [("start", some (.int 0)), ("end", none)])).events 0) ∧
    WReach (World.ofProject (Demo.loops [("start", some (.int 0)), ("end", none)])) (· = 0) ∧
    Loop ((World.ofProject (Demo.loops [("start", some (.int 0)), ("end", none)])).events 0) (some (.int 0)) none :=
  ⟨by
    intro e he
    have he : e ∈ (Demo.loops [("start", some (.int 0)), ("end", none)]).events := by
      rw [← ofProject_project (Demo.loops _)]; exact he
    simp only [Demo.loops, List.mem_cons, List.not_mem_nil, or_false] at he
    rcases he with rfl | rfl
    · exact ⟨by decide +kernel, _, _, rfl⟩
    · refine ⟨by decide +kernel, _, rfl, rfl, fun n f x h1 h2 => ?_⟩
      simp only [SName.fields, List.mem_cons, Prod.mk.injEq, List.not_mem_nil, or_false] at h1
      rcases h1 with ⟨rfl, rfl⟩ | ⟨rfl, rfl⟩
      · cases h2; exact (by decide : (0 : Int) ≤ 0)
      · exact (by cases h2), .parsed _, .inl ⟨_, rfl, rfl, rfl⟩⟩

/-! ### Saving pan and volume (C78) -/

theorem save_error_of_int [FloatEnv] {p : Project} {e : Event} (he : e ∈ p.events) {w : Nat} {sg : Bool} {n : Int}
    (hk : e.kind = .u8 ∧ w = 1 ∧ sg = false ∨ e.kind = .u16 ∧ w = 2 ∧ sg = false) (hv : e.value = .lv (.int n))
    (misfit : intFits w sg n = false) : ∃ x, saveBytes p = .error x := by
  cases hs : saveBytes p with
  | error x => exact ⟨x, rfl⟩
  | ok file =>
    obtain ⟨_, body, _, _, _, hb, _⟩ := save_split hs
    have := ((eventsBytes_ok hb).1 _ he).2
    have hpay : e.payload = .error .formatFieldError := by
      unfold Event.payload
      rw [hv]
      rcases hk with ⟨hk, rfl, rfl⟩ | ⟨hk, rfl, rfl⟩ <;> rw [hk] <;>
        simp only [Kind.build, Kind.leaf, leafBuild, intBuild_misfit misfit]
    rw [hpay] at this
    cases this

/-- C78, saving, for every number: in a channel without levels event, the assigned position is saved and read back if it fits
into every old event the channel has; otherwise saving raises. -/
theorem C78_saved_exact [FloatEnv] {w : World} {L : Nat → Prop} (r : WReach w L) {t : Nat} (ht : L t) (hst : Storable w)
    (k : Knob) (hlevels : valueOf (w.events t) 219 = none)
    (hold : (valueOf (w.events t) k.word).isSome ∨ (valueOf (w.events t) k.byte).isSome) (n : Int) (h0 : 0 ≤ n) :
    ∃ w', k.write w t (.int n) = (w', .ok ()) ∧ k.read w' t = .ok (some (.lv (.int n))) ∧
      if ((valueOf (w.events t) k.word).isSome → n < 65536) ∧ ((valueOf (w.events t) k.byte).isSome → n < 256)
      then ∀ file, saveBytes w'.project = .ok file → ReadBack w' file ∧ ∀ w₂ L₂ u, WReach w₂ L₂ → L₂ u →
        (w₂.events u).map observe = (w'.events t).map observe → k.read w₂ u = .ok (some (.lv (.int n)))
      else ∃ x, saveBytes w'.project = .error x := by
  have hty := storable_typed hst
  have hk : k.word ≠ 199 ∧ k.word ≠ 201 ∧ k.byte ≠ 199 ∧ k.byte ≠ 201 ∧ k.word ≠ k.byte ∧ k.word ≠ 219 ∧ k.byte ≠ 219 ∧
      enumType enums k.word = some .u16 ∧ enumType enums k.byte = some .u8 := by cases k <;> decide +kernel
  obtain ⟨k1, k2, k3, k4, k5, k6, k7, k8, k9⟩ := hk
  have hread : ∃ old, k.read w t = .ok (some old) := by
    have := level_eq r ht (k := k) (.inr ⟨hlevels, rfl⟩)
    cases hw : valueOf (w.events t) k.word with
    | some x => rw [hw] at this; exact ⟨x, this⟩
    | none =>
      rw [hw] at this hold
      cases hb : valueOf (w.events t) k.byte with
      | some x => rw [hb] at this; exact ⟨x, this⟩
      | none => rw [hb] at hold; rcases hold with h | h <;> cases h
  obtain ⟨old, hread⟩ := hread
  obtain ⟨w', a1, a2, a3, a4, a5⟩ := (C78_set r ht hty k n h0).1 old hread
  have hval : ∀ kk : Kind, (kk = .u16 ∨ kk = .u8) → ValueTyped kk (.lv (.int n)) := by
    intro kk hkk
    rcases hkk with rfl | rfl <;> (intro l hl; cases hl; exact ⟨_, rfl, h0⟩)
  have hset : k.write w t (.int n) = w.setAll t (.int n) [k.word, k.byte] := by
    rw [Knob.write_eq]
    unfold World.setLevel
    rw [← Knob.read_eq, hread]
    dsimp only
    rw [World.contains_eq r ht, hlevels, if_neg (by simp)]
  obtain ⟨w1, s1, s2, s3, s4, s5, s6, s7⟩ := setAll_two r ht k5 (.int n) hty k8 k9 (hval _ (.inl rfl)) (hval _ (.inr rfl))
  have hw1 : w1 = w' := by
    rw [hset, s1] at a1
    exact (Prod.mk.inj a1).1
  subst hw1
  refine ⟨w1, a1, a2, ?_⟩
  split
  · next fits =>
    have step : ∀ (w : World), WReach w L → Storable w → ∀ (id : Nat) (kk : Kind), enumType enums id = some kk →
        (kk = .u16 ∧ ((valueOf (w.events t) id).isSome → n < 65536) ∨ kk = .u8 ∧ ((valueOf (w.events t) id).isSome → n < 256)) →
        id ≠ 199 → id ≠ 201 → ∀ ids, ∃ w', w.setAll t (.int n) (id :: ids) = w'.setAll t (.int n) ids ∧ WReach w' L ∧
          Storable w' ∧ ∀ x, x ≠ id → valueOf (w'.events t) x = valueOf (w.events t) x := by
      intro w r hst id kk hkk hfit h199 h201 ids
      unfold World.setAll
      rw [World.contains_eq r ht]
      cases h : valueOf (w.events t) id with
      | none =>
        rw [if_neg (by simp)]
        refine ⟨w, ?_, r, hst, fun _ _ => rfl⟩
        cases ids <;> rfl
      | some x =>
        rw [if_pos Option.isSome_some]
        obtain ⟨w', s1, s2⟩ := setFirstVal_spec r ht (id := id) (by rw [h]; rfl) (.lv (.int n))
        rw [s1]
        refine ⟨w', by cases ids <;> rfl, s2.reach, ?_, fun x hx => by rw [s2.model, valueOf_setFirst_other hx]⟩
        refine assigned_storable s2 hst h199 h201 fun e he hid _ => ?_
        rw [storable_kind hst he (hid ▸ hkk)]
        rw [h] at hfit
        rcases hfit with ⟨rfl, hf⟩ | ⟨rfl, hf⟩
        · have := hf rfl
          exact ⟨_, rfl, by simp [leafValid, intFits]; omega⟩
        · have := hf rfl
          exact ⟨_, rfl, by simp [leafValid, intFits]; omega⟩
    obtain ⟨w2, b1, b2, b3, b4⟩ := step w r hst k.word .u16 k8 (.inl ⟨rfl, fits.1⟩) k1 k2 [k.byte]
    obtain ⟨w3, c1, c2, c3, c4⟩ := step w2 b2 b3 k.byte .u8 k9 (.inr ⟨rfl, by rw [b4 _ (Ne.symm k5)]; exact fits.2⟩) k3 k4 []
    have : w3 = w1 := by
      rw [b1, c1] at s1
      exact (Prod.mk.inj (show (w3, Except.ok ()) = (w1, .ok ()) from s1)).1
    subst this
    intro file hs
    refine ⟨storable_saved c3 hs, fun w₂ L₂ u r₂ hu hobs => level_eq r₂ hu (At_observe hobs (.inr ⟨?_, ?_⟩))⟩
    · rw [s5 219 (Ne.symm k6) (Ne.symm k7), hlevels]
    · rw [s6, s7]
      rcases hold with h | h
      · obtain ⟨x, hx⟩ := Option.isSome_iff_exists.1 h
        rw [hx]; rfl
      · obtain ⟨x, hx⟩ := Option.isSome_iff_exists.1 h
        rw [hx]
        cases valueOf (w.events t) k.word <;> rfl
  · next misfit =>
    have bad : ∀ (id : Nat) (kk : Kind), enumType enums id = some kk → valueOf (w1.events t) id = some (.lv (.int n)) →
        ∃ e ∈ w1.project.events, e.kind = kk ∧ e.value = .lv (.int n) := by
      intro id kk hkk hv
      obtain ⟨e, he, hid, hve⟩ := valueOf_mem hv
      have hep : e ∈ w1.project.events := by
        have he' : e ∈ w1.events t := he
        rw [World.events_eq] at he'
        obtain ⟨z, hz, rfl⟩ := List.mem_map.1 he'
        show _ ∈ w1.events 0
        rw [World.events_eq]
        exact List.mem_map.2 ⟨z, (wreach_sub s2 ht).1.mem hz, rfl⟩
      exact ⟨e, hep, (s4 e hep).1 kk (hid ▸ hkk), hve⟩
    rcases Classical.not_and_iff_not_or_not.1 misfit with h | h
    · obtain ⟨h, hn⟩ := Classical.not_imp.1 h
      obtain ⟨x, hx⟩ := Option.isSome_iff_exists.1 h
      obtain ⟨e, e1, e2, e3⟩ := bad k.word .u16 k8 (by rw [s6, hx]; rfl)
      exact save_error_of_int e1 (.inr ⟨e2, rfl, rfl⟩) e3 (by simp [intFits]; omega)
    · obtain ⟨h, hn⟩ := Classical.not_imp.1 h
      obtain ⟨x, hx⟩ := Option.isSome_iff_exists.1 h
      obtain ⟨e, e1, e2, e3⟩ := bad k.byte .u8 k9 (by rw [s7, hx]; rfl)
      exact save_error_of_int e1 (.inl ⟨e2, rfl, rfl⟩) e3 (by simp [intFits]; omega)

example [FloatEnv] : Storable (World.ofProject (Demo.oldPan 6400 64)) ∧
    valueOf ((World.ofProject (Demo.oldPan 6400 64)).events 0) 219 = none ∧
    (valueOf ((World.ofProject (Demo.oldPan 6400 64)).events 0) Knob.pan.word).isSome ∧
    (valueOf ((World.ofProject (Demo.oldPan 6400 64)).events 0) Knob.pan.byte).isSome := ⟨Demo.oldPan_storable, rfl, rfl, rfl⟩

/-! ### Reverb (C80) -/

namespace Spec

/-- Type and mix the number of the reverb event stands for, for any number. -/
def reverbAt (n : Int) : ReverbType × Int := if 65536 ≤ n then (.B, n - 65536) else (.A, n)

end Spec

theorem reverbAt_eq {w : World} {L : Nat → Prop} (r : WReach w L) {t : Nat} (ht : L t) {n : Int}
    (h : valueOf (w.events t) 139 = some (.lv (.int n))) :
    w.reverbType t = .ok (some (reverbAt n).1) ∧ w.reverbMix t = .ok (some (reverbAt n).2) := by
  have h1 : w.reverbVal t = .ok n := by
    unfold World.reverbVal
    rw [World.firstVal_eq r ht h]
  have h2 : w.reverbType t = .ok (some (reverbAt n).1) := by
    unfold World.reverbType
    rw [World.contains_eq r ht, h, if_pos Option.isSome_some, h1]
    simp only [Except.map, reverbAt]
    by_cases hn : 65536 ≤ n
    · rw [if_pos hn, if_pos (by show (65536 : Int) ≤ n; omega)]
    · rw [if_neg hn, if_neg (by show ¬ (65536 : Int) ≤ n; omega)]
  refine ⟨h2, ?_⟩
  unfold World.reverbMix
  rw [World.contains_eq r ht, h, if_pos Option.isSome_some, h1, h2]
  simp only [reverbAt]
  split
  · rfl
  · simp [ReverbType.value]

/-- C80, for every stored number `n` and every assigned value: assigning the type stores the mix, plus 65536 for type B; assigning a
mix `m` stores `n + m`.  What is read afterwards is what these numbers stand for.  So the assigned type is read back exactly if it is B
or the old mix was below 65536, and an assigned mix exactly if the old mix was 0 and the new one belongs to the same type. -/
theorem C80_exact {w : World} {L : Nat → Prop} (r : WReach w L) {t : Nat} (ht : L t) (n : Nat)
    (h : valueOf (w.events t) 139 = some (.lv (.int n))) :
    (∀ ty, ∃ w', w.setReverbType t ty = (w', .ok ()) ∧ WReach w' L ∧ ChangedOnly w w' t [139] ∧
      valueOf (w'.events t) 139 = some (.lv (.int ((reverbAt n).2 + if ty = .B then 65536 else 0))) ∧
      (w'.reverbType t = .ok (some ty) ↔ ty = .B ∨ (reverbAt n).2 < 65536)) ∧
    ∀ m, ∃ w', w.setReverbMix t m = (w', .ok ()) ∧ WReach w' L ∧ ChangedOnly w w' t [139] ∧
      valueOf (w'.events t) 139 = some (.lv (.int (n + m))) ∧
      w'.reverbType t = .ok (some (reverbAt (n + m)).1) ∧ w'.reverbMix t = .ok (some (reverbAt (n + m)).2) ∧
      (w'.reverbMix t = .ok (some m) ↔ n = 0 ∧ m < 65536 ∨ n = 65536 ∧ 0 ≤ m) := by
  obtain ⟨e1, e2⟩ := reverbAt_eq r ht h
  constructor
  · intro ty
    unfold World.setReverbType
    rw [e2]
    dsimp only
    obtain ⟨w', s1, s2⟩ := setFirstVal_spec r ht (id := 139) (by rw [h]; rfl) (.lv (.int (ty.value + (reverbAt n).2)))
    have hv : ty.value + (reverbAt n).2 = (reverbAt n).2 + if ty = .B then 65536 else 0 := by
      cases ty <;> simp [ReverbType.value, Int.add_comm]
    have hval : valueOf (w'.events t) 139 = some (.lv (.int ((reverbAt n).2 + if ty = .B then 65536 else 0))) := by
      rw [s2.model, valueOf_setFirst_self (by rw [h]; rfl), hv]
    refine ⟨w', s1, s2.reach, s2.changedOnly (by simp), hval, ?_⟩
    rw [(reverbAt_eq s2.reach ht hval).1]
    have h0 : 0 ≤ (reverbAt n).2 := by unfold reverbAt; split <;> simp <;> omega
    generalize (reverbAt n).2 = k at h0 ⊢
    unfold reverbAt
    cases ty
    · simp
      by_cases hk : 65536 ≤ k
      · rw [if_pos hk]; simp; omega
      · rw [if_neg hk]; simp; omega
    · simp [show (65536 : Int) ≤ k + 65536 by omega]
  · intro m
    unfold World.setReverbMix
    have h1 : w.reverbVal t = .ok n := by
      unfold World.reverbVal
      rw [World.firstVal_eq r ht h]
    rw [World.contains_eq r ht, h, if_pos Option.isSome_some, h1]
    dsimp only
    obtain ⟨w', s1, s2⟩ := setFirstVal_spec r ht (id := 139) (by rw [h]; rfl) (.lv (.int (n + m)))
    have hval : valueOf (w'.events t) 139 = some (.lv (.int (n + m))) := by
      rw [s2.model, valueOf_setFirst_self (by rw [h]; rfl)]
    obtain ⟨g1, g2⟩ := reverbAt_eq s2.reach ht hval
    refine ⟨w', s1, s2.reach, s2.changedOnly (by simp), hval, g1, g2, ?_⟩
    rw [g2]
    unfold reverbAt
    by_cases hk : 65536 ≤ (n : Int) + m
    · rw [if_pos hk]; simp; omega
    · rw [if_neg hk]; simp; omega

example [FloatEnv] : WReach (World.ofProject (Demo.reverb 10)) (· = 0) ∧
    valueOf ((World.ofProject (Demo.reverb 10)).events 0) 139 = some (.lv (.int (10 : Nat))) := ⟨.parsed _, rfl⟩

/-! ### Cuts inside a field (C39) -/

section
variable [FloatEnv]

/-- Complete fields of fixed widths, followed by other bytes: the fields are parsed, the other bytes are left over. -/
theorem complete_tail {len : Nat} {fs : Fields} {bs : Bytes} (h : Complete len fs bs)
    (hfix : ∀ x ∈ fs, ∀ l, present len x.2 = some l → fieldWidth l ≠ none) (tail : Bytes) :
    ∃ rec, structParse ⟨len⟩ fs (bs ++ tail) = .ok (rec, tail) ∧ structBuild ⟨len⟩ fs rec = .ok bs ∧
      rec.map Prod.fst = fs.map Prod.fst ∧
      ∀ x ∈ fs.zip rec, (present len x.1.2).isSome → x.2.2 ≠ none := by
  induction h with
  | done => exact ⟨[], rfl, rfl, rfl, by simp⟩
  | @field n f l fs chunk rest hp hw hc t ih =>
    obtain ⟨rec, h1, h2, h2', h3⟩ := ih fun x hx => hfix x (List.mem_cons_of_mem _ hx)
    have hw' : fieldWidth l = some chunk.length := by
      rcases hw with hw | ⟨hw, _⟩
      · exact hw
      · exact absurd hw (hfix (n, f) (by simp) l hp)
    obtain ⟨⟨v, hv⟩, hcan⟩ := leaf_complete (rest := rest ++ tail) (.inl hw') hc
    obtain ⟨pre, hpre, hb⟩ := leaf_canon hv hcan
    have hpc : pre = chunk := (List.append_cancel_right hpre).symm
    subst hpc
    rw [← List.append_assoc] at hv
    have hf : fldParse ⟨len⟩ f (pre ++ rest ++ tail) = .ok (some v, rest ++ tail) ∧ fldBuild ⟨len⟩ f (some v) = .ok pre := by
      cases f <;> simp only [present, Option.some.injEq] at hp
      · subst hp; simp only [fldParse, fldBuild]; rw [hv]; exact ⟨rfl, hb⟩
      · subst hp; simp only [fldParse, fldBuild]; rw [hv, hb]; exact ⟨rfl, rfl⟩
      · split at hp
        · next hl => cases hp; simp only [fldParse, fldBuild]; rw [if_pos hl, if_pos hl, hv]; exact ⟨rfl, hb⟩
        · cases hp
      · split at hp
        · next hl => cases hp; simp only [fldParse, fldBuild]; rw [if_pos hl, if_pos hl, hv]; exact ⟨rfl, hb⟩
        · cases hp
    refine ⟨(n, some v) :: rec, Drift.structParse_step hf.1 h1, Drift.structBuild_step hf.2 h2, by simp [h2'], ?_⟩
    intro x hx
    rw [List.zip_cons_cons] at hx
    rcases List.mem_cons.1 hx with rfl | hx
    · intro _; simp
    · exact h3 x hx
  | @skip n f fs bs hp t ih =>
    obtain ⟨rec, h1, h2, h2', h3⟩ := ih fun x hx => hfix x (List.mem_cons_of_mem _ hx)
    have hf : fldParse ⟨len⟩ f (bs ++ tail) = .ok (none, bs ++ tail) ∧ fldBuild ⟨len⟩ f none = .ok [] := by
      cases f <;> simp only [present, reduceCtorEq] at hp
      all_goals
        split at hp
        · cases hp
        · next hl => simp only [fldParse, fldBuild]; rw [if_neg hl, if_neg hl]; exact ⟨rfl, rfl⟩
    refine ⟨(n, none) :: rec, Drift.structParse_step hf.1 h1, Drift.structBuild_step hf.2 h2, by simp [h2'], ?_⟩
    intro x hx
    rw [List.zip_cons_cons] at hx
    rcases List.mem_cons.1 hx with rfl | hx
    · intro h; rw [hp] at h; cases h
    · exact h3 x hx

/-- C39, for every class and every cut inside a field: the data are the first fields, complete and canonical, and too few bytes for any
of the other fields, which are optional.  The bytes of the field that was cut are dropped: the field and all later ones are missing,
and serialising gives the bytes of the complete fields only. -/
theorem C39_inside_exact (s : SName) (front back : Fields) (bs tail : Bytes) (hs : s.fields = front ++ back)
    (hf : Complete (bs ++ tail).length front bs)
    (hfix : ∀ x ∈ front, ∀ l, present (bs ++ tail).length x.2 = some l → fieldWidth l ≠ none) (hne : tail ≠ [])
    (hb : ∀ x ∈ back, ∃ l w, x.2 = .opt l ∧ fieldWidth l = some w ∧ tail.length < w ∧ ∀ n, l ≠ .rawC n) :
    ∃ rec, Kind.parse (.struct s) (bs ++ tail) = .ok (.fields (rec ++ back.map fun x => (x.1, none))) ∧
      rec.map Prod.fst = front.map Prod.fst ∧
      (∀ x ∈ front.zip rec, (present (bs ++ tail).length x.1.2).isSome → x.2.2 ≠ none) ∧
      Kind.build (.struct s) (bs ++ tail).length (.fields (rec ++ back.map fun x => (x.1, none))) = .ok bs := by
  obtain ⟨rec, h1, h2, h2', h3⟩ := complete_tail hf hfix tail
  have hpos : 0 < tail.length := List.length_pos_iff.2 hne
  have hback : ∀ x ∈ back, ∀ cx : Ctx, fldParse cx x.2 tail = .ok (none, tail) ∧ fldBuild cx x.2 none = .ok [] := by
    intro x hx cx
    obtain ⟨l, w, h4, h5, h6, h7⟩ := hb x hx
    have hn : leafNeedsInput l = true := by
      cases l <;> simp only [fieldWidth, Option.some.injEq, reduceCtorEq] at h5 <;>
        simp only [leafNeedsInput, bne_iff_ne, ne_eq]
      case flag => omega
      case rawC n => exact absurd rfl (h7 n)
      all_goals omega
    have he : ∃ e, leafParse l tail = .error e := by
      refine leafParse_short (k := w) ?_ h6
      cases l <;> simp only [fieldWidth, reduceCtorEq] at h5 <;> simp only [leafSize] <;> first | exact h5 | exact absurd rfl (h7 _)
    obtain ⟨e, he⟩ := he
    rw [h4]
    simp only [fldParse, fldBuild]
    rw [he, leafBuild_none hn]
    exact ⟨rfl, rfl⟩
  have hpb : ∀ cx : Ctx, structParse cx back tail = .ok (back.map (fun x => (x.1, none)), tail) ∧
      structBuild cx back (back.map fun x => (x.1, none)) = .ok [] := by
    intro cx
    clear hs
    induction back with
    | nil => exact ⟨rfl, rfl⟩
    | cons x back ih =>
      obtain ⟨n, f⟩ := x
      obtain ⟨i1, i2⟩ := ih (fun y hy => hb y (by simp [hy])) (fun y hy => hback y (by simp [hy]))
      obtain ⟨j1, j2⟩ := hback (n, f) (by simp) cx
      exact ⟨Drift.structParse_step j1 i1, Drift.structBuild_step j2 i2⟩
  have happ : ∀ (cx : Ctx) (fs : Fields) (bs r : Bytes) (rec : Rec), structParse cx fs bs = .ok (rec, r) →
      ∀ rec' r', structParse cx back r = .ok (rec', r') → structParse cx (fs ++ back) bs = .ok (rec ++ rec', r') := by
    intro cx fs
    induction fs with
    | nil => intro bs r rec h; cases h; exact fun _ _ h => h
    | cons x fs ih =>
      intro bs r rec h rec' r' h'
      obtain ⟨n, f⟩ := x
      obtain ⟨v, m, rec1, g1, g2, rfl⟩ := structParse_cons h
      exact Drift.structParse_step g1 (ih m r rec1 g2 rec' r' h')
  refine ⟨rec, ?_, h2', h3, ?_⟩
  · simp only [Kind.parse]
    rw [hs, happ _ _ _ _ _ h1 _ _ (hpb _).1]; rfl
  · simp only [Kind.build]
    rw [hs, structBuild_append (by simpa using (congrArg List.length h2').symm), h2, (hpb _).2]
    simp [seqBuild]

/-- The level adjustments event cut in its third field. -/
example : ∃ front back, SName.levelAdjusts.fields = front ++ back ∧ back ≠ [] ∧
    Complete 10 front [1, 0, 0, 0, 2, 0, 0, 0] ∧
    (∀ x ∈ front, ∀ l, present 10 x.2 = some l → fieldWidth l ≠ none) ∧
    (∀ x ∈ back, ∃ l w, x.2 = .opt l ∧ fieldWidth l = some w ∧ ([7, 7] : Bytes).length < w ∧ ∀ n, l ≠ .rawC n) := by
  refine ⟨[("pan", .opt i32), ("volume", .opt u32)], [("_u1", .opt u32), ("mod_x", .opt i32), ("mod_y", .opt i32)],
    rfl, by simp, .field (chunk := [1, 0, 0, 0]) rfl (.inl rfl) trivial
      (.field (chunk := [2, 0, 0, 0]) (rest := []) rfl (.inl rfl) trivial .done), ?_, ?_⟩
  · intro x hx l hl
    simp only [List.mem_cons, List.not_mem_nil, or_false] at hx
    rcases hx with rfl | rfl <;> cases hl <;> exact fun h => nomatch h
  · intro x hx
    simp only [List.mem_cons, List.not_mem_nil, or_false] at hx
    rcases hx with rfl | rfl | rfl
    · exact ⟨u32, 4, rfl, rfl, by decide, by simp [PyFLP.u32]⟩
    · exact ⟨i32, 4, rfl, rfl, by decide, by simp [PyFLP.i32]⟩
    · exact ⟨i32, 4, rfl, rfl, by decide, by simp [PyFLP.i32]⟩

end

end PyFLP
