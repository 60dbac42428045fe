import Verif.Props.MixerParams
/-!
# The sends of an insert, whatever the records (C65)
-/

namespace PyFLP

open Spec

namespace Spec

/-- The `msg` of the last record about parameter `id` of insert `i`. -/
def lastMsg (l : List Rec) (i : Nat) (id : Int) : Option LV :=
  ((l.reverse.find? fun r => decide ((r.int "channel_data").toNat / 64 % 128 = i ∧ r.int "id" = id)).bind
    fun r => Rec.lookup r "msg").getD none

/-- What the code takes for the active sends: the parameters from 64 on of insert `i`, each once, in the order of their
first records, are matched with the flags one by one. -/
def activeSends (l : List Rec) (i : Nat) (flags : List Bool) : List (Option LV) :=
  ((sendIds l i).eraseDups.zip flags).filterMap fun x => if x.2 then some (lastMsg l i x.1) else none

end Spec

theorem eraseDups_snoc (as : List Int) (k : Int) :
    (as ++ [k]).eraseDups = if k ∈ as then as.eraseDups else as.eraseDups ++ [k] := by
  rw [List.eraseDups_append]
  by_cases h : k ∈ as
  · rw [if_pos h]
    simp [List.removeAll, h]
  · rw [if_neg h]
    simp [List.removeAll, h, List.eraseDups_cons]

theorem dictPut_keys {ν : Type} (k : Int) (v : ν) (d : List (Int × ν)) :
    (dictPut k v d).map Prod.fst = if k ∈ d.map Prod.fst then d.map Prod.fst else d.map Prod.fst ++ [k] := by
  induction d with
  | nil => rfl
  | cons a d ih =>
    obtain ⟨a, b⟩ := a
    unfold dictPut
    by_cases h : a = k
    · rw [if_pos h]; simp [h]
    · rw [if_neg h, List.map_cons, ih]
      have h' : k ≠ a := fun e => h e.symm
      by_cases hm : k ∈ d.map Prod.fst
      · rw [if_pos hm, if_pos (by simp only [List.map_cons, List.mem_cons]; exact .inr hm)]; rfl
      · rw [if_neg hm, if_neg (by simp only [List.map_cons, List.mem_cons, not_or]; exact ⟨h', hm⟩)]; rfl

theorem fold_sendKeys (l : List Rec) (i : Nat) : ∀ (n : Nat) (d : List (Nat × InsertItems)) (before : List Int),
    (sendsOf d i).map Prod.fst = before.eraseDups →
    (sendsOf ((l.zipIdx n).foldl paramStep d) i).map Prod.fst = (before ++ sendIds l i).eraseDups := by
  induction l with
  | nil => intro n d before h; simpa [sendIds] using h
  | cons r l ih =>
    intro n d before h
    rw [List.zipIdx_cons, List.foldl_cons]
    have hs : sendIds (r :: l) i = if paramInsert r = i ∧ 64 ≤ paramId r then paramId r :: sendIds l i else sendIds l i := by
      unfold sendIds
      rw [List.filter_cons, paramInsert_eq]
      unfold paramId
      simp only [decide_eq_true_eq]
      split <;> rfl
    rw [hs]
    by_cases hp : paramInsert r = i ∧ 64 ≤ paramId r
    · rw [if_pos hp, ih (n + 1) _ (before ++ [paramId r])]
      · rw [List.append_assoc]; rfl
      · rw [step_sends, if_pos hp, dictPut_keys, h, eraseDups_snoc]
        simp only [List.mem_eraseDups]
    · rw [if_neg hp]
      refine ih (n + 1) _ before ?_
      rw [step_sends, if_neg hp]
      exact h

theorem lastMsg_eq {l : List Rec} {i : Nat} {id : Int} {k : Nat} {r : Rec} (h : LastParam l i id k r) :
    lastMsg l i id = (Rec.lookup r "msg").getD none := by
  obtain ⟨h1, h2, h3⟩ := h
  obtain ⟨hlt, hr⟩ := List.getElem?_eq_some_iff.1 h1
  have hsplit : l = l.take k ++ r :: l.drop (k + 1) := by
    rw [← hr, List.getElem_cons_drop, List.take_append_drop]
  have hpost : ∀ x ∈ l.drop (k + 1), ¬ IsParam x i id := by
    intro x hx
    obtain ⟨j, hj⟩ := List.getElem?_of_mem hx
    rw [List.getElem?_drop] at hj
    exact h3 _ x (by omega) hj
  unfold lastMsg
  rw [hsplit, List.reverse_append, List.reverse_cons, List.append_assoc, List.find?_append, List.find?_eq_none.2]
  · rw [Option.none_or, List.singleton_append, List.find?_cons_of_pos (by exact decide_eq_true h2), Option.bind_some]
  · intro x hx hq
    exact hpost x (List.mem_reverse.1 hx) (by simpa [IsParam] using hq)

theorem routesLoop_all (p : ParamsObj) (m : Int → Option LV) (d : List (Int × Nat)) :
    ∀ flags, (∀ x ∈ d, 64 ≤ x.1 ∧ p.msg x.2 = .ok (m x.1)) →
      p.routesLoop d flags =
        .ok (((d.map Prod.fst).zip flags).filterMap fun x => if x.2 then some (m x.1) else none) := by
  induction d with
  | nil => intro flags _; rfl
  | cons a d ih =>
    intro flags hd
    obtain ⟨id, ref⟩ := a
    obtain ⟨h64, hm⟩ := hd (id, ref) (by simp)
    have hd' : ∀ x ∈ d, 64 ≤ x.1 ∧ p.msg x.2 = .ok (m x.1) := fun x hx => hd x (by simp [hx])
    cases flags with
    | nil =>
      rw [ParamsObj.routesLoop, if_pos h64]
      have := ih [] hd'
      simpa using this
    | cons f flags =>
      rw [ParamsObj.routesLoop, if_pos h64, ih flags hd', hm]
      cases f with
      | true => simp [Except.map]
      | false => simp

theorem sendIds_same {l : List Rec} {p : ParamsObj} (h : PInv l p) (i : Nat) : sendIds p.value i = sendIds l i := by
  have hpairs : p.value.map (fun x => (x.int "channel_data", x.int "id")) =
      l.map (fun x => (x.int "channel_data", x.int "id")) := by
    apply List.ext_getElem?
    intro k
    rw [List.getElem?_map, List.getElem?_map]
    by_cases hk : k < l.length
    · have hk' : k < p.data.objs.length := by rw [h.len]; exact hk
      obtain ⟨e1, e2⟩ := h.same k _ _ (List.getElem?_eq_getElem hk) (List.getElem?_eq_getElem hk')
      rw [pinv_value h, List.getElem?_eq_getElem hk, List.getElem?_eq_getElem hk']
      simp [e1, e2]
    · rw [List.getElem?_eq_none (by rw [pinv_length h]; omega), List.getElem?_eq_none (by omega)]
  have hgen : ∀ m : List Rec, sendIds m i =
      ((m.map (fun x => (x.int "channel_data", x.int "id"))).filter fun x : Int × Int =>
        decide (x.1.toNat / 64 % 128 = i ∧ 64 ≤ x.2)).map Prod.snd := by
    intro m
    unfold sendIds
    rw [List.filter_map, List.map_map]
    rfl
  rw [hgen, hgen, hpairs]

theorem dictGet_mem {ν : Type} {d : List (Int × ν)} (hn : (d.map Prod.fst).Nodup) {x : Int × ν} (hx : x ∈ d) :
    dictGet x.1 d = some x.2 := by
  induction d with
  | nil => cases hx
  | cons a d ih =>
    obtain ⟨a, b⟩ := a
    rw [List.map_cons, List.nodup_cons] at hn
    rcases List.mem_cons.1 hx with rfl | hx
    · rw [dictGet, if_pos rfl]
    · rw [dictGet, if_neg, ih hn.2 hx]
      intro e
      exact hn.1 (List.mem_map.2 ⟨x, hx, e.symm⟩)

theorem dictGet_filter {ν : Type} (q : Int → Bool) {k : Int} (hk : q k = true) (d : List (Int × ν)) :
    dictGet k (d.filter fun x => q x.1) = dictGet k d := by
  induction d with
  | nil => rfl
  | cons a d ih =>
    obtain ⟨a, b⟩ := a
    rw [List.filter_cons]
    by_cases hq : q a = true
    · rw [if_pos (by exact hq), dictGet, dictGet, ih]
    · rw [if_neg (by exact hq), ih, dictGet, if_neg]
      intro e
      exact hq (e ▸ hk)

theorem routes_exact {l : List Rec} {p : ParamsObj} (r : PReach l p) (i : Nat) (flags : List Bool)
    (hm : ∀ rec ∈ p.value, (Rec.lookup rec "msg").isSome) (hi : HasParams p.value i) :
    p.routes i (some flags) = .ok (activeSends p.value i flags) := by
  have h := preach_inv r
  have hkeys : (sendsOf p.items i).map Prod.fst = (sendIds p.value i).eraseDups := by
    rw [h.items, sendIds_same h]
    have := fold_sendKeys l i 0 [] [] (by rfl)
    simpa using this
  have hnodup : ((sendsOf p.items i).map Prod.fst).Nodup := by
    rw [hkeys]
    have : ∀ (n : Nat) (as : List Int), as.length ≤ n → as.eraseDups.Nodup := by
      intro n
      induction n with
      | zero =>
        intro as ha
        have : as = [] := List.length_eq_zero_iff.1 (by omega)
        rw [this]
        simp
      | succ n ih =>
        intro as ha
        cases as with
        | nil => simp
        | cons a as =>
          rw [List.eraseDups_cons, List.nodup_cons]
          refine ⟨?_, ih _ ?_⟩
          · rw [List.mem_eraseDups, List.mem_filter]
            simp
          · have := List.length_filter_le (fun b => !b == a) as
            simp only [List.length_cons] at ha
            omega
    exact this _ _ (Nat.le_refl _)
  obtain ⟨d, hd1, hd2⟩ : ∃ d, p.own i = .ok d ∧ (d.filter fun x => decide (64 ≤ x.1)) = sendsOf p.items i := by
    rcases own_cases h i (id := 2) (by decide) (by decide) with ⟨g, _⟩ | ⟨_, d, g1, _⟩
    · exact absurd hi g
    · refine ⟨d, g1, ?_⟩
      unfold ParamsObj.own at g1
      split at g1
      · next it hit =>
        cases g1
        unfold sendsOf
        rw [hit]
        rfl
      · cases g1
  unfold ParamsObj.routes
  dsimp only
  rw [hd1]
  dsimp only
  rw [routesLoop_filter, hd2, routesLoop_all p (lastMsg p.value i)]
  · rw [hkeys]; rfl
  · intro x hx
    have h64 : 64 ≤ x.1 := by
      rw [← hd2] at hx
      exact of_decide_eq_true (List.mem_filter.1 hx).2
    refine ⟨h64, ?_⟩
    have hget : dictGet x.1 d = some x.2 := by
      rw [← dictGet_filter (fun k => decide (64 ≤ k)) (decide_eq_true h64), hd2]
      exact dictGet_mem hnodup hx
    rcases own_cases h i (id := x.1) (by omega) (by omega) with ⟨g, _⟩ | ⟨_, d', g1, ⟨k, rec, g2, g3⟩ | ⟨_, g3⟩⟩
    · exact absurd hi g
    · rw [hd1] at g1
      cases g1
      rw [hget] at g3
      cases g3
      rw [msg_value h g2.1, lastMsg_eq g2]
      have := hm rec (List.mem_of_getElem? g2.1)
      cases hl : Rec.lookup rec "msg" with
      | none => rw [hl] at this; cases this
      | some v => rfl
    · rw [hd1] at g1
      cases g1
      rw [hget] at g3
      cases g3

/-- C65, what `insert.routes` is without any restriction, for the insert at position `i` whose events the view `u` shows,
after any assignments: the parameters from 64 on are matched with the flags one by one; a `KeyError` is raised without
routing flags, and if there are no parameters for the insert. -/
theorem C65_exact {w : World} {L : Nat → Prop} (r : WReach w L) {u : Nat} (hu : L u) {l : List Rec} {p : ParamsObj}
    (rp : PReach l p) (hm : ∀ rec ∈ p.value, (Rec.lookup rec "msg").isSome) (i : Nat) :
    ((∀ e ∈ w.events u, e.id ≠ 235) → w.insertRoutes u p i = .error .keyError) ∧
    (∀ pre e post flags, w.events u = pre ++ e :: post → e.id = 235 → (∀ x ∈ pre, x.id ≠ 235) → e.value = .flags flags →
      (¬ HasParams p.value i → w.insertRoutes u p i = .error .keyError) ∧
      (HasParams p.value i → w.insertRoutes u p i = .ok (activeSends p.value i flags))) := by
  constructor
  · intro hno
    unfold World.insertRoutes
    rcases World.first_value r hu 235 with ⟨ref, _, _, g2, _⟩ | ⟨g1, _⟩
    · exfalso
      unfold valueOf at g2
      rw [List.find?_eq_none.2 (fun x hx => by simpa using hno x hx)] at g2
      cases g2
    · rw [g1]; rfl
  · intro pre e post flags hev hid hpre hv
    have hval : valueOf (w.events u) 235 = some (.flags flags) := by
      unfold valueOf
      rw [hev, List.find?_append, List.find?_eq_none.2 (fun x hx => by simpa using hpre x hx)]
      simp [hid, hv]
    have hrw : w.insertRoutes u p i = p.routes i (some flags) := by
      unfold World.insertRoutes
      rcases World.first_value r hu 235 with ⟨ref, g1, _, g2, _⟩ | ⟨_, g2⟩
      · rw [g1]
        dsimp only
        rw [hval] at g2
        rw [← Option.some.inj g2]
      · rw [hval] at g2
        cases g2
    rw [hrw]
    refine ⟨fun hi => ?_, routes_exact rp i flags hm⟩
    unfold ParamsObj.routes
    rcases own_cases (preach_inv rp) i (id := 2) (by decide) (by decide) with ⟨_, g⟩ | ⟨g, _⟩
    · dsimp only; rw [g]
    · exact absurd g hi

namespace Demo

/-- One insert with three routing flags. -/
def routed : Project := ⟨0, 1, 96, [⟨235, .routing, .flags [true, false, true], 3⟩]⟩

end Demo

open Demo in
example : let l := [param 65 64 200, param 64 64 100, param 65 64 201, param 64 128 7, param 192 64 12800]
    (∀ rec ∈ l, (Rec.lookup rec "msg").isSome) ∧ (HasParams l 1) ∧
    activeSends l 1 [true, false, true] = [some (.int 201), some (.int 12800)] ∧
    (World.ofProject routed).insertRoutes 0 (.parse l) 1 = .ok [some (.int 201), some (.int 12800)] ∧
    (World.ofProject routed).insertRoutes 0 (.parse l) 3 = .error .keyError :=
  ⟨by decide, ⟨param 65 64 200, by decide, by decide⟩, by decide, by decide +kernel, by decide +kernel⟩

end PyFLP
