import Verif.MixerParams
import Verif.Props.Descriptors
import Verif.ProjectLemmas
import Verif.Props.Items
/-!
# Mixer parameters (C63 – C66)
-/

namespace PyFLP

open Spec

namespace Spec

/-- The record is about parameter `id` of the insert at position `i`: bits 6 – 12 of `channel_data`
are the insert. -/
def IsParam (r : Rec) (i : Nat) (id : Int) : Prop :=
  (r.int "channel_data").toNat / 64 % 128 = i ∧ r.int "id" = id

/-- The last record about parameter `id` of insert `i` is at position `k`. -/
def LastParam (l : List Rec) (i : Nat) (id : Int) (k : Nat) (r : Rec) : Prop :=
  l[k]? = some r ∧ IsParam r i id ∧ ∀ k' r', k < k' → l[k']? = some r' → ¬ IsParam r' i id

/-- Some record is about the insert at position `i`. -/
def HasParams (l : List Rec) (i : Nat) : Prop := ∃ r ∈ l, (r.int "channel_data").toNat / 64 % 128 = i

/-- A program that parsed the records `l` and assigned mixer parameters and EQ parameters of
inserts. -/
inductive PReach (l : List Rec) : ParamsObj → Prop
  | parsed : PReach l (.parse l)
  | set {p} (r : PReach l p) (i : Nat) (id : Int) (x : Option LV) : PReach l (p.set i id x).1
  | eqSet {p} (r : PReach l p) (i : Nat) (id : Int) (x : Option LV) : PReach l (p.eqSet i id x).1

end Spec

theorem dictGet_put {κ ν : Type} [DecidableEq κ] (k k' : κ) (v : ν) (d : List (κ × ν)) :
    dictGet k' (dictPut k v d) = if k = k' then some v else dictGet k' d := by
  induction d with
  | nil => simp [dictPut, dictGet]
  | cons a d ih =>
    obtain ⟨a, b⟩ := a
    unfold dictPut
    by_cases h : a = k
    · rw [if_pos h]
      by_cases h' : k = k'
      · simp [dictGet, h']
      · have : a ≠ k' := fun e => h' (h.symm.trans e)
        simp [dictGet, h', this]
    · rw [if_neg h]
      by_cases h' : a = k'
      · have : k ≠ k' := fun e => h (h'.trans e.symm)
        simp [dictGet, h', this]
      · rw [dictGet, if_neg h', ih, dictGet, if_neg h']

/-- Parameter `id` of insert `i` in the dictionaries. -/
def ownRef (d : List (Nat × InsertItems)) (i : Nat) (id : Int) : Option Nat :=
  (dictGet i d).bind fun it => dictGet id it.own

theorem paramInsert_eq (r : Rec) : paramInsert r = (r.int "channel_data").toNat / 64 % 128 := by
  unfold paramInsert
  rw [Nat.shiftRight_eq_div_pow, show (0x7F : Nat) = 2 ^ 7 - 1 by rfl, Nat.and_two_pow_sub_one_eq_mod]

theorem step_own (d : List (Nat × InsertItems)) (x : Rec × Nat) (i : Nat) {id : Int} (h0 : id ≠ 0) (h1 : id ≠ 1) :
    ownRef (paramStep d x) i id = if paramInsert x.1 = i ∧ paramId x.1 = id then some x.2 else ownRef d i id := by
  unfold ownRef paramStep
  dsimp only
  split
  · next h =>
    have hne : paramId x.1 ≠ id := by rcases h with h | h <;> rw [h] <;> omega
    rw [if_neg (fun g : paramInsert x.1 = i ∧ paramId x.1 = id => hne g.2), dictGet_put]
    split
    · next e =>
      rw [e]
      cases dictGet i d <;> rfl
    · rfl
  · rw [dictGet_put]
    by_cases e : paramInsert x.1 = i
    · simp only [e, if_true, true_and, Option.bind_some, dictGet_put]
      split
      · rfl
      · cases dictGet i d <;> rfl
    · simp [e]

theorem step_has (d : List (Nat × InsertItems)) (x : Rec × Nat) (i : Nat) :
    (dictGet i (paramStep d x)).isSome = (decide (paramInsert x.1 = i) || (dictGet i d).isSome) := by
  unfold paramStep
  dsimp only
  split <;> rw [dictGet_put] <;> split <;> simp_all

theorem fold_own (l : List Rec) (i : Nat) {id : Int} (h0 : id ≠ 0) (h1 : id ≠ 1) :
    ∀ (n : Nat) (d : List (Nat × InsertItems)),
      (∃ k r, LastParam l i id k r ∧ ownRef ((l.zipIdx n).foldl paramStep d) i id = some (n + k)) ∨
      ((∀ r ∈ l, ¬ IsParam r i id) ∧ ownRef ((l.zipIdx n).foldl paramStep d) i id = ownRef d i id) := by
  induction l with
  | nil => intro n d; exact .inr ⟨by simp, rfl⟩
  | cons r l ih =>
    intro n d
    rw [List.zipIdx_cons, List.foldl_cons]
    rcases ih (n + 1) (paramStep d (r, n)) with ⟨k, r', ⟨g1, g2, g3⟩, g4⟩ | ⟨g1, g2⟩
    · refine .inl ⟨k + 1, r', ⟨by simpa using g1, g2, ?_⟩, by rw [g4]; congr 1; omega⟩
      intro k' r'' hk hr
      cases k' with
      | zero => omega
      | succ k' => exact g3 k' r'' (by omega) (by simpa using hr)
    · rw [g2, step_own _ _ _ h0 h1]
      have hiff : (paramInsert r = i ∧ paramId r = id) ↔ IsParam r i id := by
        unfold IsParam
        rw [paramInsert_eq]
        rfl
      by_cases hp : IsParam r i id
      · rw [if_pos (hiff.2 hp)]
        refine .inl ⟨0, r, ⟨by simp, hp, ?_⟩, by simp⟩
        intro k' r'' hk hr
        cases k' with
        | zero => omega
        | succ k' => exact g1 r'' (List.mem_of_getElem? (by simpa using hr))
      · rw [if_neg (fun h => hp (hiff.1 h))]
        refine .inr ⟨?_, rfl⟩
        intro r'' hr
        rcases List.mem_cons.1 hr with rfl | hr
        · exact hp
        · exact g1 r'' hr

theorem fold_has (l : List Rec) (i : Nat) : ∀ (n : Nat) (d : List (Nat × InsertItems)),
    (dictGet i ((l.zipIdx n).foldl paramStep d)).isSome = true ↔ (HasParams l i ∨ (dictGet i d).isSome = true) := by
  induction l with
  | nil => intro n d; simp [HasParams]
  | cons r l ih =>
    intro n d
    rw [List.zipIdx_cons, List.foldl_cons, ih, step_has]
    simp only [HasParams, List.mem_cons, Bool.or_eq_true, decide_eq_true_eq, paramInsert_eq]
    constructor
    · rintro (⟨x, hx, e⟩ | e | e)
      · exact .inl ⟨x, .inr hx, e⟩
      · exact .inl ⟨r, .inl rfl, e⟩
      · exact .inr e
    · rintro (⟨x, rfl | hx, e⟩ | e)
      · exact .inr (.inl e)
      · exact .inl ⟨x, hx, e⟩
      · exact .inr (.inr e)

theorem int_put {r : Rec} {key key' : String} (h : key ≠ key') (x : Option LV) :
    (Rec.put r key x).int key' = r.int key' := by
  unfold Rec.int
  rw [show Rec.lookup (Rec.put r key x) key' = Rec.lookup r key' from (lookup_put r key x).2 key' (fun e => h e.symm)]

/-- The state of the event object after any assignments. -/
structure PInv (l : List Rec) (p : ParamsObj) : Prop where
  list : p.data.list = List.range l.length
  len : p.data.objs.length = l.length
  items : p.items = l.zipIdx.foldl paramStep []
  same : ∀ (k : Nat) (r r' : Rec), l[k]? = some r → p.data.objs[k]? = some r' →
    r'.int "channel_data" = r.int "channel_data" ∧ r'.int "id" = r.int "id"

theorem pinv_setMsg {l : List Rec} {p : ParamsObj} (h : PInv l p) (ref : Nat) (x : Option LV) : PInv l (p.setMsg ref x) where
  list := h.list
  len := by simpa [ParamsObj.setMsg] using h.len
  items := h.items
  same := by
    intro k r r' hr hr'
    simp only [ParamsObj.setMsg] at hr'
    rw [List.getElem?_set] at hr'
    split at hr'
    · next e =>
      subst e
      split at hr'
      · next hlt =>
        cases hr'
        rw [int_put (by decide), int_put (by decide), List.getD_eq_getElem?_getD, List.getElem?_eq_getElem hlt,
          Option.getD_some]
        exact h.same ref r _ hr (List.getElem?_eq_getElem hlt)
      · cases hr'
    · exact h.same k r r' hr hr'

theorem preach_inv {l : List Rec} {p : ParamsObj} (r : PReach l p) : PInv l p := by
  induction r with
  | parsed =>
    refine ⟨rfl, rfl, rfl, ?_⟩
    intro k r r' h h'
    have : r = r' := by
      have h2 : l[k]? = some r' := h'
      rw [h] at h2
      exact Option.some.inj h2
    subst this
    exact ⟨rfl, rfl⟩
  | set r i id x ih =>
    unfold ParamsObj.set
    split
    · exact ih
    · split
      · exact pinv_setMsg ih _ _
      · exact ih
  | eqSet r i id x ih =>
    unfold ParamsObj.eqSet
    split
    · exact ih
    · split
      · exact pinv_setMsg ih _ _
      · exact ih

theorem pinv_value {l : List Rec} {p : ParamsObj} (h : PInv l p) : p.value = p.data.objs := by
  unfold ParamsObj.value ListObj.value
  rw [h.list]
  apply List.ext_getElem
  · simp [h.len]
  · intro k h1 h2
    simp [List.getD_eq_getElem?_getD, h2]

theorem pinv_param {l : List Rec} {p : ParamsObj} (h : PInv l p) {k : Nat} {r r' : Rec} (hr : l[k]? = some r)
    (hr' : p.value[k]? = some r') (i : Nat) (id : Int) : IsParam r' i id ↔ IsParam r i id := by
  rw [pinv_value h] at hr'
  obtain ⟨e1, e2⟩ := h.same k r r' hr hr'
  unfold IsParam
  rw [e1, e2]

theorem pinv_length {l : List Rec} {p : ParamsObj} (h : PInv l p) : p.value.length = l.length := by
  rw [pinv_value h, h.len]

theorem pinv_last {l : List Rec} {p : ParamsObj} (h : PInv l p) {i : Nat} {id : Int} {k : Nat} {r : Rec}
    (hl : LastParam l i id k r) : ∃ r', LastParam p.value i id k r' := by
  obtain ⟨g1, g2, g3⟩ := hl
  obtain ⟨hlt, _⟩ := List.getElem?_eq_some_iff.1 g1
  have hlt' : k < p.value.length := by rw [pinv_length h]; exact hlt
  refine ⟨p.value[k], List.getElem?_eq_getElem hlt', ?_, ?_⟩
  · exact (pinv_param h g1 (List.getElem?_eq_getElem hlt') i id).2 g2
  · intro k' r' hk hr' hp
    obtain ⟨hlt2, _⟩ := List.getElem?_eq_some_iff.1 hr'
    rw [pinv_length h] at hlt2
    exact g3 k' _ hk (List.getElem?_eq_getElem hlt2) ((pinv_param h (List.getElem?_eq_getElem hlt2) hr' i id).1 hp)

theorem last_unique {l : List Rec} {i : Nat} {id : Int} {k k' : Nat} {r r' : Rec} (h : LastParam l i id k r)
    (h' : LastParam l i id k' r') : k = k' ∧ r = r' := by
  have : k = k' := by
    rcases Nat.lt_trichotomy k k' with hlt | rfl | hlt
    · exact absurd h'.2.1 (h.2.2 k' r' hlt h'.1)
    · rfl
    · exact absurd h.2.1 (h'.2.2 k r hlt h.1)
  subst this
  have := h.1.symm.trans h'.1
  exact ⟨rfl, Option.some.inj this⟩

/-- The three cases for parameter `id` of insert `i`. -/
theorem own_cases {l : List Rec} {p : ParamsObj} (h : PInv l p) (i : Nat) {id : Int} (h0 : id ≠ 0) (h1 : id ≠ 1) :
    (¬ HasParams p.value i ∧ p.own i = .error .keyError) ∨
    (HasParams p.value i ∧ ∃ d, p.own i = .ok d ∧
      ((∃ k r, LastParam p.value i id k r ∧ dictGet id d = some k) ∨
       ((∀ r ∈ p.value, ¬ IsParam r i id) ∧ dictGet id d = none))) := by
  have hh : HasParams p.value i ↔ HasParams l i := by
    unfold HasParams
    constructor
    · rintro ⟨r, hr, e⟩
      obtain ⟨k, hk⟩ := List.getElem?_of_mem hr
      obtain ⟨hlt, _⟩ := List.getElem?_eq_some_iff.1 hk
      rw [pinv_length h] at hlt
      rw [pinv_value h] at hk
      refine ⟨l[k], List.getElem_mem _, ?_⟩
      rw [← (h.same k _ r (List.getElem?_eq_getElem hlt) hk).1]
      exact e
    · rintro ⟨r, hr, e⟩
      obtain ⟨k, hk⟩ := List.getElem?_of_mem hr
      obtain ⟨hlt, _⟩ := List.getElem?_eq_some_iff.1 hk
      rw [← h.len] at hlt
      refine ⟨p.data.objs[k], by rw [pinv_value h]; exact List.getElem_mem _, ?_⟩
      rw [(h.same k r _ hk (List.getElem?_eq_getElem hlt)).1]
      exact e
  have hf := fold_has l i 0 []
  have ho := fold_own l i h0 h1 0 []
  rw [← h.items] at hf ho
  unfold ParamsObj.own
  cases hd : dictGet i p.items with
  | none =>
    left
    refine ⟨fun g => ?_, rfl⟩
    have := hf.2 (.inl (hh.1 g))
    rw [hd] at this
    cases this
  | some it =>
    right
    have hs : HasParams l i := by
      rcases hf.1 (by rw [hd]; rfl) with g | g
      · exact g
      · cases g
    refine ⟨hh.2 hs, it.own, rfl, ?_⟩
    have he : ownRef p.items i id = dictGet id it.own := by unfold ownRef; rw [hd]; rfl
    rw [he] at ho
    rcases ho with ⟨k, r, g1, g2⟩ | ⟨g1, g2⟩
    · left
      obtain ⟨r', hr'⟩ := pinv_last h g1
      exact ⟨k, r', hr', by rw [g2]; congr 1; omega⟩
    · right
      refine ⟨?_, g2⟩
      intro r hr
      obtain ⟨k, hk⟩ := List.getElem?_of_mem hr
      obtain ⟨hlt, _⟩ := List.getElem?_eq_some_iff.1 hk
      rw [pinv_length h] at hlt
      rw [pinv_param h (List.getElem?_eq_getElem hlt) hk]
      exact g1 _ (List.getElem_mem _)

theorem setMsg_value {l : List Rec} {p : ParamsObj} (h : PInv l p) {k : Nat} {r : Rec} (hr : p.value[k]? = some r)
    (x : Option LV) : (p.setMsg k x).value = p.value.set k (Rec.put r "msg" x) := by
  rw [pinv_value (pinv_setMsg h k x), pinv_value h]
  rw [pinv_value h] at hr
  simp [ParamsObj.setMsg, List.getD_eq_getElem?_getD, hr]

theorem msg_value {l : List Rec} {p : ParamsObj} (h : PInv l p) {k : Nat} {r : Rec} (hr : p.value[k]? = some r) :
    p.msg k = match Rec.lookup r "msg" with | some v => .ok v | none => .error .keyError := by
  rw [pinv_value h] at hr
  simp only [ParamsObj.msg, List.getD_eq_getElem?_getD, hr, Option.getD_some]
  cases Rec.lookup r "msg" <;> rfl

/-! ### C63 -/

/-- C63. After any assignments, a parameter (`pan`, `volume`, `stereo_separation`: `id` 193, 192, 194) of
an insert some record is about: it is the `msg` of the last record about this parameter of this insert,
assigning changes the `msg` of this record and no other, and the new value is read back; without such a
record the parameter is `None`, and assigning raises `PropertyCannotBeSet` and changes nothing.
Missing: inserts without any record, see `C63_params_refuted`. -/
theorem C63_params_partial {l : List Rec} {p : ParamsObj} (r : PReach l p) {i : Nat} {id : Int} (h0 : id ≠ 0) (h1 : id ≠ 1)
    (hi : HasParams p.value i) (x : Option LV) :
    (∃ k rec, LastParam p.value i id k rec ∧ (∀ v, Rec.lookup rec "msg" = some v → p.get i id = .ok v) ∧
      ∃ p', p.set i id x = (p', .ok ()) ∧ p'.value = p.value.set k (Rec.put rec "msg" x) ∧ p'.get i id = .ok x) ∨
    ((∀ rec ∈ p.value, ¬ IsParam rec i id) ∧ p.get i id = .ok none ∧
      p.set i id x = (p, .error .propertyCannotBeSet)) := by
  have h := preach_inv r
  rcases own_cases h i h0 h1 with ⟨g, _⟩ | ⟨_, d, g1, ⟨k, rec, g2, g3⟩ | ⟨g2, g3⟩⟩
  · exact absurd hi g
  · left
    refine ⟨k, rec, g2, ?_, p.setMsg k x, ?_, setMsg_value h g2.1 x, ?_⟩
    · intro v hv
      unfold ParamsObj.get
      rw [g1]
      dsimp only
      rw [g3]
      dsimp only
      rw [msg_value h g2.1, hv]
    · unfold ParamsObj.set
      rw [g1]
      dsimp only
      rw [g3]
    · have h' := pinv_setMsg h k x
      have e : (p.setMsg k x).own i = p.own i := rfl
      unfold ParamsObj.get
      rw [e, g1]
      dsimp only
      rw [g3]
      dsimp only
      have hv : (p.setMsg k x).value[k]? = some (Rec.put rec "msg" x) := by
        obtain ⟨hlt, _⟩ := List.getElem?_eq_some_iff.1 g2.1
        rw [setMsg_value h g2.1, List.getElem?_set]
        simp [hlt]
      rw [msg_value h' hv, (lookup_put _ _ _).1]
  · right
    refine ⟨g2, ?_, ?_⟩
    · unfold ParamsObj.get
      rw [g1]
      dsimp only
      rw [g3]
    · unfold ParamsObj.set
      rw [g1]
      dsimp only
      rw [g3]

/-- C63 is false for every insert without any record: reading and assigning raise `KeyError`. -/
theorem C63_params_refuted {l : List Rec} {p : ParamsObj} (r : PReach l p) {i : Nat} (id : Int) (hi : ¬ HasParams p.value i)
    (x : Option LV) : p.get i id = .error .keyError ∧ p.set i id x = (p, .error .keyError) := by
  have h := preach_inv r
  rcases own_cases h i (id := 2) (by decide) (by decide) with ⟨_, g⟩ | ⟨g, _⟩
  · unfold ParamsObj.get ParamsObj.set
    rw [g]
    exact ⟨rfl, rfl⟩
  · exact absurd g hi

/-- C63. The same for the bands of the equaliser (`gain`, `freq`, `reso` of `low`, `mid`, `high`; ids 208 – 210,
216 – 218, 224 – 226). -/
theorem C63_eq_partial {l : List Rec} {p : ParamsObj} (r : PReach l p) {i : Nat} {id : Int} (h0 : id ≠ 0) (h1 : id ≠ 1)
    {k : Nat} {rec : Rec} (hl : LastParam p.value i id k rec) (x : Option LV) :
    (∀ v, Rec.lookup rec "msg" = some v → p.eqGet i id = .ok v) ∧
      ∃ p', p.eqSet i id x = (p', .ok ()) ∧ p'.value = p.value.set k (Rec.put rec "msg" x) ∧ p'.eqGet i id = .ok x := by
  have h := preach_inv r
  rcases own_cases h i h0 h1 with ⟨g, _⟩ | ⟨_, d, g1, ⟨k', rec', g2, g3⟩ | ⟨g2, g3⟩⟩
  · exact absurd ⟨rec, List.mem_of_getElem? hl.1, hl.2.1.1⟩ g
  · obtain ⟨rfl, rfl⟩ := last_unique hl g2
    refine ⟨?_, p.setMsg k x, ?_, setMsg_value h g2.1 x, ?_⟩
    · intro v hv
      unfold ParamsObj.eqGet
      rw [g1]
      dsimp only
      rw [g3]
      dsimp only
      rw [msg_value h g2.1, hv]
    · unfold ParamsObj.eqSet
      rw [g1]
      dsimp only
      rw [g3]
    · have h' := pinv_setMsg h k x
      have e : (p.setMsg k x).own i = p.own i := rfl
      unfold ParamsObj.eqGet
      rw [e, g1]
      dsimp only
      rw [g3]
      dsimp only
      have hv : (p.setMsg k x).value[k]? = some (Rec.put rec "msg" x) := by
        obtain ⟨hlt, _⟩ := List.getElem?_eq_some_iff.1 g2.1
        rw [setMsg_value h g2.1, List.getElem?_set]
        simp [hlt]
      rw [msg_value h' hv, (lookup_put _ _ _).1]
  · exact absurd hl.2.1 (g2 rec (List.mem_of_getElem? hl.1))

/-- C63 is false for the equaliser without a record: `KeyError`, neither `None` nor `PropertyCannotBeSet`. -/
theorem C63_eq_refuted {l : List Rec} {p : ParamsObj} (r : PReach l p) {i : Nat} {id : Int} (h0 : id ≠ 0) (h1 : id ≠ 1)
    (hn : ∀ rec ∈ p.value, ¬ IsParam rec i id) (x : Option LV) :
    p.eqGet i id = .error .keyError ∧ p.eqSet i id x = (p, .error .keyError) := by
  have h := preach_inv r
  unfold ParamsObj.eqGet ParamsObj.eqSet
  rcases own_cases h i h0 h1 with ⟨_, g⟩ | ⟨_, d, g1, ⟨k', rec', g2, g3⟩ | ⟨g2, g3⟩⟩
  · rw [g]
    exact ⟨rfl, rfl⟩
  · exact absurd g2.2.1 (hn rec' (List.mem_of_getElem? g2.1))
  · rw [g1]
    dsimp only
    rw [g3]
    exact ⟨rfl, rfl⟩

namespace Demo

def param (id cd msg : Int) : Rec := [("_u4", some (.bytes [0, 0, 0, 0])), ("id", some (.int id)), ("_u1", some (.int 0x1F)),
  ("channel_data", some (.int cd)), ("msg", some (.int msg))]

/-- Two records about the volume of insert 1, one about its pan, one about its first send and one about the volume
of insert 2. -/
def mixerParams : List Rec := [param 192 64 12800, param 193 64 0, param 192 128 8000, param 192 64 9000,
  param 64 64 5]

end Demo

open Demo in
example : PReach mixerParams (ParamsObj.set (.parse mixerParams) 1 193 (some (.int 7))).1 ∧
    HasParams mixerParams 1 ∧ LastParam mixerParams 1 192 3 (param 192 64 9000) ∧
    (ParamsObj.parse mixerParams).get 1 192 = .ok (some (.int 9000)) ∧
    (ParamsObj.parse mixerParams).get 1 194 = .ok none ∧ ¬ HasParams mixerParams 0 := by
  refine ⟨.set .parsed 1 193 _, ⟨param 192 64 12800, by simp [mixerParams], by decide⟩,
    ⟨by decide, ⟨by decide, by decide⟩, ?_⟩, by decide, by decide, ?_⟩
  · intro k' r' hk hr
    match k', hk with
    | 4, _ =>
      have : r' = param 64 64 5 := by
        have h : mixerParams[4]? = some (param 64 64 5) := by decide
        rw [h] at hr
        exact (Option.some.inj hr).symm
      subst this
      exact fun h => absurd h.2 (by decide)
    | k + 5, _ => simp [mixerParams] at hr
  · rintro ⟨r, hr, e⟩
    simp only [mixerParams, List.mem_cons, List.not_mem_nil, or_false] at hr
    rcases hr with rfl | rfl | rfl | rfl | rfl <;> revert e <;> decide

/-! ### C64 -/

/-- C64 is false in every project: `slot.enabled` and `slot.mix` cannot be read, whatever records there are. -/
theorem C64_slot_params_refuted (p : ParamsObj) (i slot : Nat) (id : Int) :
    p.slotGet i slot id = .error .attributeError ∨ p.slotGet i slot id = .error .keyError := by
  unfold ParamsObj.slotGet
  cases h : p.own i with
  | ok d => exact .inl rfl
  | error e =>
    right
    unfold ParamsObj.own at h
    split at h
    · cases h
    · cases h
      rfl

open Demo in
example : (ParamsObj.parse [param 0 64 1, param 1 64 12800]).slotGet 1 0 0 = .error .attributeError := by decide

namespace Spec

/-- The record is about parameter `id` of slot `s` of insert `i`: bits 0 – 5 of `channel_data` are the slot, bits 6 – 12 the
insert; slots have the parameters 0 (enabled) and 1 (mix). -/
def IsSlotParam (r : Rec) (i s : Nat) (id : Int) : Prop :=
  (r.int "channel_data").toNat / 64 % 128 = i ∧ (r.int "channel_data").toNat % 64 = s ∧ r.int "id" = id

/-- The last record about parameter `id` of slot `s` of insert `i` is at position `k`. -/
def LastSlotParam (l : List Rec) (i s : Nat) (id : Int) (k : Nat) : Prop :=
  (∃ r, l[k]? = some r ∧ IsSlotParam r i s id) ∧ ∀ k' r', k < k' → l[k']? = some r' → ¬ IsSlotParam r' i s id

end Spec

/-- `event.items[i].slots[s][id]` (`mixer.py:117-149`): the position of the record it refers to. -/
def slotRef (d : List (Nat × InsertItems)) (i s : Nat) (id : Int) : Option Nat :=
  (dictGet i d).bind fun it => (dictGet s it.slots).bind fun x => dictGet id x

theorem paramSlot_eq (r : Rec) : paramSlot r = (r.int "channel_data").toNat % 64 := by
  unfold paramSlot
  rw [show (0x3F : Nat) = 2 ^ 6 - 1 by rfl, Nat.and_two_pow_sub_one_eq_mod]

theorem step_slot (d : List (Nat × InsertItems)) (x : Rec × Nat) (i s : Nat) (id : Int) :
    slotRef (paramStep d x) i s id =
      if (paramInsert x.1 = i ∧ paramSlot x.1 = s ∧ paramId x.1 = id) ∧ (id = 0 ∨ id = 1) then some x.2 else slotRef d i s id := by
  unfold slotRef paramStep
  dsimp only
  split
  · next h =>
    rw [dictGet_put]
    by_cases e : paramInsert x.1 = i
    · simp only [e, if_true, true_and, Option.bind_some, dictGet_put]
      by_cases e' : paramSlot x.1 = s
      · simp only [e', if_true, true_and, Option.bind_some, dictGet_put]
        by_cases e'' : paramId x.1 = id
        · rw [if_pos e'', if_pos ⟨e'', e'' ▸ h⟩]
        · rw [if_neg e'', if_neg (fun g => e'' g.1)]
          cases dictGet i d with
          | none => rfl
          | some it => cases hs : dictGet s it.slots <;> simp [hs, dictGet]
      · rw [if_neg e', if_neg (fun g => e' g.1.1)]
        cases dictGet i d <;> rfl
    · rw [if_neg e, if_neg (fun g => e g.1.1)]
  · next h =>
    have hn : ¬ ((paramInsert x.1 = i ∧ paramSlot x.1 = s ∧ paramId x.1 = id) ∧ (id = 0 ∨ id = 1)) := by
      rintro ⟨⟨-, -, g⟩, g'⟩
      exact h (g ▸ g')
    rw [if_neg hn, dictGet_put]
    split
    · next e =>
      rw [e]
      cases dictGet i d <;> rfl
    · rfl

theorem fold_slot (l : List Rec) (i s : Nat) {id : Int} (h01 : id = 0 ∨ id = 1) :
    ∀ (n : Nat) (d : List (Nat × InsertItems)),
      (∃ k, LastSlotParam l i s id k ∧ slotRef ((l.zipIdx n).foldl paramStep d) i s id = some (n + k)) ∨
      ((∀ r ∈ l, ¬ IsSlotParam r i s id) ∧ slotRef ((l.zipIdx n).foldl paramStep d) i s id = slotRef d i s id) := by
  induction l with
  | nil => intro n d; exact .inr ⟨by simp, rfl⟩
  | cons r l ih =>
    intro n d
    rw [List.zipIdx_cons, List.foldl_cons]
    rcases ih (n + 1) (paramStep d (r, n)) with ⟨k, ⟨⟨r', g1, g2⟩, g3⟩, g4⟩ | ⟨g1, g2⟩
    · refine .inl ⟨k + 1, ⟨⟨r', by simpa using g1, g2⟩, ?_⟩, by rw [g4]; congr 1; omega⟩
      intro k' r'' hk hr
      cases k' with
      | zero => omega
      | succ k' => exact g3 k' r'' (by omega) (by simpa using hr)
    · rw [g2, step_slot]
      have hiff : ((paramInsert r = i ∧ paramSlot r = s ∧ paramId r = id) ∧ (id = 0 ∨ id = 1)) ↔ IsSlotParam r i s id := by
        unfold IsSlotParam
        rw [paramInsert_eq, paramSlot_eq, and_iff_left h01]
        rfl
      by_cases hp : IsSlotParam r i s id
      · rw [if_pos (hiff.2 hp)]
        refine .inl ⟨0, ⟨⟨r, by simp, hp⟩, ?_⟩, by simp⟩
        intro k' r'' hk hr
        cases k' with
        | zero => omega
        | succ k' => exact g1 r'' (List.mem_of_getElem? (by simpa using hr))
      · rw [if_neg (fun h => hp (hiff.1 h))]
        refine .inr ⟨?_, rfl⟩
        intro r'' hr
        rcases List.mem_cons.1 hr with rfl | hr
        · exact hp
        · exact g1 r'' hr

/-- C64, what is true: the event of the parameters knows, for every insert and slot, the last record of `enabled` and of `mix`
(`event.items[i].slots[s]`), and has no entry where there is no record. -/
theorem C64_items_partial {l : List Rec} {p : ParamsObj} (r : PReach l p) (i s : Nat) {id : Int} (h01 : id = 0 ∨ id = 1) :
    (∃ k, LastSlotParam p.value i s id k ∧ slotRef p.items i s id = some k) ∨
    ((∀ r ∈ p.value, ¬ IsSlotParam r i s id) ∧ slotRef p.items i s id = none) := by
  have h := preach_inv r
  have hlen := pinv_length h
  have hiff : ∀ (k : Nat) (x x' : Rec), l[k]? = some x → p.value[k]? = some x' →
      (IsSlotParam x' i s id ↔ IsSlotParam x i s id) := by
    intro k x x' hx hx'
    rw [pinv_value h] at hx'
    obtain ⟨e1, e2⟩ := h.same k x x' hx hx'
    unfold IsSlotParam
    rw [e1, e2]
  have hs := fold_slot l i s h01 0 []
  rw [← h.items] at hs
  rcases hs with ⟨k, ⟨⟨x, g1, g2⟩, g3⟩, g4⟩ | ⟨g1, g2⟩
  · refine .inl ⟨k, ⟨?_, fun k' x' hk hx' hp => ?_⟩, by rw [g4]; simp⟩
    · obtain ⟨hlt, _⟩ := List.getElem?_eq_some_iff.1 g1
      rw [← hlen] at hlt
      exact ⟨p.value[k], List.getElem?_eq_getElem hlt, (hiff k _ _ g1 (List.getElem?_eq_getElem hlt)).2 g2⟩
    · obtain ⟨hlt, _⟩ := List.getElem?_eq_some_iff.1 hx'
      rw [hlen] at hlt
      exact g3 k' _ hk (List.getElem?_eq_getElem hlt) ((hiff k' _ _ (List.getElem?_eq_getElem hlt) hx').1 hp)
  · refine .inr ⟨fun x' hx' hp => ?_, by rw [g2]; rfl⟩
    obtain ⟨k, hk⟩ := List.getElem?_of_mem hx'
    obtain ⟨hlt, _⟩ := List.getElem?_eq_some_iff.1 hk
    rw [hlen] at hlt
    exact g1 _ (List.getElem_mem _) ((hiff k _ _ (List.getElem?_eq_getElem hlt) hk).1 hp)

open Demo in
example : slotRef (ParamsObj.parse [param 0 67 1, param 1 67 12800, param 0 67 0]).items 1 3 0 = some 2 ∧
    slotRef (ParamsObj.parse [param 0 67 1, param 1 67 12800, param 0 67 0]).items 1 3 1 = some 1 ∧
    slotRef (ParamsObj.parse [param 0 67 1, param 1 67 12800, param 0 67 0]).items 1 2 1 = none := by decide

/-! ### C65 -/

namespace Spec

/-- The volume of the send from insert `i` to insert `j`: the `msg` of the record about parameter `64 + j`. -/
def sendVolume (l : List Rec) (i j : Nat) : Option LV :=
  match l.find? fun r => decide ((r.int "channel_data").toNat / 64 % 128 = i ∧ r.int "id" = 64 + (j : Int)) with
  | some r => (Rec.lookup r "msg").getD none
  | none => none

/-- The volumes of the sends from insert `i` that are switched on. -/
def sendVolumes (l : List Rec) (i : Nat) (flags : List Bool) : List (Option LV) :=
  ((List.range flags.length).filter fun j => flags.getD j false).map (sendVolume l i)

/-- The ids of the records about insert `i`, from 64 on, in order. -/
def sendIds (l : List Rec) (i : Nat) : List Int :=
  (l.filter fun r => decide ((r.int "channel_data").toNat / 64 % 128 = i ∧ 64 ≤ r.int "id")).map fun r => r.int "id"

end Spec

theorem dictPut_new {κ ν : Type} [DecidableEq κ] {k : κ} (v : ν) {d : List (κ × ν)} (h : k ∉ d.map Prod.fst) :
    dictPut k v d = d ++ [(k, v)] := by
  induction d with
  | nil => rfl
  | cons a d ih =>
    obtain ⟨a, b⟩ := a
    simp only [List.map_cons, List.mem_cons, not_or] at h
    rw [dictPut, if_neg (fun e => h.1 e.symm), ih h.2, List.cons_append]

theorem dictPut_mid {κ ν : Type} [DecidableEq κ] {k : κ} (v : ν) (q : κ → Bool) (hq : q k = false) (d : List (κ × ν)) :
    (dictPut k v d).filter (fun x => q x.1) = d.filter (fun x => q x.1) := by
  induction d with
  | nil => simp [dictPut, hq]
  | cons a d ih =>
    obtain ⟨a, b⟩ := a
    unfold dictPut
    by_cases h : a = k
    · rw [if_pos h]; simp [h, hq]
    · rw [if_neg h, List.filter_cons, List.filter_cons, ih]

theorem dictPut_filter {κ ν : Type} [DecidableEq κ] {k : κ} (v : ν) (q : κ → Bool) (hq : q k = true) (d : List (κ × ν)) :
    (dictPut k v d).filter (fun x => q x.1) = dictPut k v (d.filter (fun x => q x.1)) := by
  induction d with
  | nil => simp [dictPut, hq]
  | cons a d ih =>
    obtain ⟨a, b⟩ := a
    rw [dictPut, List.filter_cons]
    by_cases h : a = k
    · rw [if_pos h, List.filter_cons]
      simp [h, hq, dictPut]
    · rw [if_neg h, List.filter_cons, ih]
      by_cases hqa : q a = true
      · simp [hqa, dictPut, h]
      · simp [hqa]

/-- The sends in the dictionary of insert `i`. -/
def sendsOf (d : List (Nat × InsertItems)) (i : Nat) : List (Int × Nat) :=
  (((dictGet i d).map InsertItems.own).getD []).filter fun x => decide (64 ≤ x.1)

theorem step_sends (d : List (Nat × InsertItems)) (x : Rec × Nat) (i : Nat) :
    sendsOf (paramStep d x) i =
      if paramInsert x.1 = i ∧ 64 ≤ paramId x.1 then dictPut (paramId x.1) x.2 (sendsOf d i) else sendsOf d i := by
  unfold sendsOf paramStep
  dsimp only
  by_cases hi : paramInsert x.1 = i
  · subst hi
    by_cases h01 : paramId x.1 = 0 ∨ paramId x.1 = 1
    · rw [if_pos h01, dictGet_put, if_pos rfl, if_neg (by omega)]
      cases dictGet (paramInsert x.1) d <;> rfl
    · rw [if_neg h01, dictGet_put, if_pos rfl]
      simp only [Option.map_some, Option.getD_some, true_and]
      have e : ((dictGet (paramInsert x.1) d).getD ⟨[], []⟩).own =
          ((dictGet (paramInsert x.1) d).map InsertItems.own).getD [] := by
        cases dictGet (paramInsert x.1) d <;> rfl
      rw [e]
      by_cases h64 : 64 ≤ paramId x.1
      · rw [if_pos h64]
        exact dictPut_filter x.2 (fun k => decide (64 ≤ k)) (decide_eq_true h64) _
      · rw [if_neg h64]
        exact dictPut_mid x.2 (fun k => decide (64 ≤ k)) (decide_eq_false h64) _
  · rw [if_neg (fun h : paramInsert x.1 = i ∧ 64 ≤ paramId x.1 => hi h.1)]
    split <;> rw [dictGet_put, if_neg hi]

theorem fold_sends (l : List Rec) (i : Nat) : ∀ (n : Nat) (d : List (Nat × InsertItems)),
    ((sendsOf d i).map Prod.fst ++ sendIds l i).Nodup →
    sendsOf ((l.zipIdx n).foldl paramStep d) i = sendsOf d i ++
      ((l.zipIdx n).filter fun x => decide (paramInsert x.1 = i ∧ 64 ≤ paramId x.1)).map fun x => (paramId x.1, x.2) := by
  induction l with
  | nil => intro n d _; simp
  | cons r l ih =>
    intro n d hn
    rw [List.zipIdx_cons, List.foldl_cons]
    have hs : sendIds (r :: l) i = if paramInsert r = i ∧ 64 ≤ paramId r then paramId r :: sendIds l i else sendIds l i := by
      unfold sendIds
      rw [List.filter_cons, paramInsert_eq]
      unfold paramId
      simp only [decide_eq_true_eq]
      split <;> rfl
    rw [hs] at hn
    by_cases h : paramInsert r = i ∧ 64 ≤ paramId r
    · rw [if_pos h] at hn
      have hnew : paramId r ∉ (sendsOf d i).map Prod.fst := by
        intro hm
        exact (List.nodup_append.1 hn).2.2 _ hm _ (by simp) rfl
      have hstep : sendsOf (paramStep d (r, n)) i = sendsOf d i ++ [(paramId r, n)] := by
        rw [step_sends, if_pos h, dictPut_new _ hnew]
      rw [ih, hstep, List.filter_cons, if_pos (by simpa using h), List.map_cons, List.append_assoc]
      · rfl
      · rw [hstep, List.map_append, List.append_assoc]
        exact hn
    · rw [if_neg h] at hn
      have hstep : sendsOf (paramStep d (r, n)) i = sendsOf d i := by rw [step_sends, if_neg h]
      rw [ih, hstep, List.filter_cons, if_neg (by simpa using h)]
      rw [hstep]
      exact hn

theorem routesLoop_filter (p : ParamsObj) (d : List (Int × Nat)) : ∀ flags,
    p.routesLoop d flags = p.routesLoop (d.filter fun x => decide (64 ≤ x.1)) flags := by
  induction d with
  | nil => intro flags; rfl
  | cons a d ih =>
    intro flags
    obtain ⟨id, ref⟩ := a
    by_cases h : 64 ≤ id
    · rw [List.filter_cons, if_pos (by simpa using h), ParamsObj.routesLoop.eq_def,
        ParamsObj.routesLoop.eq_def p ((id, ref) :: _)]
      dsimp only
      rw [if_pos h, if_pos h]
      cases flags with
      | nil => exact ih []
      | cons f flags => simp only [ih flags]
    · rw [List.filter_cons, if_neg (by simpa using h), ParamsObj.routesLoop.eq_def]
      dsimp only
      rw [if_neg h]
      exact ih flags

theorem routesLoop_zip (p : ParamsObj) (m : Nat → Option LV) (d : List (Int × Nat)) :
    ∀ flags, (∀ x ∈ d, 64 ≤ x.1 ∧ p.msg x.2 = .ok (m x.2)) → flags.length ≤ d.length →
      p.routesLoop d flags =
        .ok (((List.range flags.length).filter fun j => flags.getD j false).map fun j => m (d.getD j (0, 0)).2) := by
  induction d with
  | nil =>
    intro flags _ hl
    cases flags with
    | nil => rfl
    | cons f flags => simp at hl
  | cons a d ih =>
    intro flags hd hl
    obtain ⟨id, ref⟩ := a
    obtain ⟨h64, hm⟩ := hd (id, ref) (by simp)
    have hd' : ∀ x ∈ d, 64 ≤ x.1 ∧ p.msg x.2 = .ok (m x.2) := fun x hx => hd x (by simp [hx])
    cases flags with
    | nil =>
      rw [ParamsObj.routesLoop, if_pos h64]
      exact ih [] hd' (by simp)
    | cons f flags =>
      have hl' : flags.length ≤ d.length := by simpa using hl
      have hr : (List.range (f :: flags).length).filter (fun j => (f :: flags).getD j false) =
          (if f then [0] else []) ++ ((List.range flags.length).filter fun j => flags.getD j false).map Nat.succ := by
        rw [List.length_cons, List.range_succ_eq_map, List.filter_cons, List.filter_map]
        have : ((fun j => (f :: flags).getD j false) ∘ Nat.succ) = fun j => flags.getD j false := by
          funext j
          simp
        rw [this]
        cases f <;> simp
      rw [hr, ParamsObj.routesLoop, if_pos h64]
      rw [ih flags hd' hl', hm]
      cases f with
      | true => simp [Except.map]
      | false => simp

/-- C65, if the sends of the insert are those to the inserts 0, …, n − 1, stored in this order before all
parameters with greater ids and without repetition, and if there are flags for no more than those:
`insert.routes` are the volumes of the sends that are switched on, after any assignments. -/
theorem C65_routes_partial {l : List Rec} {p : ParamsObj} (r : PReach l p) {i n : Nat} {others : List Int} {flags : List Bool}
    (hm : ∀ rec ∈ p.value, (Rec.lookup rec "msg").isSome) (hi : HasParams p.value i)
    (hids : sendIds p.value i = (List.range n).map (fun j : Nat => 64 + (j : Int)) ++ others) (hn : (sendIds p.value i).Nodup)
    (hf : flags.length ≤ n) : p.routes i (some flags) = .ok (sendVolumes p.value i flags) := by
  have h := preach_inv r
  have hkey : ∀ k, k < l.length → ∃ x y, l[k]? = some x ∧ p.value[k]? = some y ∧
      y.int "channel_data" = x.int "channel_data" ∧ y.int "id" = x.int "id" := by
    intro k hk
    have hk' : k < p.data.objs.length := by rw [h.len]; exact hk
    exact ⟨l[k], p.data.objs[k], List.getElem?_eq_getElem hk, by rw [pinv_value h]; exact List.getElem?_eq_getElem hk',
      h.same k _ _ (List.getElem?_eq_getElem hk) (List.getElem?_eq_getElem hk')⟩
  -- both lists have the same ids
  have hpairs : l.map (fun x => (x.int "channel_data", x.int "id")) =
      p.value.map (fun x => (x.int "channel_data", x.int "id")) := by
    apply List.ext_getElem?
    intro k
    rw [List.getElem?_map, List.getElem?_map]
    by_cases hk : k < l.length
    · obtain ⟨x, y, e1, e2, e3, e4⟩ := hkey k hk
      rw [e1, e2]
      simp [e3, e4]
    · rw [List.getElem?_eq_none (by omega), List.getElem?_eq_none (by rw [pinv_length h]; omega)]
  let q : Rec → Bool := fun x => decide ((x.int "channel_data").toNat / 64 % 128 = i ∧ 64 ≤ x.int "id")
  let q' : Int × Int → Bool := fun x => decide (x.1.toNat / 64 % 128 = i ∧ 64 ≤ x.2)
  have hgen : ∀ m : List Rec, (m.filter q).map (fun x => x.int "id") =
      ((m.map (fun x => (x.int "channel_data", x.int "id"))).filter q').map Prod.snd := by
    intro m
    rw [List.filter_map, List.map_map]
    rfl
  have hsame : sendIds l i = sendIds p.value i := by
    unfold sendIds
    exact (hgen l).trans ((congrArg (fun z => (z.filter q').map Prod.snd) hpairs).trans (hgen p.value).symm)
  have hsends : sendsOf p.items i =
      (l.zipIdx.filter fun x => decide (paramInsert x.1 = i ∧ 64 ≤ paramId x.1)).map fun x => (paramId x.1, x.2) := by
    rw [h.items, fold_sends l i 0 []]
    · rfl
    · show ((sendsOf [] i).map Prod.fst ++ sendIds l i).Nodup
      rw [hsame]
      exact hn
  -- the dictionary has the records of the insert
  have hown : ∃ d, p.own i = .ok d ∧ (d.filter fun x => decide (64 ≤ x.1)) = sendsOf p.items i := by
    rcases own_cases h i (id := 2) (by decide) (by decide) with ⟨g, _⟩ | ⟨_, d, g1, _⟩
    · exact absurd hi g
    · refine ⟨d, g1, ?_⟩
      unfold ParamsObj.own at g1
      split at g1
      · next it hit =>
        cases g1
        unfold sendsOf
        rw [hit]
        rfl
      · cases g1
  obtain ⟨d, hd1, hd2⟩ := hown
  have hfst : (sendsOf p.items i).map Prod.fst = (List.range n).map (fun j : Nat => 64 + (j : Int)) ++ others := by
    rw [← hids, ← hsame, hsends, List.map_map]
    unfold sendIds
    have : ∀ (m : List Rec) (k : Nat),
        ((m.zipIdx k).filter fun x => decide (paramInsert x.1 = i ∧ 64 ≤ paramId x.1)).map
          (Prod.fst ∘ fun x => (paramId x.1, x.2)) = (m.filter q).map (fun x => x.int "id") := by
      intro m
      induction m with
      | nil => intro k; rfl
      | cons a m ih =>
        intro k
        rw [List.zipIdx_cons, List.filter_cons, List.filter_cons, paramInsert_eq]
        have e : decide ((a.int "channel_data").toNat / 64 % 128 = i ∧ 64 ≤ paramId a) = q a := rfl
        rw [e]
        split
        · rw [List.map_cons, List.map_cons, ih]; rfl
        · exact ih _
    exact this l 0
  have hmem : ∀ x ∈ sendsOf p.items i, 64 ≤ x.1 ∧ ∃ rec, p.value[x.2]? = some rec ∧ IsParam rec i x.1 := by
    intro x hx
    rw [hsends] at hx
    obtain ⟨⟨rec, k⟩, hy, rfl⟩ := List.mem_map.1 hx
    obtain ⟨hz, hq⟩ := List.mem_filter.1 hy
    have hk := List.mem_zipIdx_iff_getElem?.1 hz
    dsimp only at hk
    obtain ⟨hlt, _⟩ := List.getElem?_eq_some_iff.1 hk
    obtain ⟨x', y, e1, e2, e3, e4⟩ := hkey k hlt
    rw [e1] at hk
    cases hk
    have hq' := of_decide_eq_true hq
    dsimp only at hq'
    rw [paramInsert_eq] at hq'
    exact ⟨hq'.2, y, e2, by rw [e3]; exact hq'.1, e4⟩
  let m : Nat → Option LV := fun k => ((p.value[k]?).bind fun rec => Rec.lookup rec "msg").getD none
  unfold ParamsObj.routes
  dsimp only
  rw [hd1]
  dsimp only
  rw [routesLoop_filter, hd2, routesLoop_zip p m _ flags]
  · unfold sendVolumes
    congr 1
    apply List.map_congr_left
    intro j hj
    have hjn : j < n := by
      have := List.mem_range.1 (List.mem_filter.1 hj).1
      omega
    have hj1 : ((sendsOf p.items i)[j]?).map Prod.fst = some (64 + (j : Int)) := by
      rw [← List.getElem?_map, hfst, List.getElem?_append_left (by simpa using hjn)]
      simp [hjn]
    cases hx : (sendsOf p.items i)[j]? with
    | none => rw [hx] at hj1; cases hj1
    | some x =>
      rw [hx] at hj1
      have hx1 : x.1 = 64 + (j : Int) := Option.some.inj hj1
      obtain ⟨_, rec, g1, g2⟩ := hmem x (List.mem_of_getElem? hx)
      rw [List.getD_eq_getElem?_getD, hx, Option.getD_some]
      show ((p.value[x.2]?).bind fun rec => Rec.lookup rec "msg").getD none = _
      rw [g1, Option.bind_some]
      unfold sendVolume
      have hfind : p.value.find? (fun r => decide ((r.int "channel_data").toNat / 64 % 128 = i ∧ r.int "id" = 64 + (j : Int)))
          = some rec := by
        have huniq := hn
        unfold sendIds at huniq
        have hw : (p.value.filter fun r => decide ((r.int "channel_data").toNat / 64 % 128 = i ∧ r.int "id" = 64 + (j : Int)))
            = [rec] := by
          have hle : (p.value.filter q).filter (fun r => decide (r.int "id" = 64 + (j : Int))) =
              p.value.filter fun r => decide ((r.int "channel_data").toNat / 64 % 128 = i ∧ r.int "id" = 64 + (j : Int)) := by
            rw [List.filter_filter]
            apply List.filter_congr
            intro a _
            rw [Bool.eq_iff_iff]
            simp only [q, Bool.and_eq_true, decide_eq_true_eq]
            constructor
            · intro hh; exact ⟨hh.2.1, hh.1⟩
            · intro hh; exact ⟨hh.2, hh.1, by omega⟩
          rw [← hle]
          have hrq : rec ∈ p.value.filter q := by
            refine List.mem_filter.2 ⟨List.mem_of_getElem? g1, decide_eq_true ⟨g2.1, ?_⟩⟩
            rw [g2.2, hx1]
            omega
          have one : ∀ (ls : List Rec) (c : Int), (ls.map fun r => r.int "id").Nodup → rec ∈ ls → rec.int "id" = c →
              ls.filter (fun r => decide (r.int "id" = c)) = [rec] := by
            intro ls c
            induction ls with
            | nil => intro _ hc; cases hc
            | cons a ls ih =>
              intro hnd hc he
              rw [List.map_cons, List.nodup_cons] at hnd
              rcases List.mem_cons.1 hc with rfl | hc
              · rw [List.filter_cons, if_pos (by simpa using he), List.filter_eq_nil_iff.2]
                intro b hb hbe
                exact hnd.1 (List.mem_map.2 ⟨b, hb, by rw [of_decide_eq_true hbe, he]⟩)
              · rw [List.filter_cons, if_neg, ih hnd.2 hc he]
                intro hae
                exact hnd.1 (List.mem_map.2 ⟨rec, hc, by rw [of_decide_eq_true hae, he]⟩)
          exact one _ _ huniq hrq (g2.2.trans hx1)
        rw [← List.head?_filter, hw]
        rfl
      rw [hfind]
  · intro x hx
    obtain ⟨g0, rec, g1, g2⟩ := hmem x hx
    refine ⟨g0, ?_⟩
    rw [msg_value h g1]
    show _ = Except.ok (((p.value[x.2]?).bind fun rec => Rec.lookup rec "msg").getD none)
    rw [g1, Option.bind_some]
    have := hm rec (List.mem_of_getElem? g1)
    cases hl : Rec.lookup rec "msg" with
    | none => rw [hl] at this; cases this
    | some v => rfl
  · have := congrArg List.length hfst
    simp only [List.length_map, List.length_append, List.length_range] at this
    omega

/-- C65 is false in general: the volume of the insert itself is taken for that of a send. -/
theorem C65_routes_refuted : ∃ l flags, sendVolumes l 1 flags = [none] ∧
    (ParamsObj.parse l).get 1 192 = .ok (some (.int 12800)) ∧
    (ParamsObj.parse l).routes 1 (some flags) = .ok [some (.int 12800)] :=
  ⟨[Demo.param 192 64 12800], [true], by decide, by decide, by decide⟩

open Demo in
example : let l := [param 64 64 100, param 65 64 200, param 64 128 7, param 66 64 300, param 192 64 12800]
    sendIds l 1 = (List.range 3).map (fun j : Nat => 64 + (j : Int)) ++ [192] ∧ (sendIds l 1).Nodup ∧
    (∀ rec ∈ l, (Rec.lookup rec "msg").isSome) ∧ sendVolumes l 1 [true, false, true] = [some (.int 100), some (.int 300)] ∧
    (ParamsObj.parse l).routes 1 (some [true, false, true]) = .ok [some (.int 100), some (.int 300)] := by decide

/-! ### C66 -/

theorem insertDock_eq {w : World} {L : Nat → Prop} (r : WReach w L) {u : Nat} (hu : L u) {e : Event} {rec : Rec} {n : Nat}
    {pre post : List Event} (hev : w.events u = pre ++ e :: post) (hid : e.id = 236) (hpre : ∀ x ∈ pre, x.id ≠ 236)
    (hv : e.value = .fields rec) (hf : Rec.lookup rec "flags" = some (some (.int n))) :
    w.insertDock u = .ok (some (if n.testBit 6 then .middle else if n.testBit 7 then .right else .left)) := by
  have hval : valueOf (w.events u) 236 = some (.fields rec) := by
    unfold valueOf
    rw [hev, List.find?_append, List.find?_eq_none.2 (fun x hx => by simpa using hpre x hx)]
    simp [hid, hv]
  have hbit : ∀ k, flagIn n (2 ^ k) = n.testBit k := by
    intro k
    unfold flagIn
    rw [Int.toNat_natCast, Nat.testBit_eq_decide_div_mod_eq, Bool.eq_iff_iff]
    simp only [beq_iff_eq, decide_eq_true_eq]
    constructor
    · intro h
      have := congrArg (fun z => z.testBit k) h
      simp only [Nat.testBit_and, Nat.testBit_two_pow_self, Bool.and_true] at this
      rw [Nat.testBit_eq_decide_div_mod_eq] at this
      simpa using this
    · intro h
      apply Nat.eq_of_testBit_eq
      intro i
      rw [Nat.testBit_and, Nat.testBit_two_pow]
      by_cases hik : k = i
      · subst hik
        have : n.testBit k = true := by rw [Nat.testBit_eq_decide_div_mod_eq]; simpa using h
        simp [this]
      · simp [hik]
  unfold World.insertDock
  rcases World.first_value r hu 236 with ⟨ref, g1, _, g2, _⟩ | ⟨_, g2⟩
  · rw [g1]
    dsimp only
    rw [hval] at g2
    rw [← Option.some.inj g2]
    dsimp only
    rw [hf]
    dsimp only
    unfold dockOf
    rw [show (0x40 : Nat) = 2 ^ 6 by rfl, show (0x80 : Nat) = 2 ^ 7 by rfl, hbit, hbit]
  · rw [hval] at g2
    cases g2

/-- C66. `insert.dock` is "middle" if bit 6 of the flags is set, else "right" if bit 7 is, else "left"; assigning any of
the boolean properties of the insert, on any version of Python, leaves it as it is. -/
theorem C66_dock {w : World} {L : Nat → Prop} (r : WReach w L) {u : Nat} (hu : L u) {e : Event} {rec : Rec} {n : Nat}
    {pre post : List Event} (hev : w.events u = pre ++ e :: post) (hid : e.id = 236) (hk : e.kind.isStruct = true)
    (hpre : ∀ x ∈ pre, x.id ≠ 236) (hv : e.value = .fields rec) (hf : Rec.lookup rec "flags" = some (some (.int n))) :
    w.insertDock u = .ok (some (if n.testBit 6 then .middle else if n.testBit 7 then .right else .left)) ∧
    ∀ (ver : PyVer) (f : Nat × Bool), f ∈ insertFlags → ∀ b : Bool,
      ∃ w', (insertFlagProp ver f).write w u b = (w', .ok ()) ∧ (insertFlagProp ver f).read w' u = .ok (some b) ∧
        w'.insertDock u = w.insertDock u := by
  refine ⟨insertDock_eq r hu hev hid hpre hv hf, ?_⟩
  intro ver f hfm b
  have hT : Target (w.events u) [236] pre.length e :=
    .inr ⟨[], [], pre, post, by simp [hid], by simp, hev, by rw [hid]; exact hpre, rfl⟩
  have hw : FlagWord e "flags" n := .inr ⟨hk, rec, hv, hf⟩
  have hflag : f.1 ≠ 0 ∧ f.1 &&& 0xFFFF = f.1 ∧ f.1.testBit 6 = false ∧ f.1.testBit 7 = false := by
    revert f
    decide
  obtain ⟨e', m, s1, s2, s3, ⟨v, s4⟩, s5⟩ := flag_set (ver := ver) (members := 0xFFFF) (flag := f.1) (ids := [236])
    (inverted := f.2) (default := none) hw b
  obtain ⟨ref, g1, g2, g3, g4, ⟨i, i1, i2, i3⟩, g5⟩ :=
    write_spec r hu (insertFlagProp ver f) rfl b hT
  have s1' : (insertFlagProp ver f).set e b = .ok e' := s1
  rw [s1'] at g5
  obtain ⟨_, _, hbits⟩ := flag_bits (on := b != f.2) hflag.1 hflag.2.1 s2
  obtain ⟨w2, k1, k2⟩ := C34_flag_readback r hu ver 0xFFFF f.1 [236] "flags" f.2 none hT hw hflag.1 hflag.2.1 b
  have hsame : w2 = w.setEv ref e' := by
    have : (insertFlagProp ver f).write w u b = (w2, .ok ()) := k1
    rw [g5] at this
    exact (Prod.mk.inj this).1.symm
  subst hsame
  refine ⟨w.setEv ref e', g5, k2, ?_⟩
  rw [insertDock_eq r hu hev hid hpre hv hf]
  have r' : WReach (w.setEv ref e') L := by
    rw [s4, g1]
    exact .assign r ref v
  rcases s3 with ⟨c, _⟩ | ⟨_, rec', c1, c2⟩
  · rw [s4] at c
    rw [hk] at c
    cases c
  · have hev' : (w.setEv ref e').events u = pre ++ e' :: post := by
      rw [events_setEv _ (refs_nodup r hu) g2 g3, hev]
      simp
    rw [insertDock_eq r' hu hev' (by rw [s4]; exact hid) hpre c1 c2]
    rw [hbits 6 (by decide) hflag.2.2.1, hbits 7 (by decide) hflag.2.2.2]

namespace Demo

/-- One insert, docked to the right, with a bit that no property uses. -/
def docked : Project := ⟨0, 1, 96, [⟨236, .struct .insertFlags, .fields [("_u1", some (.bytes [0, 0, 0, 0])),
  ("flags", some (.int 0x1008C)), ("_u2", some (.bytes [0, 0, 0, 0]))], 12⟩]⟩

end Demo

open Demo in
example : ∃ e, (World.ofProject docked).events 0 = [] ++ e :: [] ∧ e.id = 236 ∧ e.kind.isStruct = true ∧
    (World.ofProject docked).insertDock 0 = .ok (some .right) ∧ (0x1008C : Nat).testBit 7 = true ∧
    ((insertFlagProp .from311 (8, false)).write (World.ofProject docked) 0 false).1.insertDock 0 = .ok (some .right) :=
  ⟨docked.events.headD default, by decide +kernel, by decide, by decide, by decide +kernel, by decide, by decide +kernel⟩
