import Verif.ListEvent
import Verif.Props.EventEq
import Verif.Props.Exact3
import Verif.Props.ItemsSaved
import Verif.Props.Savable
/-!
# List events as lists (C128)
-/

namespace PyFLP

open Spec

namespace Spec

/-- The list is `pre`, a record, `post`, and the record is the one with index `i`: counted from the front, from 0 on, or for
negative numbers from the end, from -1 on. -/
def Place (i : Int) (pre post : List Rec) : Prop :=
  (0 ≤ i ∧ i = pre.length) ∨ (i < 0 ∧ -i = post.length + 1)

/-- No record has the index. -/
def NoPlace (i : Int) (l : List Rec) : Prop := (l.length : Int) ≤ i ∨ i < -(l.length : Int)

/-- What a list method does to a list of records, and what it gives or raises. -/
inductive Changed : LOp → List Rec → List Rec → Py (Option Rec) → Prop
  | append (l r) : Changed (.append r) l (l ++ [r]) (.ok none)
  /-- before the record with the index -/
  | insert {i pre x post r} (h : Place i pre post) : Changed (.insert i r) (pre ++ x :: post) (pre ++ r :: x :: post) (.ok none)
  /-- at the end, for indexes behind it -/
  | insertEnd {i l r} (h : (l.length : Int) ≤ i) : Changed (.insert i r) l (l ++ [r]) (.ok none)
  /-- at the front, for indexes before it -/
  | insertFront {i l r} (h : i < -(l.length : Int)) : Changed (.insert i r) l (r :: l) (.ok none)
  | pop {i pre x post} (h : Place i pre post) : Changed (.pop i) (pre ++ x :: post) (pre ++ post) (.ok (some x))
  | popNone {i l} (h : NoPlace i l) : Changed (.pop i) l l (.error .indexError)
  | del {i pre x post} (h : Place i pre post) : Changed (.del i) (pre ++ x :: post) (pre ++ post) (.ok none)
  | delNone {i l} (h : NoPlace i l) : Changed (.del i) l l (.error .indexError)
  | put {i pre x post r} (h : Place i pre post) : Changed (.put i r) (pre ++ x :: post) (pre ++ r :: post) (.ok none)
  | putNone {i l r} (h : NoPlace i l) : Changed (.put i r) l l (.error .indexError)
  | clear (l) : Changed .clear l [] (.ok none)
  | reverse {l l'} (h : l'.length = l.length) (h' : ∀ i j : Nat, i + j + 1 = l.length → l'[i]? = l[j]?) :
      Changed .reverse l l' (.ok none)
  | extend (l rs) : Changed (.extend rs) l (l ++ rs) (.ok none)
  | timesNone {n : Int} {l} (h : n ≤ 0) : Changed (.times n) l [] (.ok none)
  | timesMore {n : Int} {l l'} (hn : 0 ≤ n) (h : Changed (.times n) l l' (.ok none)) : Changed (.times (n + 1)) l (l ++ l') (.ok none)
  /-- the first record with the same visible content -/
  | remove {pre x post r} (hp : ∀ y ∈ pre, ¬ SameRec y r) (hx : SameRec x r) :
      Changed (.remove r) (pre ++ x :: post) (pre ++ post) (.ok none)
  | removeNone {l r} (hp : ∀ y ∈ l, ¬ SameRec y r) : Changed (.remove r) l l (.error .valueError)

/-- What a program can do with a list event and its items: read the items, assign through any item object it has
fetched so far, and use the list methods.  The last argument has the item objects. -/
inductive LReach (recs : List Rec) : ListObj → List Item → Prop
  | parsed : LReach recs (.parse recs) []
  | fetch {s hs} (r : LReach recs s hs) : LReach recs s (hs ++ s.items)
  | edit {s hs it} (r : LReach recs s hs) (h : it ∈ hs) (key : String) (x : Option LV) : LReach recs (s.set it key x).1 hs
  | op {s hs} (r : LReach recs s hs) (o : LOp) : LReach recs (s.run o).1 hs

end Spec

/-! ### Steps -/

theorem value_length (s : ListObj) : s.value.length = s.list.length := by simp [ListObj.value]

/-- Containers that exist are not touched by new ones. -/
theorem value_more {objs : List Rec} {list : List Nat} (h : ∀ a ∈ list, a < objs.length) (rs : List Rec) :
    (⟨objs ++ rs, list⟩ : ListObj).value = (⟨objs, list⟩ : ListObj).value := by
  unfold ListObj.value
  refine List.map_congr_left fun a ha => ?_
  dsimp only
  rw [List.getD_eq_getElem?_getD, List.getD_eq_getElem?_getD, List.getElem?_append_left (h a ha)]

theorem value_new (objs rs : List Rec) (k : Nat) (hk : k < rs.length) :
    (objs ++ rs).getD (objs.length + k) [] = rs[k] := by
  rw [List.getD_eq_getElem?_getD, List.getElem?_append_right (by omega)]
  simp [hk]

theorem listAt_some {n : Nat} {i : Int} {k : Nat} (h : listAt n i = some k) : k < n ∧
    ((0 ≤ i ∧ i = k) ∨ (i < 0 ∧ -i = (n - (k + 1) : Nat) + 1)) := by
  unfold listAt at h
  dsimp only at h
  split at h
  all_goals
    split at h
    · injection h with h
      omega
    · cases h

theorem listAt_none {n : Nat} {i : Int} (h : listAt n i = none) : (n : Int) ≤ i ∨ i < -(n : Int) := by
  unfold listAt at h
  dsimp only at h
  split at h
  all_goals
    split at h
    · cases h
    · omega

/-- A record with an index, as a place in the list. -/
theorem listAt_place {l : List Rec} {i : Int} {k : Nat} (h : listAt l.length i = some k) :
    ∃ x, l = l.take k ++ x :: l.drop (k + 1) ∧ l[k]? = some x ∧ Place i (l.take k) (l.drop (k + 1)) := by
  obtain ⟨hk, hp⟩ := listAt_some h
  refine ⟨l[k], ?_, List.getElem?_eq_getElem hk, ?_⟩
  · rw [List.getElem_cons_drop, List.take_append_drop]
  · unfold Place
    rw [List.length_take, List.length_drop, Nat.min_eq_left (Nat.le_of_lt hk)]
    exact hp

theorem map_eraseIdx' {α β : Type} (f : α → β) (l : List α) (k : Nat) : (l.eraseIdx k).map f = (l.map f).eraseIdx k := by
  rw [List.eraseIdx_eq_take_drop_succ, List.eraseIdx_eq_take_drop_succ, List.map_append, List.map_take, List.map_drop]

theorem lreach_inv {recs : List Rec} {s : ListObj} {hs : List Item} (r : LReach recs s hs) :
    (∀ a ∈ s.list, a < s.objs.length) ∧ ∀ it ∈ hs, it.ref < s.objs.length := by
  induction r with
  | parsed => exact ⟨fun a ha => by simpa [ListObj.parse] using ha, by simp⟩
  | fetch r ih =>
    refine ⟨ih.1, fun it hit => ?_⟩
    rcases List.mem_append.1 hit with h | h
    · exact ih.2 it h
    · obtain ⟨⟨a, i⟩, hx, rfl⟩ := List.mem_map.1 h
      exact ih.1 _ (List.mem_of_getElem? (List.mem_zipIdx_iff_getElem?.1 hx))
  | @edit s hs it r hm key x ih =>
    unfold ListObj.set
    dsimp only
    split
    · refine ⟨fun a ha => ?_, fun j hj => by simpa using ih.2 j hj⟩
      rcases List.mem_or_eq_of_mem_set ha with h | rfl
      · simpa using ih.1 a h
      · simpa using ih.2 it hm
    · exact ⟨fun a ha => by simpa using ih.1 a ha, fun j hj => by simpa using ih.2 j hj⟩
  | @op s hs r o ih =>
    obtain ⟨h1, h2⟩ := ih
    have more : ∀ rs : List Rec, ∀ it ∈ hs, it.ref < (s.objs ++ rs).length := fun rs it hit => by
      have := h2 it hit; simp; omega
    have old : ∀ (rs : List Rec), ∀ a ∈ s.list, a < (s.objs ++ rs).length := fun rs a ha => by
      have := h1 a ha; simp; omega
    cases o with
    | append r =>
      refine ⟨fun a ha => ?_, more _⟩
      rcases List.mem_append.1 ha with h | h
      · exact old _ a h
      · simp at h; subst h; simp [ListObj.run]
    | insert i r =>
      refine ⟨fun a ha => ?_, more _⟩
      rcases List.mem_append.1 ha with h | h
      · exact old _ a (List.mem_of_mem_take h)
      · rcases List.mem_cons.1 h with h | h
        · subst h; simp [ListObj.run]
        · exact old _ a (List.mem_of_mem_drop h)
    | pop i =>
      simp only [ListObj.run]
      split
      · exact ⟨h1, h2⟩
      · exact ⟨fun a ha => h1 a (List.eraseIdx_subset ha), h2⟩
    | del i =>
      simp only [ListObj.run]
      split
      · exact ⟨h1, h2⟩
      · exact ⟨fun a ha => h1 a (List.eraseIdx_subset ha), h2⟩
    | put i r =>
      simp only [ListObj.run]
      split
      · exact ⟨old _, more _⟩
      · refine ⟨fun a ha => ?_, more _⟩
        rcases List.mem_or_eq_of_mem_set ha with h | rfl
        · exact old _ a h
        · simp
    | clear => exact ⟨by simp [ListObj.run], h2⟩
    | reverse => exact ⟨fun a ha => h1 a (List.mem_reverse.1 ha), h2⟩
    | extend rs =>
      refine ⟨fun a ha => ?_, more _⟩
      rcases List.mem_append.1 ha with h | h
      · exact old _ a h
      · obtain ⟨k, hk, rfl⟩ := List.mem_map.1 h
        have := List.mem_range.1 hk
        simp [ListObj.run]; omega
    | times n =>
      refine ⟨fun a ha => ?_, h2⟩
      obtain ⟨l, hl, hal⟩ := List.mem_flatten.1 ha
      rw [(List.mem_replicate.1 hl).2] at hal
      exact h1 a hal
    | remove r =>
      simp only [ListObj.run]
      split
      · exact ⟨h1, h2⟩
      · exact ⟨fun a ha => h1 a (List.eraseIdx_subset ha), h2⟩

theorem findIdx_some {l : List Rec} {r : Rec} {k : Nat} (h : (l.findIdx? fun r' => recEq r' r) = some k) :
    ∃ x, l = l.take k ++ x :: l.drop (k + 1) ∧ l[k]? = some x ∧ SameRec x r ∧ ∀ y ∈ l.take k, ¬ SameRec y r := by
  obtain ⟨hk, h1, h2⟩ := List.findIdx?_eq_some_iff_getElem.1 h
  refine ⟨l[k], by rw [List.getElem_cons_drop, List.take_append_drop], List.getElem?_eq_getElem hk, sameRec_iff.1 h1, ?_⟩
  intro y hy hs
  obtain ⟨i, hi⟩ := List.getElem?_of_mem hy
  rw [List.getElem?_take] at hi
  split at hi
  · next hlt =>
    obtain ⟨hi', rfl⟩ := List.getElem?_eq_some_iff.1 hi
    exact h2 i hlt (sameRec_iff.2 hs)
  · cases hi

theorem findIdx_none {l : List Rec} {r : Rec} (h : (l.findIdx? fun r' => recEq r' r) = none) : ∀ y ∈ l, ¬ SameRec y r := by
  intro y hy hs
  have := List.findIdx?_eq_none_iff.1 h y hy
  rw [sameRec_iff.2 hs] at this
  cases this

theorem times_changed (l : List Rec) (n : Nat) : Changed (.times n) l (List.replicate n l).flatten (.ok none) := by
  induction n with
  | zero => exact .timesNone (by simp)
  | succ n ih =>
    rw [List.replicate_succ, List.flatten_cons]
    exact .timesMore (by simp) ih

theorem run_changed {s : ListObj} (hs : ∀ a ∈ s.list, a < s.objs.length) (o : LOp) :
    Changed o s.value (s.run o).1.value (s.run o).2 := by
  have more := fun rs => value_more (objs := s.objs) hs rs
  have new1 : ∀ r : Rec, (s.objs ++ [r]).getD s.objs.length [] = r := fun r => value_new s.objs [r] 0 (by simp)
  have erase : ∀ k, (⟨s.objs, s.list.eraseIdx k⟩ : ListObj).value = s.value.take k ++ s.value.drop (k + 1) := fun k => by
    unfold ListObj.value
    rw [map_eraseIdx', List.eraseIdx_eq_take_drop_succ]
  have take' : ∀ (rs : List Rec) k, (s.list.take k).map (fun ref => (s.objs ++ rs).getD ref []) = s.value.take k := fun rs k => by
    rw [List.map_take]; exact congrArg (List.take k) (more rs)
  have drop' : ∀ (rs : List Rec) k, (s.list.drop k).map (fun ref => (s.objs ++ rs).getD ref []) = s.value.drop k := fun rs k => by
    rw [List.map_drop]; exact congrArg (List.drop k) (more rs)
  have hlen := value_length s
  cases o with
  | append r =>
    have : (s.run (.append r)).1.value = s.value ++ [r] := by
      show List.map _ (s.list ++ _) = _
      rw [List.map_append]
      exact congr (congrArg (· ++ ·) (more [r])) (congrArg (fun x => [x]) (new1 r))
    rw [this]
    exact .append _ _
  | insert i r =>
    have : (s.run (.insert i r)).1.value =
        s.value.take (insertAt s.value.length i) ++ r :: s.value.drop (insertAt s.value.length i) := by
      show List.map _ (s.list.take _ ++ _ :: s.list.drop _) = _
      rw [List.map_append, List.map_cons, hlen]
      dsimp only [ListObj.run]
      rw [take' [r], drop' [r], new1]
    rw [this]
    show Changed _ _ _ (.ok none)
    generalize s.value = l
    cases hp : listAt l.length i with
    | some k =>
      have hk : insertAt l.length i = k := by
        have := listAt_some hp
        unfold insertAt
        split <;> omega
      rw [hk]
      obtain ⟨x, h1, h2, h3⟩ := listAt_place hp
      have hd : l.drop k = x :: l.drop (k + 1) := by
        have := (List.getElem?_eq_some_iff.1 h2)
        obtain ⟨hlt, rfl⟩ := this
        rw [List.getElem_cons_drop]
      rw [hd]
      have := Changed.insert (x := x) (r := r) h3
      rwa [← h1] at this
    | none =>
      rcases listAt_none hp with h | h
      · have hk : insertAt l.length i = l.length := by unfold insertAt; split <;> omega
        rw [hk, List.take_length, List.drop_length]
        exact .insertEnd h
      · have hk : insertAt l.length i = 0 := by unfold insertAt; split <;> omega
        rw [hk]
        exact .insertFront h
  | pop i =>
    simp only [ListObj.run]
    rw [← hlen]
    cases hp : listAt s.value.length i with
    | none => exact .popNone (listAt_none hp)
    | some k =>
      dsimp only
      obtain ⟨x, h1, h2, h3⟩ := listAt_place hp
      rw [erase, h2]
      have := Changed.pop (x := x) h3
      rwa [← h1] at this
  | del i =>
    simp only [ListObj.run]
    rw [← hlen]
    cases hp : listAt s.value.length i with
    | none => exact .delNone (listAt_none hp)
    | some k =>
      dsimp only
      obtain ⟨x, h1, h2, h3⟩ := listAt_place hp
      rw [erase]
      have := Changed.del (x := x) h3
      rwa [← h1] at this
  | put i r =>
    simp only [ListObj.run]
    rw [← hlen]
    cases hp : listAt s.value.length i with
    | none => dsimp only; rw [more [r]]; exact .putNone (listAt_none hp)
    | some k =>
      dsimp only
      obtain ⟨x, h1, h2, h3⟩ := listAt_place hp
      have hk := (listAt_some hp).1
      have : (⟨s.objs ++ [r], s.list.set k s.objs.length⟩ : ListObj).value = s.value.take k ++ r :: s.value.drop (k + 1) := by
        show List.map _ (s.list.set _ _) = _
        rw [List.map_set]
        dsimp only
        rw [new1]
        have : List.map (fun ref => (s.objs ++ [r]).getD ref []) s.list = s.value := more [r]
        rw [this, List.set_eq_take_append_cons_drop, if_pos hk]
      rw [this]
      have := Changed.put (x := x) (r := r) h3
      rwa [← h1] at this
  | clear => exact .clear _
  | reverse =>
    have : (s.run .reverse).1.value = s.value.reverse := by
      show List.map _ s.list.reverse = _
      rw [List.map_reverse]; rfl
    rw [this]
    refine .reverse (by simp) fun i j hij => ?_
    rw [List.getElem?_reverse (by omega)]
    congr 1; omega
  | extend rs =>
    have : (s.run (.extend rs)).1.value = s.value ++ rs := by
      show List.map _ (s.list ++ _) = _
      rw [List.map_append]
      refine congr (congrArg (· ++ ·) (more rs)) ?_
      refine List.ext_getElem? fun k => ?_
      dsimp only [ListObj.run]
      rw [List.map_map, List.getElem?_map]
      by_cases hk : k < rs.length
      · rw [List.getElem?_range hk, List.getElem?_eq_getElem hk]
        exact congrArg some (value_new s.objs rs k hk)
      · rw [List.getElem?_eq_none (by simpa using hk), List.getElem?_eq_none (by simpa using hk)]; rfl
    rw [this]
    exact .extend _ _
  | times n =>
    have : (s.run (.times n)).1.value = (List.replicate n.toNat s.value).flatten := by
      show List.map _ (List.flatten _) = _
      rw [List.map_flatten, List.map_replicate]; rfl
    rw [this]
    show Changed _ _ _ (.ok none)
    by_cases hn : 0 ≤ n
    · have := times_changed s.value n.toNat
      rwa [Int.toNat_of_nonneg hn] at this
    · have : n.toNat = 0 := by omega
      rw [this]
      exact .timesNone (by omega)
  | remove r =>
    simp only [ListObj.run]
    cases hp : s.value.findIdx? fun r' => recEq r' r with
    | none => exact .removeNone (findIdx_none hp)
    | some k =>
      dsimp only
      obtain ⟨x, h1, h2, h3, h4⟩ := findIdx_some hp
      rw [erase]
      have := Changed.remove (post := s.value.drop (k + 1)) h4 h3
      rwa [← h1] at this

/-! ### C128 -/

/-- **C128** Every list method of a list event does to its records what it does to a list, whatever happened to the event
before; item objects that exist go on showing their records. -/
theorem C128_methods {recs : List Rec} {s : ListObj} {hs : List Item} (r : LReach recs s hs) (o : LOp) :
    Changed o s.value (s.run o).1.value (s.run o).2 ∧ ∀ it ∈ hs, recordOf (s.run o).1 it = recordOf s it := by
  obtain ⟨h1, h2⟩ := lreach_inv r
  refine ⟨run_changed h1 o, fun it hit => ?_⟩
  have more : ∀ rs : List Rec, (s.objs ++ rs).getD it.ref [] = s.objs.getD it.ref [] := fun rs => by
    rw [List.getD_eq_getElem?_getD, List.getD_eq_getElem?_getD, List.getElem?_append_left (h2 it hit)]
  unfold recordOf
  cases o <;> simp only [ListObj.run] <;> first | rfl | exact more _ | (split <;> first | rfl | exact more _)


/-- **C128** `index` gives the place of the first record with the same visible content, `in` tells whether there is one,
and `count` how many there are. -/
theorem C128_search (s : ListObj) (r : Rec) :
    (s.has r = true ↔ ∃ x ∈ s.value, SameRec x r) ∧
    (s.index r = .error .valueError ↔ ∀ x ∈ s.value, ¬ SameRec x r) ∧
    (∀ i, s.index r = .ok i ↔ ∃ pre x post, s.value = pre ++ x :: post ∧ pre.length = i ∧ SameRec x r ∧
      ∀ y ∈ pre, ¬ SameRec y r) ∧
    ∃ same : List Rec, same.Sublist s.value ∧ same.length = s.count r ∧
      ∀ x, x ∈ same ↔ x ∈ s.value ∧ SameRec x r := by
  refine ⟨?_, ?_, fun i => ?_, s.value.filter fun r' => recEq r' r, List.filter_sublist,
    List.countP_eq_length_filter.symm, fun x => ?_⟩
  · unfold ListObj.has
    rw [List.any_eq_true]
    exact ⟨fun ⟨x, hx, h⟩ => ⟨x, hx, sameRec_iff.1 h⟩, fun ⟨x, hx, h⟩ => ⟨x, hx, sameRec_iff.2 h⟩⟩
  · unfold ListObj.index
    cases hp : s.value.findIdx? fun r' => recEq r' r with
    | none => exact ⟨fun _ => findIdx_none hp, fun _ => rfl⟩
    | some k =>
      refine ⟨fun h => (by cases h), fun h => ?_⟩
      obtain ⟨x, _, h2, h3, _⟩ := findIdx_some hp
      exact absurd h3 (h x (List.mem_of_getElem? h2))
  · unfold ListObj.index
    constructor
    · intro h
      cases hp : s.value.findIdx? fun r' => recEq r' r with
      | none => rw [hp] at h; cases h
      | some k =>
        rw [hp] at h
        injection h with h
        subst h
        obtain ⟨x, h1, h2, h3, h4⟩ := findIdx_some hp
        have := (List.getElem?_eq_some_iff.1 h2).1
        exact ⟨_, x, _, h1, by rw [List.length_take]; omega, h3, h4⟩
    · rintro ⟨pre, x, post, h1, h2, h3, h4⟩
      have : (s.value.findIdx? fun r' => recEq r' r) = some i := by
        rw [List.findIdx?_eq_some_iff_getElem]
        have hi : i < s.value.length := by rw [h1]; simp; omega
        have at' : ∀ j (hj : j < s.value.length), s.value[j] = (pre ++ x :: post)[j]'(h1 ▸ hj) := fun j hj => by simp [h1]
        refine ⟨hi, ?_, fun j hj => ?_⟩
        · rw [at', List.getElem_append_right (by omega)]
          simp only [h2, Nat.sub_self, List.getElem_cons_zero]
          exact sameRec_iff.2 h3
        · rw [at', List.getElem_append_left (by omega)]
          intro h
          exact h4 _ (List.getElem_mem _) (sameRec_iff.1 h)
      rw [this]
  · rw [List.mem_filter, sameRec_iff]

/-- **C128** Assigning through an item object of any age, whatever list methods were used since it was fetched: the record it
shows changes, wherever it stands in the list, and is stored at the index it was fetched with, over the record that is
there now; `IndexError` if the list has become too short. -/
theorem C128_items_exact {recs : List Rec} {s : ListObj} {hs : List Item} (r : LReach recs s hs) {it : Item} (hm : it ∈ hs)
    (key : String) (x : Option LV) :
    let s' := (s.set it key x).1
    (s.set it key x).2 = (if it.index < s.value.length then .ok () else .error .indexError) ∧
    s'.value.length = s.value.length ∧
    (∀ i < s.value.length, s'.value[i]? =
      if i = it.index ∨ s.list[i]? = some it.ref then some (Rec.put (recordOf s it) key x) else s.value[i]?) ∧
    ∀ j ∈ hs, recordOf s' j = if j.ref = it.ref then Rec.put (recordOf s it) key x else recordOf s j := by
  obtain ⟨h1, h2, h3, h4, _⟩ := item_set_exact (lreach_inv r).1 (lreach_inv r).2 hm key x
  exact ⟨h1, h2, h3, h4⟩

/-- **C128** (refuted) That an item object edits the record it shows and no other one, also after the list has changed:
insert a record before an item that was fetched earlier, and an assignment through the item overwrites the inserted
record. -/
theorem C128_stale_refuted (a b : Rec) (key : String) (x : Option LV) :
    ∃ s hs it, LReach [a] s hs ∧ it ∈ hs ∧ s.value = [b, a] ∧ recordOf s it = a ∧
      (s.set it key x).2 = .ok () ∧ (s.set it key x).1.value = [Rec.put a key x, Rec.put a key x] :=
  ⟨((ListObj.parse [a]).run (.insert 0 b)).1, _, ⟨0, 0⟩, .op (.fetch .parsed) (.insert 0 b), by simp [ListObj.items, ListObj.parse],
    rfl, rfl, rfl, rfl⟩

/-! ### Saving -/

namespace Spec

/-- The records a method adds fit the class. -/
def OpFits [FloatEnv] (l : LName) (len : Nat) : LOp → Prop
  | .append r | .insert _ r | .put _ r => validItem ⟨len⟩ l.fields r
  | .extend rs => ∀ r ∈ rs, validItem ⟨len⟩ l.fields r
  | _ => True

/-- As `LReach`, with records and values that fit the fields. -/
inductive LFits [FloatEnv] (l : LName) (len : Nat) (recs : List Rec) : ListObj → List Item → Prop
  | parsed : LFits l len recs (.parse recs) []
  | fetch {s hs} (r : LFits l len recs s hs) : LFits l len recs s (hs ++ s.items)
  | edit {s hs it key x old} (r : LFits l len recs s hs) (h : it ∈ hs) (ho : s.get it key = .ok (some old))
      (hx : ∀ f, (key, f) ∈ l.fields → leafValid f.leaf x) : LFits l len recs (s.set it key (some x)).1 hs
  | op {s hs o} (r : LFits l len recs s hs) (ho : OpFits l len o) : LFits l len recs (s.run o).1 hs

end Spec

section
variable [FloatEnv]

theorem lfits_reach {l : LName} {len : Nat} {recs : List Rec} {s : ListObj} {hs : List Item} (r : LFits l len recs s hs) :
    LReach recs s hs := by
  induction r with
  | parsed => exact .parsed
  | fetch r ih => exact .fetch ih
  | edit r h _ _ ih => exact .edit ih h _ _
  | op r _ ih => exact .op ih _

theorem lfits_objs {l : LName} {len : Nat} {recs : List Rec} (hv : ∀ r ∈ recs, validItem ⟨len⟩ l.fields r) {s : ListObj}
    {hs : List Item} (r : LFits l len recs s hs) : ∀ r ∈ s.objs, validItem ⟨len⟩ l.fields r := by
  induction r with
  | parsed => exact hv
  | fetch r ih => exact ih
  | @edit s hs it key x old r h ho hx ih =>
    have href := (lreach_inv (lfits_reach r)).2 it h
    have hmem : s.objs.getD it.ref [] ∈ s.objs := by
      rw [List.getD_eq_getElem?_getD, List.getElem?_eq_getElem href]
      exact List.getElem_mem _
    have hl : Rec.lookup (s.objs.getD it.ref []) key = some (some old) := by
      unfold ListObj.get at ho
      split at ho
      · next v hv => injection ho with ho; rw [hv, ho]
      · cases ho
    have hnew : validItem ⟨len⟩ l.fields (Rec.put (s.objs.getD it.ref []) key (some x)) := by
      unfold Rec.put
      rw [if_pos (by rw [hl]; rfl)]
      exact validItem_update (ih _ hmem) hl hx
    intro r0 hr0
    have hobjs : (s.set it key (some x)).1.objs = s.objs.set it.ref (Rec.put (s.objs.getD it.ref []) key (some x)) := by
      unfold ListObj.set
      dsimp only
      split <;> rfl
    rw [hobjs] at hr0
    rcases List.mem_or_eq_of_mem_set hr0 with h | rfl
    · exact ih _ h
    · exact hnew
  | @op s hs o r ho ih =>
    have more : ∀ rs : List Rec, (∀ r ∈ rs, validItem ⟨len⟩ l.fields r) → ∀ r ∈ s.objs ++ rs, validItem ⟨len⟩ l.fields r := by
      intro rs h r hr
      rcases List.mem_append.1 hr with h' | h'
      · exact ih r h'
      · exact h r h'
    have one : ∀ r0 : Rec, validItem ⟨len⟩ l.fields r0 → ∀ r ∈ s.objs ++ [r0], validItem ⟨len⟩ l.fields r :=
      fun r0 h => more [r0] fun r hr => by rw [List.mem_singleton.1 hr]; exact h
    cases o with
    | append r => exact one r ho
    | insert i r => exact one r ho
    | put i r =>
      simp only [ListObj.run]
      split
      · exact one r ho
      · exact one r ho
    | extend rs => exact more rs ho
    | pop i => simp only [ListObj.run]; split <;> exact ih
    | del i => simp only [ListObj.run]; split <;> exact ih
    | remove i => simp only [ListObj.run]; split <;> exact ih
    | clear => exact ih
    | reverse => exact ih
    | times n => exact ih

theorem lfits_value {l : LName} {len : Nat} {recs : List Rec} (hv : ∀ r ∈ recs, validItem ⟨len⟩ l.fields r) {s : ListObj}
    {hs : List Item} (r : LFits l len recs s hs) : ∀ r ∈ s.value, validItem ⟨len⟩ l.fields r := by
  intro r0 hr0
  obtain ⟨a, ha, rfl⟩ := List.mem_map.1 hr0
  have := (lreach_inv (lfits_reach r)).1 a ha
  refine lfits_objs hv r _ ?_
  rw [List.getD_eq_getElem?_getD, List.getElem?_eq_getElem this]
  exact List.getElem_mem _

/-- **C128** (reading back) A list event with fitting records is written, and read back as the same records - except that a
playlist of the old layout (32 bytes per item) with a positive multiple of 15 items is read as one of the new layout (60
bytes), with fewer items. -/
theorem C128_reread_exact (l : LName) (len : Nat) {rs : List Rec} (hv : ∀ r ∈ rs, validItem ⟨len⟩ l.fields r) :
    ∃ b rs', (Kind.list l).build len (.items rs) = .ok b ∧ b.length = l.size len * rs.length ∧
      (Kind.list l).parse b = .ok (.items rs') ∧
      (rs' = rs ↔ ¬ (l = .playlist ∧ len % 60 ≠ 0 ∧ rs ≠ [] ∧ rs.length % 15 = 0)) ∧
      (rs' ≠ rs → rs'.length * 60 = rs.length * 32) := by
  obtain ⟨b, h1, h2, h3⟩ := greedy_roundtrip ⟨len⟩ (itemSize_list l len) (l.size_pos len) hv
  by_cases hbad : l = .playlist ∧ len % 60 ≠ 0 ∧ rs ≠ [] ∧ rs.length % 15 = 0
  · obtain ⟨rfl, hlen, hne, h15⟩ := hbad
    have hs : LName.size .playlist len = 32 := by simp only [LName.size]; rw [if_neg hlen]
    rw [hs] at h2
    have hb : LName.size .playlist b.length = 60 := by
      simp only [LName.size]; rw [if_pos (by omega)]
    obtain ⟨rs', g1, g2, _, _⟩ := greedy_parse ⟨b.length⟩ (itemSize_list .playlist b.length) (LName.size_pos _ _) b
    rw [hb] at g2
    have hpos : 0 < rs.length := List.length_pos_iff.2 hne
    have hneq : rs' ≠ rs := fun h => by rw [h] at g2; omega
    refine ⟨b, rs', h1, by rw [hs]; exact h2, ?_, ⟨fun h => absurd h hneq, fun h => absurd ⟨rfl, hlen, hne, h15⟩ h⟩, fun _ => by omega⟩
    unfold Kind.parse
    dsimp only
    rw [g1]
  · refine ⟨b, rs, h1, h2, ?_, ⟨fun _ => hbad, fun _ => rfl⟩, fun h => absurd rfl h⟩
    unfold Kind.parse
    dsimp only
    by_cases hnil : rs = []
    · subst hnil
      have : b = [] := List.length_eq_zero_iff.1 (by simpa using h2)
      subst this
      obtain ⟨rs', g1, g2, _, _⟩ := greedy_parse ⟨0⟩ (itemSize_list l 0) (LName.size_pos _ _) []
      have : rs' = [] := List.length_eq_zero_iff.1 (by simpa using g2)
      rw [show ([] : Bytes).length = 0 from rfl, g1, this]
    · have hu : listUnambiguous l len rs.length := fun hl h60 h15 => hbad ⟨hl, h60, hnil, h15⟩
      rw [← greedyParse_ctx (list_ctxAgree hu h2), h3]

omit [FloatEnv] in
theorem flatten_set_le {raws : List Bytes} {i : Nat} {y : Bytes} : (raws.set i y).flatten.length ≤ raws.flatten.length + y.length := by
  induction raws generalizing i with
  | nil => simp
  | cons a raws ih =>
    cases i with
    | zero => simp; omega
    | succ i =>
      have := ih (i := i)
      simp only [List.set_cons_succ, List.flatten_cons, List.length_append]
      omega

/-- **C128** (saving) After any use of the list methods and of item objects with records and values that fit, the project can
be saved, unless it gets too large, and the file has exactly the records of the event as they are now, and all other
events - except for playlists of the old layout with a multiple of 15 items. -/
theorem C128_saved_partial [UniEnv] {p : Project} {file : Bytes} (hf : p.format ∈ formats) (hq : p.ppq ∈ ppqs)
    (hwt : WellTyped p.events) (hv : ∀ e ∈ p.events, validValue e.kind e.len e.value) (hsave : saveBytes p = .ok file)
    {i : Nat} {e : Event} (hi : p.events[i]? = some e) {l : LName} (hk : e.kind = .list l) {recs : List Rec}
    (hrecs : e.value = .items recs) {s : ListObj} {hs : List Item} (r : LFits l e.len recs s hs)
    (hu : l = .playlist → e.len % 60 ≠ 0 → s.value.length % 15 ≠ 0)
    (hsize : file.length + l.size e.len * s.value.length < 2 ^ 32) :
    ∃ file' q, saveBytes { p with events := p.events.set i { e with value := .items s.value } } = .ok file' ∧
      parseFile file' = .ok q ∧ q.format = p.format ∧ q.ppq = p.ppq ∧
      q.events.map observe = (p.events.set i { e with value := .items s.value }).map observe := by
  have hve := hv e (List.mem_of_getElem? hi)
  rw [hk, hrecs] at hve
  obtain ⟨v1, v2⟩ := hve
  have hvs := lfits_value v1 r
  have hil := List.getElem?_eq_some_iff.1 hi
  have hsplit : p.events = p.events.take i ++ e :: p.events.drop (i + 1) := by
    have := List.take_append_drop i p.events
    rw [List.drop_eq_getElem_cons hil.1, hil.2] at this
    exact this.symm
  have hsplit' : p.events.set i { e with value := .items s.value } =
      p.events.take i ++ { e with value := .items s.value } :: p.events.drop (i + 1) := by
    rw [List.set_eq_take_append_cons_drop, if_pos hil.1]
  have hkind := (hwt _ _ _ hsplit).2.1
  have hid : e.id < 256 := (hwt _ _ _ hsplit).1
  have hlistid : ∀ id : Nat, id = 199 ∨ id = 201 → ∀ before l, kindOf before id ≠ some (.list l) := by
    have htext : ∀ before l, textKind before ≠ some (.list l) := by
      intro before l h
      unfold textKind at h
      split at h
      · cases h
      split at h
      · cases h
      · split at h <;> cases h
    rintro id (rfl | rfl) before l h <;> unfold kindOf at h
    · rw [show enumType enums 199 = some .ascii by decide +kernel] at h
      cases h
    · rw [show enumType enums 201 = none by decide +kernel] at h
      exact htext _ _ h
  have h199 : e.id ≠ 199 := fun h => hlistid _ (.inl h) _ _ (hkind.trans (by rw [hk]))
  have h201 : e.id ≠ 201 := fun h => hlistid _ (.inr h) _ _ (hkind.trans (by rw [hk]))
  have hwt' : WellTyped (p.events.set i { e with value := .items s.value }) := by
    rw [hsplit']
    refine wellTyped_replace (e := e) (hsplit ▸ hwt) rfl rfl (fun h => absurd h h199) ?_ (fun h => absurd h h201)
    rw [textKind_append, textKind_append]
    simp [h199]
  have hv' : ∀ y ∈ p.events.set i { e with value := .items s.value }, validValue y.kind y.len y.value := by
    intro y hy
    rcases List.mem_or_eq_of_mem_set hy with hy | rfl
    · exact hv y hy
    · show validValue e.kind e.len (.items s.value)
      rw [hk]
      exact ⟨hvs, hu⟩
  obtain ⟨b, hb, bl, -⟩ := greedy_roundtrip ⟨e.len⟩ (itemSize_list l e.len) (l.size_pos e.len) hvs
  have pay : Event.payload { e with value := .items s.value } = .ok b := by
    unfold Event.payload; dsimp only; rw [hk]; exact hb
  have hy : ∃ y, Event.toBytes { e with value := .items s.value } = .ok y ∧ y.length ≤ b.length + 6 := by
    have hvl : (varBuild b.length).length ≤ 5 := varBuild_length (by decide) (by
      have : (2 : Nat) ^ 32 < 128 ^ 5 := by decide
      omega)
    unfold Event.toBytes
    rw [pay]
    dsimp only
    rw [intBuild_nat (w := 1) (n := e.id) (by omega)]
    dsimp only
    split
    · exact ⟨_, rfl, by simp; omega⟩
    · exact ⟨_, rfl, by simp; omega⟩
  obtain ⟨y, hy, hyl⟩ := hy
  obtain ⟨raws, k1, k2, k3, k4, k5⟩ := (C03_save_succeeds p).1 ⟨_, hsave⟩
  have hcs : channelStarts (p.events.set i { e with value := .items s.value }) = channelStarts p.events := by
    have key : ∀ l : List Event, channelStarts l = ((l.map Event.id).filter fun j => decide (j = 64)).length := by
      intro l
      unfold channelStarts
      rw [List.filter_map, List.length_map]
      rfl
    rw [key, key, set_id hi]
  have hraws : (p.events.set i { e with value := .items s.value }).map Event.toBytes = (raws.set i y).map .ok := by
    rw [List.map_set, k1, List.map_set, hy]
  have hlen : file.length = 22 + raws.flatten.length := by
    obtain ⟨⟨_, _, _, _, _, _, _, _, _, _, raws', a1, _, _, _, _, a6⟩, _⟩ := C03_saved_header p file hsave
    have : raws' = raws := by
      have hinj : (raws'.map Except.ok : List (Py Bytes)) = raws.map .ok := a6.symm.trans k1
      exact List.map_inj_right (fun _ _ h => Except.ok.inj h) |>.1 hinj
    rw [a1, this]
    simp
    omega
  have hle := flatten_set_le (raws := raws) (i := i) (y := y)
  obtain ⟨file', hf'⟩ := (C03_save_succeeds { p with events := p.events.set i { e with value := .items s.value } }).2
    ⟨raws.set i y, hraws, by dsimp only; rw [hcs]; exact k2, k3, k4, by omega⟩
  obtain ⟨q, q1, q2, q3, _, q5, _⟩ := C04_save_parse
    { p with events := p.events.set i { e with value := .items s.value } } file' hf hq hwt' hv' hf'
  exact ⟨file', q, hf', q1, q2, q3, q5⟩

end

namespace ListDemo

/-- A playlist item of the old layout. -/
def oldItem : Rec := [("position", some (.int 0)), ("pattern_base", some (.int 20480)), ("item_index", some (.int 20481)),
  ("length", some (.int 384)), ("track_rvidx", some (.int 198)), ("group", some (.int 0)), ("_u1", some (.bytes [120, 0])),
  ("item_flags", some (.int 64)), ("_u2", some (.bytes [64, 100, 128, 128])), ("start_offset", some (.f32 0)),
  ("end_offset", some (.f32 0)), ("_u3", none)]

theorem oldItem_valid [FloatEnv] : validItem ⟨32 * 14⟩ (LName.fields .playlist) oldItem := by
  refine ⟨rfl, rfl, rfl, rfl, rfl, rfl, rfl, rfl, rfl, rfl, rfl, rfl, rfl, rfl, rfl, rfl, rfl, rfl, rfl, ?_, ?_, ?_, ?_, ?_, ?_⟩
  all_goals first | rfl | decide | exact (show (0 : Nat) < 2 ^ 32 by decide) | trivial

end ListDemo

/-- **C128** (refuted) That adding a fitting record to a list event adds it to the file: with a fifteenth item, a playlist of
the old layout is read back as 8 items of the new layout. -/
theorem C128_playlist_refuted [FloatEnv] : ∃ recs s hs b rs', LFits .playlist (32 * 14) recs s hs ∧ recs.length = 14 ∧
    (∀ r ∈ recs, validItem ⟨32 * 14⟩ (LName.fields .playlist) r) ∧
    s.value.length = 15 ∧ (Kind.list .playlist).build (32 * 14) (.items s.value) = .ok b ∧
    (Kind.list .playlist).parse b = .ok (.items rs') ∧ rs'.length = 8 := by
  have hv : ∀ r ∈ List.replicate 14 ListDemo.oldItem, validItem ⟨32 * 14⟩ (LName.fields .playlist) r := fun r hr => by
    rw [(List.mem_replicate.1 hr).2]; exact ListDemo.oldItem_valid
  have hr : LFits .playlist (32 * 14) (List.replicate 14 ListDemo.oldItem)
      ((ListObj.parse (List.replicate 14 ListDemo.oldItem)).run (.append ListDemo.oldItem)).1 [] :=
    .op .parsed ListDemo.oldItem_valid
  have hl : ((ListObj.parse (List.replicate 14 ListDemo.oldItem)).run (.append ListDemo.oldItem)).1.value.length = 15 := by
    rw [value_length]; rfl
  obtain ⟨b, rs', h1, _, h3, h4, h5⟩ := C128_reread_exact .playlist (32 * 14) (lfits_value hv hr)
  refine ⟨_, _, _, b, rs', hr, by simp, hv, hl, h1, h3, ?_⟩
  have := h5 fun h => (h4.1 h) ⟨rfl, by decide, fun h => (by rw [h] at hl; cases hl), by rw [hl]⟩
  omega

namespace ListDemo

open Demo (note played)

/-- The hypotheses of `C128_methods` and `C128_items_exact` can be met after several methods. -/
example : ∃ s hs it, LReach [note, note] s hs ∧ it ∈ hs ∧ s.value.length = 4 := by
  refine ⟨(((ListObj.parse [note, note]).run (.pop (-1))).1.run (.extend [note, note, note])).1, _, ⟨1, 1⟩,
    .op (.op (.fetch .parsed) _) _, ?_, by decide +kernel⟩
  decide +kernel

theorem note_valid [FloatEnv] : validItem ⟨48⟩ (LName.fields .notes) note :=
  ⟨rfl, rfl, rfl, rfl, rfl, rfl, rfl, rfl, rfl, rfl, rfl, rfl, rfl, rfl, rfl, rfl, rfl, rfl, rfl, rfl, rfl,
    rfl, rfl, rfl, rfl, rfl, rfl, rfl, trivial⟩

/-- The hypotheses of `C128_saved_partial` about the list can be met: a pattern with two notes (`Demo.played`, which can be saved, see
`C103_saved`), to which a third one is added before the first. -/
example [FloatEnv] : ∃ e s hs, played.events[3]? = some e ∧ e.kind = .list .notes ∧ e.value = .items [note, note] ∧
    LFits .notes e.len [note, note] s hs ∧ s.value = [note, note, note] :=
  ⟨_, ((ListObj.parse [note, note]).run (.insert 0 note)).1, [], rfl, rfl, rfl, .op .parsed note_valid, by decide +kernel⟩

/-- Containers with different hidden fields are found. -/
example : (ListObj.parse [[("value", some (.int 1)), ("_u1", some (.int 2))]]).index [("value", some (.int 1))] = .ok 0 := by
  decide +kernel

end ListDemo

end PyFLP
