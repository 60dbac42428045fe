import Verif.Notes
import Verif.Props.Items
/-!
# Note keys (C54) and items of changed lists (C55)
-/

namespace PyFLP

open Spec

/-! ### C54 -/

theorem intRepr_inj {i j : Int} (h : intRepr i = intRepr j) : i = j := by
  have := congrArg pyInt h
  rw [pyInt_intRepr, pyInt_intRepr] at this
  exact Option.some.inj this

theorem intRepr_head (i : Int) : ∃ c cs, intRepr i = c :: cs ∧ c ≠ 35 := by
  unfold intRepr
  split
  · exact ⟨45, _, rfl, by decide⟩
  · cases h : natRepr i.natAbs with
    | nil => exact absurd h (natRepr_ne_nil _)
    | cons c cs =>
      refine ⟨c, cs, rfl, fun e => ?_⟩
      have := natRepr_digits i.natAbs c (by rw [h]; simp)
      omega

namespace Spec

/-- The twelve keys of an octave: letter, and whether it is raised. -/
def semitones : List (Nat × Bool) := [
  (67, false), (67, true), (68, false), (68, true), (69, false), (70, false), (70, true), (71, false), (71, true),
  (65, false), (65, true), (66, false)]

/-- `name` is the name of a key: letter, a sharp sign where due, and the octave. -/
def IsKeyName (key : Int) (name : PStr) : Prop :=
  ∃ octave semitone letter sharp, key = 12 * octave + semitone ∧ 0 ≤ semitone ∧ semitone < 12 ∧
    semitones[semitone.toNat]? = some (letter, sharp) ∧
    name = letter :: (if sharp then [35] else []) ++ intRepr octave

end Spec

theorem noteNames_semitones : ∀ n < 12, ∃ letter sharp, semitones[n]? = some (letter, sharp) ∧
    noteNames.getD n [] = letter :: (if sharp then [35] else []) := by
  intro n hn
  have h : ∀ n < 12, ((semitones[n]?).map fun x => x.1 :: (if x.2 then [35] else [])) = some (noteNames.getD n []) := by
    decide
  have := h n hn
  cases hs : semitones[n]? with
  | none => rw [hs] at this; cases this
  | some x =>
    rw [hs] at this
    exact ⟨x.1, x.2, rfl, (Option.some.inj this).symm⟩

theorem noteName_spec (key : Int) : IsKeyName key (noteName key) := by
  obtain ⟨letter, sharp, h1, h2⟩ := noteNames_semitones (key % 12).toNat (by omega)
  refine ⟨key / 12, key % 12, letter, sharp, by omega, by omega, by omega, h1, ?_⟩
  unfold noteName
  rw [h2]

/-- C54. Every key has one name. -/
theorem keyName_unique {key : Int} {n m : PStr} (hn : IsKeyName key n) (hm : IsKeyName key m) : n = m := by
  obtain ⟨o, s, l, sh, h1, h2, h3, h4, h5⟩ := hn
  obtain ⟨o', s', l', sh', g1, g2, g3, g4, g5⟩ := hm
  have : s = s' := by omega
  subst this
  have : o = o' := by omega
  subst this
  rw [h4] at g4
  cases g4
  rw [h5, g5]

theorem semitones_inj : ∀ a < 12, ∀ b < 12, semitones[a]? = semitones[b]? → a = b := by decide

/-- C54. Different keys have different names. -/
theorem C54_names_distinct {k k' : Int} {n : PStr} (h : IsKeyName k n) (h' : IsKeyName k' n) : k = k' := by
  obtain ⟨o, s, l, sh, h1, h2, h3, h4, h5⟩ := h
  obtain ⟨o', s', l', sh', g1, g2, g3, g4, g5⟩ := h'
  rw [h5] at g5
  obtain ⟨c, cs, hc, hc'⟩ := intRepr_head o
  obtain ⟨d, ds, hd, hd'⟩ := intRepr_head o'
  have key : l = l' ∧ sh = sh' ∧ intRepr o = intRepr o' := by
    cases sh <;> cases sh' <;> simp [hc, hd] at g5
    · exact ⟨g5.1, rfl, by rw [hc, hd, g5.2.1, g5.2.2]⟩
    · exact absurd g5.2.1 hc'
    · exact absurd g5.2.1.symm hd'
    · exact ⟨g5.1, rfl, by rw [hc, hd, g5.2.1, g5.2.2]⟩
  obtain ⟨rfl, rfl, e3⟩ := key
  have ho := intRepr_inj e3
  have := semitones_inj s.toNat (by omega) s'.toNat (by omega) (by rw [h4, g4])
  omega

/-- C54. Assigning a number from 0 to 131 to `note.key` stores it: the key of this note reads
as the name of that number, and nothing else changes in this or any other note.  Any other
number raises `ValueError` and changes nothing. -/
theorem C54_key_number {l : List Rec} {s : ListObj} {hs : List Item} {es : List Edit} (r : IReach l s hs es)
    {it : Item} (hm : it ∈ hs) (k : Int) :
    if 0 ≤ k ∧ k ≤ 131 then
      ∃ s' name, s.setNoteKey it (.int k) = (s', .ok ()) ∧ s'.noteKey it = .ok name ∧ IsKeyName k name ∧
        s'.value = s.value.modify it.index (fun r => Rec.put r "key" (some (.int k))) ∧
        ∀ it' ∈ hs, ∀ key', it'.index ≠ it.index ∨ key' ≠ "key" → s'.get it' key' = s.get it' key'
    else s.setNoteKey it (.int k) = (s, .error .valueError) := by
  by_cases h : 0 ≤ k ∧ k ≤ 131
  · rw [if_pos h]
    obtain ⟨s', h1, h2, h3, h4⟩ := C40_edit_step r hm "key" (some (.int k))
    refine ⟨s', noteName k, ?_, ?_, noteName_spec k, h2, h4⟩
    · unfold ListObj.setNoteKey
      dsimp only
      rw [if_pos (by omega), h1]
    · unfold ListObj.noteKey
      rw [h3 it hm rfl]
  · rw [if_neg h]
    unfold ListObj.setNoteKey
    dsimp only
    rw [if_neg (by omega)]

theorem setKeyLoop_fails {l : List Rec} {hs : List Item} {it : Item} (hm : it ∈ hs) (value : PStr) (names : List PStr) :
    ∀ (i : Nat) {s : ListObj} {es : List Edit}, IReach l s hs es → (s.setKeyLoop it value names i).2 = .error .valueError := by
  induction names with
  | nil => intro i s es _; rfl
  | cons name names ih =>
    intro i s es r
    rw [ListObj.setKeyLoop]
    split
    · split
      · rfl
      · next octave _ =>
        obtain ⟨s', h1, _⟩ := C40_edit_step r hm "key" (some (.int (octave * 12 + i)))
        rw [h1]
        have r' := r.edit hm "key" (some (.int (octave * 12 + i)))
        rw [h1] at r'
        exact ih (i + 1) r'
    · exact ih (i + 1) r

/-- C54 is false for names: assigning a name to `note.key` raises `ValueError`, whatever
the name is. -/
theorem C54_key_name_refuted {l : List Rec} {s : ListObj} {hs : List Item} {es : List Edit} (r : IReach l s hs es)
    {it : Item} (hm : it ∈ hs) (name : PStr) : (s.setNoteKey it (.str name)).2 = .error .valueError :=
  setKeyLoop_fails hm name noteNames 0 r

namespace Demo

/-- Two notes, key 60 and 61. -/
def twoNotes : List Rec := [[("position", some (.int 0)), ("key", some (.int 60))],
  [("position", some (.int 96)), ("key", some (.int 61))]]

theorem twoNotes_reach : IReach twoNotes (.parse twoNotes) ([] ++ (ListObj.parse twoNotes).items) [] :=
  .fetch .parsed

theorem twoNotes_items : ([] ++ (ListObj.parse twoNotes).items) = [⟨0, 0⟩, ⟨1, 1⟩] := by decide

end Demo

open Demo in
example : IReach twoNotes (.parse twoNotes) [⟨0, 0⟩, ⟨1, 1⟩] [] ∧ (⟨1, 1⟩ : Item) ∈ [(⟨0, 0⟩ : Item), ⟨1, 1⟩] ∧
    (0 : Int) ≤ 131 ∧ IsKeyName 61 (PStr.lit "C#5") := by
  refine ⟨twoNotes_items ▸ twoNotes_reach, by simp, by decide, 5, 1, 67, true, by decide, by decide, by decide, by decide, ?_⟩
  simp [intRepr, natRepr, PStr.lit]

open Demo in
/-- The exception comes too late: with `"D4"`, the first note has the new key already. -/
theorem C54_key_name_changes_refuted :
    ((ListObj.parse twoNotes).setNoteKey ⟨0, 0⟩ (.str (PStr.lit "D4"))).2 = .error .valueError ∧
    (((ListObj.parse twoNotes).setNoteKey ⟨0, 0⟩ (.str (PStr.lit "D4"))).1.value.map fun r => Rec.lookup r "key") =
      [some (some (.int 50)), some (some (.int 61))] := by decide +kernel

/-! ### C55 -/

/-- C55 is false when records are deleted: of three notes the first is deleted; an assignment
through the item object of the second one overwrites the record of the third. -/
theorem C55_stale_item_refuted : ∃ (l : List Rec) (s s' s'' : ListObj) (hs : List Item) (it : Item),
    IReach l s hs [] ∧ it ∈ hs ∧ s.delete 0 = (s', .ok ()) ∧ s'.set it "key" (some (.int 99)) = (s'', .ok ()) ∧
    l = [[("key", some (.int 1))], [("key", some (.int 2))], [("key", some (.int 3))]] ∧
    s.get it "key" = .ok (some (.int 2)) ∧
    s''.value = [[("key", some (.int 99))], [("key", some (.int 99))]] := by
  let l : List Rec := [[("key", some (.int 1))], [("key", some (.int 2))], [("key", some (.int 3))]]
  refine ⟨l, .parse l, ((ListObj.parse l).delete 0).1, (((ListObj.parse l).delete 0).1.set ⟨1, 1⟩ "key" (some (.int 99))).1,
    [] ++ (ListObj.parse l).items, ⟨1, 1⟩, .fetch .parsed, by decide, rfl, rfl, rfl, rfl, by decide⟩

namespace Spec

/-- As `IReach`, but records may also be deleted (`del event[i]`).  `fresh` has the item objects
fetched after the last deletion. -/
inductive DReach : ListObj → List Item → Prop
  | parsed (l : List Rec) : DReach (.parse l) []
  | fetch {s hs} (r : DReach s hs) : DReach s (hs ++ s.items)
  | edit {s hs it} (r : DReach s hs) (h : it ∈ hs) (key : String) (x : Option LV) : DReach (s.set it key x).1 hs
  | delete {s hs i} (r : DReach s hs) (h : i < s.list.length) : DReach (s.delete i).1 []

end Spec

theorem dreach_inv {s : ListObj} {hs : List Item} (r : DReach s hs) :
    s.list.Nodup ∧ (∀ a ∈ s.list, a < s.objs.length) ∧ ∀ it ∈ hs, s.list[it.index]? = some it.ref := by
  induction r with
  | parsed l => exact ⟨List.nodup_range, fun a ha => by simpa [ListObj.parse] using ha, by simp⟩
  | fetch r ih =>
    obtain ⟨h1, h2, h3⟩ := ih
    refine ⟨h1, h2, fun it hit => ?_⟩
    rcases List.mem_append.1 hit with h | h
    · exact h3 it h
    · obtain ⟨⟨a, i⟩, hx, rfl⟩ := List.mem_map.1 h
      exact List.mem_zipIdx_iff_getElem?.1 hx
  | @edit s hs it r hm key x ih =>
    obtain ⟨h1, h2, h3⟩ := ih
    obtain ⟨hlt, hget⟩ := List.getElem?_eq_some_iff.1 (h3 it hm)
    have hset : (s.set it key x).1 = ⟨s.objs.set it.ref (Rec.put (s.objs.getD it.ref []) key x), s.list⟩ := by
      unfold ListObj.set
      dsimp only
      rw [if_pos hlt]
      have : s.list.set it.index it.ref = s.list := by rw [← hget]; exact List.set_getElem_self hlt
      rw [this]
    rw [hset]
    exact ⟨h1, by simpa using h2, h3⟩
  | @delete s hs i r h ih =>
    obtain ⟨h1, h2, _⟩ := ih
    unfold ListObj.delete
    rw [if_pos h]
    exact ⟨h1.sublist (List.eraseIdx_sublist ..), fun a ha => h2 a (List.eraseIdx_subset ha), by simp⟩

theorem map_eraseIdx {α β : Type} (f : α → β) : ∀ (l : List α) (i : Nat), (l.eraseIdx i).map f = (l.map f).eraseIdx i
  | [], _ => by simp
  | a :: l, 0 => by simp
  | a :: l, i + 1 => by simp [map_eraseIdx f l i]

/-- C55 for item objects fetched after the last deletion: a deletion removes exactly the record
at its place, and an edit through such an item changes exactly the record at the item's place. -/
theorem C55_deletion_partial {s : ListObj} {hs : List Item} (r : DReach s hs) :
    (∀ i, i < s.value.length → ∃ s', s.delete i = (s', .ok ()) ∧ s'.value = s.value.eraseIdx i) ∧
    ∀ it ∈ hs, ∀ key x, ∃ s', s.set it key x = (s', .ok ()) ∧
      s'.value = s.value.modify it.index fun r => Rec.put r key x := by
  obtain ⟨h1, h2, h3⟩ := dreach_inv r
  have hlen : s.value.length = s.list.length := by simp [ListObj.value]
  constructor
  · intro i hi
    rw [hlen] at hi
    refine ⟨_, by unfold ListObj.delete; rw [if_pos hi], ?_⟩
    unfold ListObj.value
    dsimp only
    exact map_eraseIdx ..
  · intro it hit key x
    obtain ⟨hlt, hget⟩ := List.getElem?_eq_some_iff.1 (h3 it hit)
    have hset : s.set it key x = (⟨s.objs.set it.ref (Rec.put (s.objs.getD it.ref []) key x), s.list⟩, .ok ()) := by
      unfold ListObj.set
      dsimp only
      rw [if_pos hlt]
      have : s.list.set it.index it.ref = s.list := by rw [← hget]; exact List.set_getElem_self hlt
      rw [this]
    refine ⟨_, hset, ?_⟩
    unfold ListObj.value
    dsimp only
    apply List.ext_getElem
    · simp
    · intro j j1 j2
      have hj : j < s.list.length := by simpa using j1
      have href : it.ref < s.objs.length := h2 _ (hget ▸ List.getElem_mem hlt)
      simp only [List.getElem_map, List.getElem_modify, List.getD_eq_getElem?_getD, List.getElem?_set]
      by_cases e : it.index = j
      · subst e
        rw [if_pos rfl, if_pos hget.symm, if_pos href, ← hget]
        rfl
      · rw [if_neg e, if_neg]
        intro e2
        exact e ((List.getElem_inj h1).1 (hget.trans e2))

open Demo in
example : DReach ((ListObj.parse twoNotes).delete 0).1 ([] ++ ((ListObj.parse twoNotes).delete 0).1.items) ∧
    ([] ++ ((ListObj.parse twoNotes).delete 0).1.items) = [⟨1, 0⟩] :=
  ⟨.fetch (.delete (.parsed _) (by decide)), by decide⟩

end PyFLP
