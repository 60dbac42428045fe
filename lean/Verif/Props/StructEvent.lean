import Verif.StructEvent
import Verif.Props.EventEq
import Verif.Props.Items
/-!
# Struct events as dictionaries (C129)
-/

namespace PyFLP

open Spec

namespace Spec

/-- The field exists and is not `None`; it gets the value, the other fields and the order of the keys stay. -/
def SetOk (r : Rec) (key : String) (x : Option LV) (r' : Rec) : Prop :=
  (∃ old, Rec.lookup r key = some (some old)) ∧ r'.map Prod.fst = r.map Prod.fst ∧
  ∀ k, Rec.lookup r' k = if k = key then some x else Rec.lookup r k

/-- Why an assignment is refused: there is no such field, or it is `None`, because the event is too short to have it. -/
def Refused (r : Rec) (key : String) (err : Exc) : Prop :=
  (Rec.lookup r key = none ∧ err = .keyError) ∨ (Rec.lookup r key = some none ∧ err = .propertyCannotBeSet)

/-- Assignments one after the other. -/
inductive SetAll : Rec → List (String × Option LV) → Rec → Prop
  | nil (r) : SetAll r [] r
  | cons {r key x r' rest r''} (h : SetOk r key x r') (t : SetAll r' rest r'') : SetAll r ((key, x) :: rest) r''

/-- The first entry with the key is gone. -/
def TakenOut (r : Rec) (key : String) (r' : Rec) : Prop :=
  ∃ pre v post, r = pre ++ (key, v) :: post ∧ (∀ p ∈ pre, p.1 ≠ key) ∧ r' = pre ++ post

/-- Every given key has the value given last, the other keys are as before; new keys come behind. -/
def Merged (r : Rec) (items : List (String × Option LV)) (r' : Rec) : Prop :=
  (∀ k pre x post, items = pre ++ (k, x) :: post → (∀ p ∈ post, p.1 ≠ k) → Rec.lookup r' k = some x) ∧
  (∀ k, (∀ p ∈ items, p.1 ≠ k) → Rec.lookup r' k = Rec.lookup r k) ∧
  ∃ new, r'.map Prod.fst = r.map Prod.fst ++ new ∧ ∀ k ∈ new, k ∈ items.map Prod.fst

/-- What an operation does to the container of the dictionary methods, and what it gives or raises. -/
inductive Did : DOp → Rec → Rec → Py (Option (Option LV)) → Prop
  | set {r key x r'} (h : SetOk r key x r') : Did (.set key x) r r' (.ok none)
  | setNo {r key x err} (h : Refused r key err) : Did (.set key x) r r (.error err)
  | del {r key r'} (h : TakenOut r key r') : Did (.del key) r r' (.ok none)
  | delNo {r key} (h : Rec.lookup r key = none) : Did (.del key) r r (.error .keyError)
  | pop {r key r' v} (h : TakenOut r key r') (hv : Rec.lookup r key = some v) : Did (.pop key) r r' (.ok (some v))
  | popNo {r key} (h : Rec.lookup r key = none) : Did (.pop key) r r (.error .keyError)
  | popitem (k v r) : Did .popitem ((k, v) :: r) r (.ok (some v))
  | popitemNo : Did .popitem [] [] (.error .keyError)
  | clear (r) : Did .clear r [] (.ok none)
  | setdefault {r key x v} (h : Rec.lookup r key = some v) : Did (.setdefault key x) r r (.ok (some v))
  | setdefaultNo {r key x} (h : Rec.lookup r key = none) : Did (.setdefault key x) r r (.error .keyError)
  | update {r items r'} (h : SetAll r items r') : Did (.update items) r r' (.ok none)
  /-- the assignments before the one that is refused stay -/
  | updateNo {r done r' key x rest err} (h : SetAll r done r') (hr : Refused r' key err) :
      Did (.update (done ++ (key, x) :: rest)) r r' (.error err)
  | merge {r items r'} (h : Merged r items r') : Did (.merge items) r r' (.ok none)
  | assign (r x) : Did (.assign x) r r (.ok none)

/-- All histories of a struct event. -/
inductive DictReach (r : Rec) : DictEv → List DOp → Prop
  | parsed : DictReach r (.parsed r) []
  | op {d os} (h : DictReach r d os) (o : DOp) : DictReach r (d.run o).1 (os ++ [o])

end Spec

/-! ### Steps -/

theorem setItem_did (d : DictEv) (key : String) (x : Option LV) :
    ((d.setItem key x).2 = .ok () ∧ SetOk d.data key x (d.setItem key x).1.data ∨
      (d.setItem key x).1 = d ∧ ∃ err, (d.setItem key x).2 = .error err ∧ Refused d.data key err) ∧
    (d.setItem key x).1.own = d.own := by
  unfold DictEv.setItem
  split
  · next h => exact ⟨.inr ⟨rfl, _, rfl, .inl ⟨h, rfl⟩⟩, rfl⟩
  · next h => exact ⟨.inr ⟨rfl, _, rfl, .inr ⟨h, rfl⟩⟩, rfl⟩
  · next old h =>
    refine ⟨.inl ⟨rfl, ⟨old, h⟩, (lookup_update h x).2.1, fun k => ?_⟩, rfl⟩
    split
    · next e => subst e; exact (lookup_update h x).1
    · next e => exact (lookup_update h x).2.2 k e

theorem updateAll_did (d : DictEv) (items : List (String × Option LV)) :
    ((d.updateAll items).2 = .ok () ∧ SetAll d.data items (d.updateAll items).1.data ∨
      ∃ done key x rest err, items = done ++ (key, x) :: rest ∧ SetAll d.data done (d.updateAll items).1.data ∧
        Refused (d.updateAll items).1.data key err ∧ (d.updateAll items).2 = .error err) ∧
    (d.updateAll items).1.own = d.own := by
  induction items generalizing d with
  | nil => exact ⟨.inl ⟨rfl, .nil _⟩, rfl⟩
  | cons kv rest ih =>
    obtain ⟨key, x⟩ := kv
    obtain ⟨h, ho⟩ := setItem_did d key x
    unfold DictEv.updateAll
    rcases h with ⟨h1, h2⟩ | ⟨h1, err, h2, h3⟩
    · have hs : d.setItem key x = ((d.setItem key x).1, .ok ()) := Prod.ext rfl h1
      dsimp only
      rw [hs]
      dsimp only
      obtain ⟨i1, i2⟩ := ih (d.setItem key x).1
      refine ⟨?_, i2.trans ho⟩
      rcases i1 with ⟨j1, j2⟩ | ⟨done, key', x', rest', err, j1, j2, j3, j4⟩
      · exact .inl ⟨j1, .cons h2 j2⟩
      · exact .inr ⟨(key, x) :: done, key', x', rest', err, by rw [j1]; rfl, .cons h2 j2, j3, j4⟩
    · have hs : d.setItem key x = (d, .error err) := Prod.ext h1 h2
      dsimp only
      rw [hs]
      exact ⟨.inr ⟨[], key, x, rest, err, rfl, .nil _, h3, rfl⟩, rfl⟩

theorem erase_without {r : Rec} {key : String} {v : Option LV} (h : Rec.lookup r key = some v) : TakenOut r key (Rec.erase r key) := by
  induction r with
  | nil => cases h
  | cons nv r ih =>
    obtain ⟨n, w⟩ := nv
    unfold Rec.lookup at h
    unfold Rec.erase
    split
    · next e => subst e; exact ⟨[], w, r, rfl, by simp, rfl⟩
    · next e =>
      rw [if_neg e] at h
      obtain ⟨pre, u, post, h1, h2, h3⟩ := ih h
      refine ⟨(n, w) :: pre, u, post, by rw [h1]; rfl, fun p hp => ?_, by rw [h3]; rfl⟩
      rcases List.mem_cons.1 hp with rfl | hp
      · exact e
      · exact h2 p hp

theorem put_names (r : Rec) (k : String) (x : Option LV) :
    (Rec.put r k x).map Prod.fst = r.map Prod.fst ∨ (Rec.put r k x).map Prod.fst = r.map Prod.fst ++ [k] := by
  unfold Rec.put
  split
  · next h =>
    cases hl : Rec.lookup r k with
    | none => rw [hl] at h; cases h
    | some old => exact .inl (lookup_update hl x).2.1
  · exact .inr (by simp)

theorem merged_foldl (items : List (String × Option LV)) (r : Rec) :
    Merged r items (items.foldl (fun r kv => Rec.put r kv.1 kv.2) r) := by
  induction items generalizing r with
  | nil => exact ⟨fun k pre x post h => by simp at h, fun _ _ => rfl, [], by simp, by simp⟩
  | cons kv rest ih =>
    obtain ⟨key, v⟩ := kv
    obtain ⟨h1, h2, new, h3, h4⟩ := ih (Rec.put r key v)
    rw [List.foldl_cons]
    refine ⟨fun k pre x post hs hp => ?_, fun k hk => ?_, ?_⟩
    · cases pre with
      | nil =>
        injection hs with e1 e2
        injection e1 with e1 e3
        subst e1 e2 e3
        rw [h2 _ hp]
        exact (lookup_put r _ _).1
      | cons a pre =>
        injection hs with e1 e2
        exact h1 k pre x post e2 hp
    · rw [h2 k fun p hp => hk p (List.mem_cons_of_mem _ hp)]
      exact (lookup_put r _ _).2 k fun e => hk (key, v) (List.mem_cons_self ..) e.symm
    · rcases put_names r key v with h | h
      · exact ⟨new, by rw [h3, h], fun k hk => List.mem_cons_of_mem _ (h4 k hk)⟩
      · refine ⟨key :: new, by rw [h3, h]; simp, fun k hk => ?_⟩
        rcases List.mem_cons.1 hk with rfl | hk
        · exact List.mem_cons_self ..
        · exact List.mem_cons_of_mem _ (h4 k hk)

/-! ### C129 -/

/-- **C129** Every operation on a struct event, in any state: what it does to the fields, what it gives, and when it is
refused.  Only an assignment to `value` changes what `value` is. -/
theorem C129_operations (d : DictEv) (o : DOp) :
    Did o d.data (d.run o).1.data (d.run o).2 ∧ ((∀ r, o ≠ .assign r) → (d.run o).1.own = d.own) := by
  cases o with
  | set key x =>
    obtain ⟨h | ⟨h1, err, h2, h3⟩, ho⟩ := setItem_did d key x
    · refine ⟨?_, fun _ => ho⟩
      show Did _ _ _ (Except.map _ (d.setItem key x).2)
      rw [h.1]
      exact .set h.2
    · refine ⟨?_, fun _ => ho⟩
      show Did _ _ (d.setItem key x).1.data (Except.map _ (d.setItem key x).2)
      rw [h1, h2]
      exact .setNo h3
  | del key =>
    simp only [DictEv.run]
    split
    · next h => exact ⟨.delNo h, fun _ => rfl⟩
    · next v h => exact ⟨.del (erase_without h), fun _ => rfl⟩
  | pop key =>
    simp only [DictEv.run]
    split
    · next h => exact ⟨.popNo h, fun _ => rfl⟩
    · next v h => exact ⟨.pop (erase_without h) h, fun _ => rfl⟩
  | popitem =>
    simp only [DictEv.run]
    split
    · next h => refine ⟨?_, fun _ => rfl⟩; rw [h]; exact .popitemNo
    · next k v r h => refine ⟨?_, fun _ => rfl⟩; dsimp only; rw [h]; exact .popitem k v r
  | clear => exact ⟨.clear _, fun _ => rfl⟩
  | setdefault key x =>
    simp only [DictEv.run]
    split
    · next v h => exact ⟨.setdefault h, fun _ => rfl⟩
    · next h =>
      have : d.setItem key x = (d, .error .keyError) := by unfold DictEv.setItem; rw [h]
      rw [this]
      exact ⟨.setdefaultNo h, fun _ => rfl⟩
  | update items =>
    obtain ⟨h | ⟨done, key, x, rest, err, h1, h2, h3, h4⟩, ho⟩ := updateAll_did d items
    · refine ⟨?_, fun _ => ho⟩
      show Did _ _ _ (Except.map _ (d.updateAll items).2)
      rw [h.1]
      exact .update h.2
    · refine ⟨?_, fun _ => ho⟩
      show Did _ _ (d.updateAll items).1.data (Except.map _ (d.updateAll items).2)
      rw [h4]
      have := Did.updateNo (x := x) (rest := rest) h2 h3
      rwa [← h1] at this
  | merge items => exact ⟨.merge (merged_foldl items d.data), fun _ => rfl⟩
  | assign r => exact ⟨.assign _ _, fun h => absurd rfl (h r)⟩

/-- **C129** Reading a field gives a value that the event has under that key; a key it does not have raises `KeyError`. -/
theorem C129_get (d : DictEv) (key : String) :
    (key ∈ d.data.map Prod.fst → ∃ v, d.get key = .ok v ∧ (key, v) ∈ d.data) ∧
    (key ∉ d.data.map Prod.fst → d.get key = .error .keyError) := by
  unfold DictEv.get
  generalize d.data = r
  induction r with
  | nil => exact ⟨fun h => absurd h (by simp), fun _ => rfl⟩
  | cons a r ih =>
    obtain ⟨n, v⟩ := a
    rw [Rec.lookup]
    by_cases e : n = key
    · subst e
      rw [if_pos rfl]
      exact ⟨fun _ => ⟨v, rfl, List.mem_cons_self ..⟩, fun h => absurd (by simp) h⟩
    · rw [if_neg e]
      refine ⟨fun h => ?_, fun h => ih.2 fun hk => h (List.mem_cons_of_mem _ hk)⟩
      rcases List.mem_cons.1 h with h | h
      · exact absurd h.symm e
      · obtain ⟨w, h1, h2⟩ := ih.1 h
        exact ⟨w, h1, List.mem_cons_of_mem _ h2⟩

/-- Both cases occur. -/
example : (DictEv.mk [("pan", some (.int 3)), ("key", none)] none).get "key" = .ok none ∧
    (DictEv.mk [("pan", some (.int 3)), ("key", none)] none).get "mod" = .error .keyError := by decide +kernel

theorem Spec.SetAll.names {r r' : Rec} {items : List (String × Option LV)} (h : SetAll r items r') : r'.map Prod.fst = r.map Prod.fst := by
  induction h with
  | nil => rfl
  | cons h _ ih => exact ih.trans h.2.1

/-- **C129** No operation but `|=` adds keys: the keys are those the event was read with, in their order, without those
that were removed - and if nothing was removed, all of them. -/
theorem C129_keys {r : Rec} {d : DictEv} {os : List DOp} (h : DictReach r d os) (hm : ∀ items, .merge items ∉ os) :
    (d.data.map Prod.fst).Sublist (r.map Prod.fst) ∧
    ((∀ o ∈ os, o ≠ .popitem ∧ o ≠ .clear ∧ ∀ key, o ≠ .del key ∧ o ≠ .pop key) → d.data.map Prod.fst = r.map Prod.fst) := by
  induction h with
  | parsed => exact ⟨List.Sublist.refl _, fun _ => rfl⟩
  | @op d os h o ih =>
    obtain ⟨i1, i2⟩ := ih fun items hi => hm items (List.mem_append_left _ hi)
    have hd := (C129_operations d o).1
    generalize (d.run o).1.data = r' at hd ⊢
    generalize (d.run o).2 = res at hd
    generalize d.data = rd at hd i1 i2
    have hno : ∀ items, o ≠ .merge items := fun items e => hm items (by rw [e]; simp)
    have keep : r'.map Prod.fst = rd.map Prod.fst →
        (r'.map Prod.fst).Sublist (r.map Prod.fst) ∧
        ((∀ o' ∈ os ++ [o], o' ≠ .popitem ∧ o' ≠ .clear ∧ ∀ key, o' ≠ .del key ∧ o' ≠ .pop key) →
          r'.map Prod.fst = r.map Prod.fst) := fun e => by
      rw [e]
      exact ⟨i1, fun hh => i2 fun o' ho' => hh o' (List.mem_append_left _ ho')⟩
    have sub : (r'.map Prod.fst).Sublist (rd.map Prod.fst) → (o = .popitem ∨ o = .clear ∨ ∃ key, o = .del key ∨ o = .pop key) →
        (r'.map Prod.fst).Sublist (r.map Prod.fst) ∧
        ((∀ o' ∈ os ++ [o], o' ≠ .popitem ∧ o' ≠ .clear ∧ ∀ key, o' ≠ .del key ∧ o' ≠ .pop key) →
          r'.map Prod.fst = r.map Prod.fst) := fun e hr => by
      refine ⟨e.trans i1, fun hh => ?_⟩
      obtain ⟨a, b, c⟩ := hh o (by simp)
      rcases hr with hr | hr | ⟨key, hr | hr⟩
      · exact absurd hr a
      · exact absurd hr b
      · exact absurd hr (c key).1
      · exact absurd hr (c key).2
    have without : ∀ key, TakenOut rd key r' → (r'.map Prod.fst).Sublist (rd.map Prod.fst) := by
      rintro key ⟨pre, v, post, h1, _, h3⟩
      rw [h1, h3, List.map_append, List.map_append, List.map_cons]
      exact List.Sublist.append_left (List.sublist_cons_self _ _) _
    cases hd with
    | set h => exact keep h.2.1
    | setNo h => exact keep rfl
    | @del _ key _ h => exact sub (without key h) (.inr (.inr ⟨key, .inl rfl⟩))
    | delNo h => exact keep rfl
    | @pop _ key _ _ h hv => exact sub (without key h) (.inr (.inr ⟨key, .inr rfl⟩))
    | popNo h => exact keep rfl
    | popitem k v r => exact sub (List.sublist_cons_self _ _) (.inl rfl)
    | popitemNo => exact keep rfl
    | clear => exact sub (by simp) (.inr (.inl rfl))
    | setdefault h => exact keep rfl
    | setdefaultNo h => exact keep rfl
    | update h => exact keep h.names
    | updateNo h hr => exact keep h.names
    | merge h => exact absurd rfl (hno _)
    | assign => exact keep rfl


/-- **C129** What is saved, after any history: the container assigned to `value` last, whatever was done to the event as
a dictionary before or after; and if none was assigned, the dictionary. -/
theorem C129_saved_exact {r : Rec} {d : DictEv} {os : List DOp} (h : DictReach r d os) :
    (∀ pre x post, os = pre ++ .assign x :: post → (∀ y, .assign y ∉ post) → d.saved = x) ∧
    ((∀ y, .assign y ∉ os) → d.saved = d.data) := by
  suffices hs : (∀ pre x post, os = pre ++ .assign x :: post → (∀ y, .assign y ∉ post) → d.own = some x) ∧
      ((∀ y, .assign y ∉ os) → d.own = none) from
    ⟨fun pre x post h1 h2 => by unfold DictEv.saved; rw [hs.1 pre x post h1 h2]; rfl,
      fun h1 => by unfold DictEv.saved; rw [hs.2 h1]; rfl⟩
  induction h with
  | parsed => exact ⟨fun pre x post h => by simp at h, fun _ => rfl⟩
  | @op d os h o ih =>
    by_cases ha : ∃ x, o = .assign x
    · obtain ⟨x, rfl⟩ := ha
      refine ⟨fun pre y post hs hp => ?_, fun hn => absurd (by simp) (hn x)⟩
      rcases List.eq_nil_or_concat post with rfl | ⟨post', z, rfl⟩
      · have hs' := congrArg List.getLast? hs
        simp at hs'
        show some x = some y
        rw [hs']
      · have hs' := congrArg List.getLast? hs
        rw [List.concat_eq_append, ← List.cons_append, ← List.append_assoc, List.getLast?_concat, List.getLast?_concat] at hs'
        injection hs' with hs'
        exact absurd (by rw [← hs']; simp) (hp x)
    · have hx : ∀ x, o ≠ .assign x := fun x e => ha ⟨x, e⟩
      rw [(C129_operations d o).2 hx]
      refine ⟨fun pre y post hs hp => ?_, fun hn => ih.2 fun y hy => hn y (List.mem_append_left _ hy)⟩
      rcases List.eq_nil_or_concat post with rfl | ⟨post', z, rfl⟩
      · have hs' := congrArg List.getLast? hs
        simp at hs'
        exact absurd hs' (hx y)
      · rw [List.concat_eq_append, ← List.cons_append, ← List.append_assoc] at hs
        have e := List.append_inj_left' hs rfl
        exact ih.1 pre y post' e fun w hw => hp w (by rw [List.concat_eq_append]; exact List.mem_append_left _ hw)

/-- **C129 (negated)** `update` does all of its assignments or none: when one is refused, those before it stay. -/
theorem C129_update_refuted :
    ¬ ∀ (d : DictEv) (items : List (String × Option LV)) (err : Exc),
      (d.run (.update items)).2 = .error err → (d.run (.update items)).1 = d := by
  intro h
  have := h (.parsed [("pan", some (.int 0)), ("volume", none)]) [("pan", some (.int 5)), ("volume", some (.int 7))]
    .propertyCannotBeSet (by decide +kernel)
  exact absurd this (by decide +kernel)

/-- **C129 (negated)** An accepted assignment reaches the saved file: not after `event.value` was replaced. -/
theorem C129_assigned_refuted :
    ¬ ∀ (r : Rec) (d : DictEv) (os : List DOp) (key : String) (x : Option LV), DictReach r d os →
      (d.run (.set key x)).2 = .ok none → Rec.lookup (d.run (.set key x)).1.saved key = some x := by
  intro h
  have := h [("pan", some (.int 0))] _ _ "pan" (some (.int 5)) (.op .parsed (.assign [("pan", some (.int 3))])) (by decide +kernel)
  exact absurd this (by decide +kernel)

/-- **C129** An accepted assignment reaches what is saved, and no other field of it changes, in every history without an
assignment to `value`. -/
theorem C129_assigned_partial {r : Rec} {d : DictEv} {os : List DOp} (h : DictReach r d os) (hn : ∀ y, .assign y ∉ os)
    (key : String) (x : Option LV) (hok : (d.run (.set key x)).2 = .ok none) (k : String) :
    Rec.lookup (d.run (.set key x)).1.saved k = if k = key then some x else Rec.lookup d.saved k := by
  have h2 := (C129_saved_exact (.op h (.set key x))).2 fun y hy => by
    rcases List.mem_append.1 hy with hy | hy
    · exact hn y hy
    · simp at hy
  rw [h2, (C129_saved_exact h).2 hn]
  have hd := (C129_operations d (.set key x)).1
  rw [hok] at hd
  generalize (d.run (.set key x)).1.data = r' at hd ⊢
  cases hd with
  | set h => exact h.2.2 k

section
variable [FloatEnv]

namespace Spec

/-- The fields of a struct with the values a container has for them, `None` for those it lacks. -/
def filled (fs : Fields) (r : Rec) : Rec :=
  fs.map fun nf => (nf.1, (Rec.lookup r nf.1).getD none)

/-- The container has every field that is not optional. -/
def HasNeeded (fs : Fields) (r : Rec) : Prop :=
  ∀ n f, (n, f) ∈ fs → (∀ l, f ≠ .opt l) → Rec.lookup r n ≠ none

end Spec

omit [FloatEnv] in
theorem needed_iff (f : Fld) : f.needed = true ↔ ∀ l, f ≠ .opt l := by
  cases f <;> simp [Fld.needed]

/-- **C129** Saving any container: extra keys and the order of the keys do not matter, an optional field that was removed
is saved as if it were `None`, and the save raises if any other field was removed. -/
theorem C129_built_exact (cx : Ctx) (fs : Fields) (r : Rec) :
    (HasNeeded fs r → namedBuild cx fs r = structBuild cx fs (filled fs r)) ∧
    (¬ HasNeeded fs r → ∃ e, namedBuild cx fs r = .error e) := by
  induction fs with
  | nil => exact ⟨fun _ => rfl, fun h => absurd (fun n f hm => by cases hm) h⟩
  | cons nf fs ih =>
    obtain ⟨n, f⟩ := nf
    constructor
    · intro h
      have ih' := ih.1 fun n' f' hm => h n' f' (List.mem_cons_of_mem _ hm)
      unfold namedBuild
      show _ = structBuild cx ((n, f) :: fs) ((n, (Rec.lookup r n).getD none) :: filled fs r)
      unfold structBuild
      rw [if_pos rfl, ← ih']
      split
      · next h1 h2 => exact absurd h1 (h n f (List.mem_cons_self ..) ((needed_iff f).1 h2))
      · rfl
    · intro h
      unfold namedBuild
      split
      · exact ⟨_, rfl⟩
      · next h1 =>
        have hno : ¬ HasNeeded fs r := fun hn => h fun n' f' hm hf => by
          rcases List.mem_cons.1 hm with e | hm
          · injection e with e1 e2
            subst e1 e2
            intro hl
            exact h1 hl ((needed_iff f').2 hf)
          · exact hn n' f' hm hf
        obtain ⟨e, he⟩ := ih.2 hno
        rw [he]
        split
        · exact ⟨_, rfl⟩
        · exact ⟨e, rfl⟩

omit [FloatEnv] in
theorem filled_self {fs : Fields} {r : Rec} (hn : r.map Prod.fst = fs.map Prod.fst) (hd : (fs.map Prod.fst).Nodup) :
    filled fs r = r ∧ HasNeeded fs r := by
  constructor
  · induction fs generalizing r with
    | nil =>
      cases r with
      | nil => rfl
      | cons a r => simp at hn
    | cons nf fs ih =>
      obtain ⟨n, f⟩ := nf
      cases r with
      | nil => simp at hn
      | cons a r =>
        obtain ⟨n', v⟩ := a
        simp only [List.map_cons, List.cons.injEq] at hn
        obtain ⟨e, hn⟩ := hn
        subst e
        simp only [List.map_cons, List.nodup_cons] at hd
        have h2 : filled fs ((n', v) :: r) = filled fs r := by
          unfold filled
          refine List.map_congr_left fun a ha => ?_
          have : n' ≠ a.1 := fun e => hd.1 (by rw [e]; exact List.mem_map_of_mem ha)
          simp only [Rec.lookup, if_neg this]
        show (n', ((if n' = n' then some v else Rec.lookup r n' : Option (Option LV))).getD none) :: filled fs ((n', v) :: r) = _
        rw [if_pos rfl, h2, ih hn hd.2]
        rfl
  · intro n f hm _ hl
    have : n ∈ r.map Prod.fst := by rw [hn]; exact List.mem_map_of_mem (f := Prod.fst) hm
    obtain ⟨v, hv⟩ := lookup_of_names this
    rw [hv] at hl
    cases hl

/-- **C129** A struct event whose keys were not changed is saved field by field. -/
theorem C129_named {fs : Fields} {r : Rec} (hn : r.map Prod.fst = fs.map Prod.fst) (hd : (fs.map Prod.fst).Nodup) (cx : Ctx) :
    namedBuild cx fs r = structBuild cx fs r := by
  rw [(C129_built_exact cx fs r).1 (filled_self hn hd).2, (filled_self hn hd).1]

/-- **C129 (negated)** Removing a field loses only that field: the fields behind it are read from the wrong place when the
file is opened again.  Here `del event["pan"]` makes the volume 100 the pan. -/
theorem C129_removed_refuted :
    ¬ ∀ (s : SName) (data : Bytes) (r : Rec) (key : String) (bs : Bytes) (r' : Rec) (k : String) (v : LV),
      structParse ⟨data.length⟩ s.fields data = .ok (r, []) →
      namedBuild ⟨data.length⟩ s.fields ((DictEv.parsed r).run (.del key)).1.saved = .ok bs →
      structParse ⟨bs.length⟩ s.fields bs = .ok (r', []) →
      k ≠ key → Rec.lookup r k = some (some v) → Rec.lookup r' k = some (some v) := by
  intro h
  have := h .levels [1, 0, 0, 0, 100, 0, 0, 0]
    [("pan", some (.int 1)), ("volume", some (.int 100)), ("pitch_shift", none), ("filter.mod_x", none),
      ("filter.mod_y", none), ("filter.type", none)] "pan" [100, 0, 0, 0]
    [("pan", some (.int 100)), ("volume", none), ("pitch_shift", none), ("filter.mod_x", none),
      ("filter.mod_y", none), ("filter.type", none)] "volume" (.int 100) rfl rfl rfl (by decide) rfl
  exact absurd this (by decide +kernel)

end

/-! ### Cases -/

namespace DictDemo

def levels : Rec :=
  [("pan", some (.int 1)), ("volume", some (.int 100)), ("pitch_shift", none), ("filter.mod_x", none),
    ("filter.mod_y", none), ("filter.type", none)]

/-- a history with accepted and refused operations -/
def ops : List DOp := [.set "volume" (some (.int 7)), .set "filter.type" (some (.int 1)), .set "tempo" none, .pop "pan",
  .setdefault "pan" none, .update [("volume", some (.int 8)), ("pan", some (.int 2))]]

def final : DictEv := ops.foldl (fun d o => (d.run o).1) (.parsed levels)

theorem reached : DictReach levels final ops :=
  .op (.op (.op (.op (.op (.op .parsed _) _) _) _) _) _

example : final = ⟨[("volume", some (.int 8)), ("pitch_shift", none), ("filter.mod_x", none), ("filter.mod_y", none),
    ("filter.type", none)], none⟩ := by decide +kernel
example : (∀ items, .merge items ∉ ops) ∧ ∀ y, .assign y ∉ ops := by simp [ops]
example : (final.data.map Prod.fst).Sublist (levels.map Prod.fst) := (C129_keys reached (by simp [ops])).1
example : final.saved = final.data := (C129_saved_exact reached).2 (by simp [ops])
example : (final.run (.set "volume" (some (.int 9)))).2 = .ok none := by decide +kernel
/-- `|=` fills a field that an assignment may not -/
example : ((DictEv.parsed levels).run (.set "filter.type" (some (.int 1)))).2 = .error .propertyCannotBeSet ∧
    Rec.lookup ((DictEv.parsed levels).run (.merge [("filter.type", some (.int 1))])).1.data "filter.type" = some (some (.int 1)) := by
  decide +kernel
example : levels.map Prod.fst = (SName.levels.fields).map Prod.fst ∧ ((SName.levels.fields).map Prod.fst).Nodup := by
  decide +kernel
example : HasNeeded SName.levels.fields final.data := by
  intro n f hm hf
  simp only [SName.fields, List.mem_cons, Prod.mk.injEq, List.not_mem_nil, or_false] at hm
  rcases hm with ⟨_, rfl⟩ | ⟨_, rfl⟩ | ⟨_, rfl⟩ | ⟨_, rfl⟩ | ⟨_, rfl⟩ | ⟨_, rfl⟩ <;> exact absurd rfl (hf _)

end DictDemo

end PyFLP
