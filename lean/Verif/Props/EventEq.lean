import Verif.EventEq
import Verif.Props.PropTable
/-!
# Comparing events (C127)
-/

namespace PyFLP

open Spec

namespace Spec

/-- Python values of fields that are equal: the same number (whether `int`, `bool` or `float`; NaN is no number), or the
same bytes, text, pair or time. -/
inductive Alike : LV → LV → Prop
  | number {x y : LV} {n : Amount} : x.number = some n → y.number = some n → Alike x y
  | bytes (b : Bytes) : Alike (.bytes b) (.bytes b)
  | str (s : PStr) : Alike (.str s) (.str s)
  | pair (a b : Int) : Alike (.pair a b) (.pair a b)
  | time (a b c : Int) : Alike (.time a b c) (.time a b c)

/-- The same for the fields of a container: both missing, both `None`, or alike. -/
inductive FieldAlike : Option (Option LV) → Option (Option LV) → Prop
  | missing : FieldAlike none none
  | none : FieldAlike (some none) (some none)
  | some {x y : LV} : Alike x y → FieldAlike (some (some x)) (some (some y))

/-- Containers with the same visible content: names that begin with an underscore do not count. -/
def SameRec (r r' : Rec) : Prop :=
  ∀ key : String, key.toList.head? ≠ some '_' → FieldAlike (Rec.lookup r key) (Rec.lookup r' key)

/-- Two lists of equal length, related item by item. -/
def Each {α : Type} (R : α → α → Prop) (l l' : List α) : Prop :=
  l.length = l'.length ∧ ∀ (i : Nat) (a b : α), l[i]? = some a → l'[i]? = some b → R a b

/-- The contents of VST sub-events. -/
def SameData : VstData → VstData → Prop
  | .fields r, .fields r' => SameRec r r'
  | .str s, .str s' => s = s'
  | .raw b, .raw b' => b = b'
  | .lv x, .lv y => Alike x y
  | _, _ => False

/-- Event values with the same visible content.  Points of an automation have a computed position. -/
def SameValue [FloatAdd] : Value → Value → Prop
  | .lv x, .lv y => Alike x y
  | .color r g b a, .color r' g' b' a' => r = r' ∧ g = g' ∧ b = b' ∧ a = a'
  | .str s, .str s' => s = s'
  | .bytes b, .bytes b' => b = b'
  | .fields r, .fields r' => SameRec r r'
  | .items l, .items l' => Each SameRec l l'
  | .flags l, .flags l' => l = l'
  | .auto h ps _, .auto h' ps' _ => SameRec h h' ∧ ps.length = ps'.length ∧
      ∀ (i : Nat) (r r' : Rec), ps[i]? = some r → ps'[i]? = some r' →
        SameRec (("position", some (.f64 (autoPosition ps i))) :: r) (("position", some (.f64 (autoPosition ps' i))) :: r')
  | .notebook _ p ps e, .notebook _ p' ps' e' => p = p' ∧ ps = ps' ∧ e = e'
  | .vst t l, .vst t' l' => t = t' ∧ Each (fun x y => x.1 = y.1 ∧ SameData x.2 y.2) l l'
  | _, _ => False

end Spec

/-! ### The parts -/

theorem alike_iff {x y : LV} : x.pyEq y = true ↔ Alike x y := by
  constructor
  · intro h
    unfold LV.pyEq at h
    split at h
    · cases (beq_iff_eq.1 h); exact .bytes _
    · rw [Bool.and_eq_true, beq_iff_eq, beq_iff_eq] at h; obtain ⟨rfl, rfl⟩ := h; exact .pair _ _
    · rw [Bool.and_eq_true, Bool.and_eq_true, beq_iff_eq, beq_iff_eq, beq_iff_eq] at h
      obtain ⟨⟨rfl, rfl⟩, rfl⟩ := h; exact .time _ _ _
    · cases (beq_iff_eq.1 h); exact .str _
    · split at h
      · next ha hb => rw [beq_iff_eq] at h; subst h; exact .number ha hb
      · cases h
  · intro h
    cases h with
    | number hx hy =>
      unfold LV.pyEq
      split
      · cases hx
      · cases hx
      · cases hx
      · cases hx
      · rw [hx, hy]; simp
    | bytes b => simp [LV.pyEq]
    | str b => simp [LV.pyEq]
    | pair b => simp [LV.pyEq]
    | time b => simp [LV.pyEq]

theorem fieldAlike_iff {v v' : Option LV} : optEq v v' = true ↔ FieldAlike (some v) (some v') := by
  unfold optEq
  split
  · exact ⟨fun _ => .none, fun _ => rfl⟩
  · rw [alike_iff]; exact ⟨fun h => .some h, fun h => by cases h with | some h => exact h⟩
  · next h1 h2 =>
    constructor
    · intro h; cases h
    · intro h
      cases h with
      | none => exact absurd rfl (h1 rfl)
      | some h => exact absurd rfl (h2 _ _ rfl)

theorem Spec.Alike.symm {x y : LV} (h : Alike x y) : Alike y x := by
  cases h with
  | number hx hy => exact .number hy hx
  | bytes => exact .bytes _
  | str => exact .str _
  | pair => exact .pair _ _
  | time => exact .time _ _ _

theorem Spec.Alike.trans {x y z : LV} (h : Alike x y) (h' : Alike y z) : Alike x z := by
  cases h with
  | number hx hy =>
    cases h' with
    | number hy' hz => rw [hy] at hy'; cases hy'; exact .number hx hz
    | _ => cases hy
  | bytes | str | pair | time => exact h'

theorem Spec.FieldAlike.symm {x y : Option (Option LV)} (h : FieldAlike x y) : FieldAlike y x := by
  cases h with
  | missing => exact .missing
  | none => exact .none
  | some h => exact .some h.symm

theorem Spec.FieldAlike.trans {x y z : Option (Option LV)} (h : FieldAlike x y) (h' : FieldAlike y z) : FieldAlike x z := by
  cases h with
  | missing => exact h'
  | none => exact h'
  | some h => cases h' with | some h' => exact .some (h.trans h')

theorem hiddenKey_iff {k : String} : hiddenKey k = true ↔ k.toList.head? = some '_' := by
  unfold hiddenKey; rw [beq_iff_eq]

theorem lookup_none_iff {r : Rec} {k : String} : Rec.lookup r k = none ↔ ∀ v, (k, v) ∉ r := by
  induction r with
  | nil => simp [Rec.lookup]
  | cons nv r ih =>
    obtain ⟨n, v⟩ := nv
    unfold Rec.lookup
    by_cases h : n = k
    · rw [if_pos h]; subst h
      constructor
      · intro h; cases h
      · intro h; exact absurd (List.mem_cons_self ..) (h v)
    · rw [if_neg h, ih]
      constructor
      · intro hh v' hm
        rcases List.mem_cons.1 hm with hm | hm
        · cases hm; exact h rfl
        · exact hh v' hm
      · intro hh v' hm; exact hh v' (List.mem_cons_of_mem _ hm)

theorem keysAgree_iff {r r' : Rec} : keysAgree r r' = true ↔
    ∀ key, key.toList.head? ≠ some '_' → Rec.lookup r key ≠ none → FieldAlike (Rec.lookup r key) (Rec.lookup r' key) := by
  unfold keysAgree
  rw [List.all_eq_true]
  constructor
  · intro h key hk hl
    have : ∃ v, (key, v) ∈ r := Classical.byContradiction fun hn => hl (lookup_none_iff.2 fun v hv => hn ⟨v, hv⟩)
    obtain ⟨v, hv⟩ := this
    have := h _ hv
    rw [Bool.or_eq_true] at this
    rcases this with this | this
    · exact absurd (hiddenKey_iff.1 this) hk
    · split at this
      · next h1 h2 => rw [h1, h2]; exact fieldAlike_iff.1 this
      · cases this
  · intro h nv hnv
    rw [Bool.or_eq_true]
    by_cases hk : hiddenKey nv.1 = true
    · exact .inl hk
    · refine .inr ?_
      have hl : Rec.lookup r nv.1 ≠ none := fun hn => lookup_none_iff.1 hn nv.2 hnv
      have := h nv.1 (fun hh => hk (hiddenKey_iff.2 hh)) hl
      cases h1 : Rec.lookup r nv.1 with
      | none => exact absurd h1 hl
      | some v =>
        rw [h1] at this
        cases h2 : Rec.lookup r' nv.1 with
        | none => rw [h2] at this; cases this
        | some v' => rw [h2] at this; exact fieldAlike_iff.2 this

theorem sameRec_iff {r r' : Rec} : recEq r r' = true ↔ SameRec r r' := by
  unfold recEq SameRec
  rw [Bool.and_eq_true, keysAgree_iff, keysAgree_iff]
  constructor
  · intro ⟨h1, h2⟩ key hk
    by_cases hn : Rec.lookup r key = none
    · by_cases hn' : Rec.lookup r' key = none
      · rw [hn, hn']; exact .missing
      · exact (h2 key hk hn').symm
    · exact h1 key hk hn
  · intro h
    exact ⟨fun key hk _ => h key hk, fun key hk _ => (h key hk).symm⟩

theorem each_iff {α : Type} {eq : α → α → Bool} {R : α → α → Prop} (h : ∀ a b, eq a b = true ↔ R a b) {l l' : List α} :
    listEq eq l l' = true ↔ Each R l l' := by
  induction l generalizing l' with
  | nil =>
    cases l' with
    | nil => exact ⟨fun _ => ⟨rfl, fun i a b h => by simp at h⟩, fun _ => rfl⟩
    | cons b l' => exact ⟨fun h => (by cases h), fun h => (by cases h.1)⟩
  | cons a l ih =>
    cases l' with
    | nil => exact ⟨fun h => (by cases h), fun h => (by cases h.1)⟩
    | cons b l' =>
      unfold listEq
      rw [Bool.and_eq_true, h, ih]
      constructor
      · intro ⟨h1, h2, h3⟩
        refine ⟨by simp [h2], fun i x y hx hy => ?_⟩
        cases i with
        | zero => simp at hx hy; subst hx hy; exact h1
        | succ i => simp at hx hy; exact h3 i x y (by simpa using hx) (by simpa using hy)
      · intro ⟨h2, h3⟩
        exact ⟨h3 0 a b rfl rfl, by simpa using h2, fun i x y hx hy => h3 (i + 1) x y (by simpa using hx) (by simpa using hy)⟩

theorem sameData_iff {x y : VstData} : x.pyEq y = true ↔ SameData x y := by
  unfold VstData.pyEq SameData
  cases x <;> cases y <;> simp [sameRec_iff, alike_iff]

theorem Spec.Each.symm {α : Type} {R : α → α → Prop} (hR : ∀ a b, R a b → R b a) {l l' : List α} (h : Each R l l') : Each R l' l :=
  ⟨h.1.symm, fun i a b ha hb => hR _ _ (h.2 i b a hb ha)⟩

theorem Spec.Each.trans {α : Type} {R : α → α → Prop} (hR : ∀ a b c, R a b → R b c → R a c) {l l' l'' : List α} (h : Each R l l')
    (h' : Each R l' l'') : Each R l l'' := by
  refine ⟨h.1.trans h'.1, fun i a c ha hc => ?_⟩
  have hi : i < l'.length := by
    have := (List.getElem?_eq_some_iff.1 ha).1; have := h.1; omega
  exact hR _ _ _ (h.2 i a _ ha (List.getElem?_eq_getElem hi)) (h'.2 i _ c (List.getElem?_eq_getElem hi) hc)

theorem Spec.SameRec.symm {r r' : Rec} (h : SameRec r r') : SameRec r' r := fun k hk => (h k hk).symm
theorem Spec.SameRec.trans {r r' r'' : Rec} (h : SameRec r r') (h' : SameRec r' r'') : SameRec r r'' :=
  fun k hk => (h k hk).trans (h' k hk)

theorem Spec.SameData.symm {x y : VstData} (h : SameData x y) : SameData y x := by
  cases x <;> cases y <;> simp only [SameData] at h ⊢
  · exact SameRec.symm h
  · exact h.symm
  · exact h.symm
  · exact Alike.symm h

theorem Spec.SameData.trans {x y z : VstData} (h : SameData x y) (h' : SameData y z) : SameData x z := by
  cases x <;> cases y <;> simp only [SameData] at h <;> cases z <;> simp only [SameData] at h' ⊢
  · exact SameRec.trans h h'
  · exact h.trans h'
  · exact h.trans h'
  · exact Alike.trans h h'

section
variable [FloatAdd]

theorem fullPoints_getElem? {ps : List Rec} {i : Nat} :
    (fullPoints ps)[i]? = (ps[i]?).map (withPosition ps i) := by
  unfold fullPoints; rw [List.getElem?_mapIdx]

theorem sameValue_iff {v v' : Value} : v.pyEq v' = true ↔ SameValue v v' := by
  cases v <;> cases v' <;> simp only [Value.pyEq, SameValue, Bool.and_eq_true, beq_iff_eq, and_assoc,
    Bool.false_eq_true]
  case lv.lv => exact alike_iff
  case fields.fields => exact sameRec_iff
  case items.items => exact each_iff fun _ _ => sameRec_iff
  case auto.auto h ps t h' ps' t' =>
    rw [sameRec_iff, each_iff fun _ _ => sameRec_iff]
    refine and_congr_right fun _ => ?_
    unfold Each
    refine and_congr (by simp [fullPoints]) ⟨fun h i r r' hr hr' => ?_, fun h i a b ha hb => ?_⟩
    · exact h i _ _ (by rw [fullPoints_getElem?, hr]; rfl) (by rw [fullPoints_getElem?, hr']; rfl)
    · rw [fullPoints_getElem?, Option.map_eq_some_iff] at ha hb
      obtain ⟨r, hr, rfl⟩ := ha
      obtain ⟨r', hr', rfl⟩ := hb
      exact h i r r' hr hr'
  case vst.vst =>
    refine and_congr_right fun _ => each_iff fun a b => ?_
    rw [Bool.and_eq_true, beq_iff_eq, sameData_iff]

theorem Spec.SameValue.symm {v v' : Value} (h : SameValue v v') : SameValue v' v := by
  cases v <;> cases v' <;> simp only [SameValue] at h ⊢
  · exact Alike.symm h
  · obtain ⟨rfl, rfl, rfl, rfl⟩ := h; exact ⟨rfl, rfl, rfl, rfl⟩
  · exact h.symm
  · exact h.symm
  · exact SameRec.symm h
  · exact h.symm fun _ _ => SameRec.symm
  · exact h.symm
  · exact ⟨h.1.symm, h.2.1.symm, fun i r r' hr hr' => (h.2.2 i r' r hr' hr).symm⟩
  · obtain ⟨rfl, rfl, rfl⟩ := h; exact ⟨rfl, rfl, rfl⟩
  · exact ⟨h.1.symm, h.2.symm fun _ _ hh => ⟨hh.1.symm, hh.2.symm⟩⟩

theorem Spec.SameValue.trans {v v' v'' : Value} (h : SameValue v v') (h' : SameValue v' v'') : SameValue v v'' := by
  cases v <;> cases v' <;> simp only [SameValue] at h <;> cases v'' <;> simp only [SameValue] at h' ⊢
  · exact Alike.trans h h'
  · obtain ⟨rfl, rfl, rfl, rfl⟩ := h; exact h'
  · exact h.trans h'
  · exact h.trans h'
  · exact SameRec.trans h h'
  · exact Each.trans (R := SameRec) (fun _ _ _ hh hh' => SameRec.trans hh hh') h h'
  · exact h.trans h'
  · refine ⟨h.1.trans h'.1, h.2.1.trans h'.2.1, fun i r r' hr hr' => ?_⟩
    have hi := (List.getElem?_eq_some_iff.1 hr).1
    rw [h.2.1] at hi
    have hm := List.getElem?_eq_getElem hi
    exact SameRec.trans (h.2.2 i _ _ hr hm) (h'.2.2 i _ _ hm hr')
  · obtain ⟨rfl, rfl, rfl⟩ := h; exact h'
  · exact ⟨h.1.trans h'.1, h.2.trans (fun _ _ _ hh hh' => ⟨hh.1.trans hh'.1, hh.2.trans hh'.2⟩) h'.2⟩

/-! ### C127 -/

/-- **C127** Two events are equal iff they have the same id and the same visible content: numbers are compared as numbers,
and the names of fields that begin with an underscore do not count. -/
theorem C127_exact (e o : Event) : e.eq (some o) = .ok true ↔ e.id = o.id ∧ SameValue e.value o.value := by
  unfold Event.eq
  rw [Except.ok.injEq, Bool.and_eq_true, beq_iff_eq, sameValue_iff]

/-- **C127** `!=` is the opposite of `==`; both answer for every event, and raise TypeError for anything that is no event. -/
theorem C127_ne (e : Event) : (∀ o, ∃ b, e.eq (some o) = .ok b ∧ e.ne (some o) = .ok (!b)) ∧
    e.eq none = .error .typeError ∧ e.ne none = .error .typeError := by
  refine ⟨fun o => ⟨_, rfl, ?_⟩, rfl, rfl⟩
  unfold Event.ne
  rw [Bool.not_and]
  rfl

/-- **C127** Equality is symmetric and transitive. -/
theorem C127_equivalence (e o p : Event) : (e.eq (some o) = o.eq (some e)) ∧
    (e.eq (some o) = .ok true → o.eq (some p) = .ok true → e.eq (some p) = .ok true) := by
  constructor
  · have : ∀ a b : Event, a.eq (some b) = .ok true → b.eq (some a) = .ok true := fun a b h => by
      rw [C127_exact] at h ⊢; exact ⟨h.1.symm, h.2.symm⟩
    obtain ⟨b1, h1, _⟩ := (C127_ne e).1 o
    obtain ⟨b2, h2, _⟩ := (C127_ne o).1 e
    have i1 := this e o
    have i2 := this o e
    rw [h1, h2] at i1 i2 ⊢
    cases b1 <;> cases b2 <;> simp_all
  · intro h h'
    rw [C127_exact] at h h' ⊢
    exact ⟨h.1.trans h'.1, h.2.trans h'.2⟩

end

/-! ### Numbers -/

theorem fltMag_lt {p x y : Nat} (h : x < y) : fltMag p x < fltMag p y := by
  have hp : 0 < 2 ^ p := Nat.pow_pos (by decide)
  have hx := Nat.div_add_mod x (2 ^ p)
  have hy := Nat.div_add_mod y (2 ^ p)
  have mx := Nat.mod_lt x hp
  have my := Nat.mod_lt y hp
  have hle : x / 2 ^ p ≤ y / 2 ^ p := Nat.div_le_div_right (by omega)
  unfold fltMag
  generalize hX : x / 2 ^ p = X at *
  generalize hY : y / 2 ^ p = Y at *
  generalize hm : x % 2 ^ p = m at *
  generalize hn : y % 2 ^ p = n at *
  generalize hP : 2 ^ p = P at *
  rcases Nat.lt_or_eq_of_le hle with hlt | heq
  · rw [if_neg (show ¬ Y = 0 by omega)]
    have h2 : P * 2 ^ (Y - 1) ≤ (P + n) * 2 ^ (Y - 1) := Nat.mul_le_mul_right _ (by omega)
    split
    · have : 1 ≤ 2 ^ (Y - 1) := Nat.pow_pos (by decide)
      have := Nat.mul_le_mul_left P this
      omega
    · have h3 : (P + m) * 2 ^ (X - 1) < (2 * P) * 2 ^ (X - 1) := Nat.mul_lt_mul_of_pos_right (by omega) (Nat.pow_pos (by decide))
      have h4 : (2 * P) * 2 ^ (X - 1) = P * 2 ^ X := by
        rw [Nat.mul_comm 2 P, Nat.mul_assoc, ← Nat.pow_succ']
        congr 2; omega
      have h5 : P * 2 ^ X ≤ P * 2 ^ (Y - 1) := Nat.mul_le_mul_left _ (Nat.pow_le_pow_right (by decide) (by omega))
      omega
  · subst heq
    have : m < n := by omega
    split
    · exact this
    · exact Nat.mul_lt_mul_of_pos_right (by omega) (Nat.pow_pos (by decide))

theorem fltMag_inj {p x y : Nat} (h : fltMag p x = fltMag p y) : x = y := by
  rcases Nat.lt_trichotomy x y with hh | hh | hh
  · have := fltMag_lt (p := p) hh; omega
  · exact hh
  · have := fltMag_lt (p := p) hh; omega

/-- Different bit patterns of the same number are the two zeros. -/
theorem fltNumber_inj {p q u a b : Nat} (hu : 0 < u) (ha : a < 2 ^ (q + 1)) (hb : b < 2 ^ (q + 1)) {n : Amount}
    (h1 : fltNumber p q u a = some n) (h2 : fltNumber p q u b = some n) : a = b ∨ (a % 2 ^ q = 0 ∧ b % 2 ^ q = 0) := by
  have e1 := Nat.div_add_mod a (2 ^ q)
  have e2 := Nat.div_add_mod b (2 ^ q)
  have hq : 0 < 2 ^ q := Nat.pow_pos (by decide)
  have l1 : a / 2 ^ q < 2 := by rw [Nat.div_lt_iff_lt_mul hq, Nat.mul_comm]; rw [Nat.pow_succ] at ha; exact ha
  have l2 : b / 2 ^ q < 2 := by rw [Nat.div_lt_iff_lt_mul hq, Nat.mul_comm]; rw [Nat.pow_succ] at hb; exact hb
  have fin : (a / 2 ^ q % 2 = 1 ↔ b / 2 ^ q % 2 = 1) → a % 2 ^ q = b % 2 ^ q → a = b := by
    intro h h'
    have : a / 2 ^ q = b / 2 ^ q := by
      have i1 : a / 2 ^ q % 2 = a / 2 ^ q := Nat.mod_eq_of_lt l1
      have i2 : b / 2 ^ q % 2 = b / 2 ^ q := Nat.mod_eq_of_lt l2
      rw [i1, i2] at h
      omega
    rw [← e1, ← e2, this, h']
  unfold fltNumber at h1 h2
  dsimp only at h1 h2
  split at h1
  · next hx =>
    split at h1
    · next hm =>
      injection h1 with h1
      subst h1
      split at h2
      · next hx' =>
        split at h2
        · next hm' =>
          injection h2 with h2
          injection h2 with h2
          refine .inl (fin ?_ ?_)
          · rw [decide_eq_decide] at h2; exact h2.symm
          · rw [← Nat.div_add_mod (a % 2 ^ q) (2 ^ p), ← Nat.div_add_mod (b % 2 ^ q) (2 ^ p), hx, hx', hm, hm']
        · cases h2
      · cases h2
    · cases h1
  · injection h1 with h1
    subst h1
    split at h2
    · split at h2 <;> cases h2
    · injection h2 with h2
      injection h2 with h2
      have h2 := h2.symm
      have key : ∀ x y : Nat, fltMag p x * u = fltMag p y * u → x = y := fun x y h =>
        fltMag_inj (Nat.eq_of_mul_eq_mul_right hu h)
      have zero : ∀ x : Nat, fltMag p x * u = 0 → x = 0 := fun x h => by
        refine key x 0 ?_
        rw [h]; simp [fltMag]
      generalize hA : fltMag p (a % 2 ^ q) * u = A at *
      generalize hB : fltMag p (b % 2 ^ q) * u = B at *
      split at h2
      · next na =>
        split at h2
        · next nb => exact .inl (fin (by simp [na, nb]) (key _ _ (by omega)))
        · have hA0 : A = 0 := by omega
          have hB0 : B = 0 := by omega
          exact .inr ⟨zero _ (by omega), zero _ (by omega)⟩
      · next na =>
        split at h2
        · have hA0 : A = 0 := by omega
          have hB0 : B = 0 := by omega
          exact .inr ⟨zero _ (by omega), zero _ (by omega)⟩
        · next nb => exact .inl (fin (by simp [na, nb]) (key _ _ (by omega)))

namespace Spec

/-- Not a number. -/
def NaN : LV → Prop
  | .f32 n => 0x7F800000 < n % 2 ^ 31
  | .f64 n => 0x7FF0000000000000 < n % 2 ^ 63
  | _ => False

/-- A float as a bit pattern of its size, other than `-0.0`; anything but a float is one, too. -/
def NoMinusZero : LV → Prop
  | .f32 n => n < 2 ^ 32 ∧ n ≠ 2 ^ 31
  | .f64 n => n < 2 ^ 64 ∧ n ≠ 2 ^ 63
  | _ => True

/-- No visible field of the container is NaN. -/
def NoNaN (r : Rec) : Prop := ∀ key x, key.toList.head? ≠ some '_' → Rec.lookup r key = some (some x) → ¬ NaN x

/-- Nothing visible in the value is NaN. -/
def ValueNoNaN [FloatAdd] : Value → Prop
  | .lv x => ¬ NaN x
  | .fields r => NoNaN r
  | .items l => ∀ r ∈ l, NoNaN r
  | .auto h ps _ => NoNaN h ∧
      ∀ (i : Nat) (r : Rec), ps[i]? = some r → NoNaN (("position", some (.f64 (autoPosition ps i))) :: r)
  | .vst _ l => ∀ x ∈ l, match x.2 with
    | .fields r => NoNaN r
    | .lv y => ¬ NaN y
    | _ => True
  | _ => True

end Spec

theorem alike_self {x : LV} : Alike x x ↔ ¬ NaN x := by
  have f : ∀ n, fltNumber 23 31 (2 ^ 925) n = none ↔ 0x7F800000 < n % 2 ^ 31 := by
    intro n
    unfold fltNumber
    dsimp only
    have := Nat.mod_lt n (show 0 < 2 ^ 31 by decide)
    split
    · split <;> simp only [reduceCtorEq, false_iff, true_iff] <;> omega
    · simp only [reduceCtorEq, false_iff]; omega
  have d : ∀ n, fltNumber 52 63 1 n = none ↔ 0x7FF0000000000000 < n % 2 ^ 63 := by
    intro n
    unfold fltNumber
    dsimp only
    have := Nat.mod_lt n (show 0 < 2 ^ 63 by decide)
    split
    · split <;> simp only [reduceCtorEq, false_iff, true_iff] <;> omega
    · simp only [reduceCtorEq, false_iff]; omega
  have num : ∀ x n, LV.number x = some n → Alike x x := fun x n h => .number h h
  cases x with
  | int i => exact ⟨fun _ h => h, fun _ => num _ _ rfl⟩
  | bool i => exact ⟨fun _ h => h, fun _ => num _ _ rfl⟩
  | num i => exact ⟨fun _ h => h, fun _ => num _ _ rfl⟩
  | bytes i => exact ⟨fun _ h => h, fun _ => .bytes _⟩
  | str i => exact ⟨fun _ h => h, fun _ => .str _⟩
  | pair i => exact ⟨fun _ h => h, fun _ => .pair _ _⟩
  | time i => exact ⟨fun _ h => h, fun _ => .time _ _ _⟩
  | f32 n =>
    show _ ↔ ¬ 0x7F800000 < n % 2 ^ 31
    rw [← f n]
    constructor
    · intro h hn
      cases h with
      | number h1 h2 => have := hn.symm.trans h1; cases this
    · intro h
      cases hn : fltNumber 23 31 (2 ^ 925) n with
      | none => exact absurd hn h
      | some a => exact num _ a hn
  | f64 n =>
    show _ ↔ ¬ 0x7FF0000000000000 < n % 2 ^ 63
    rw [← d n]
    constructor
    · intro h hn
      cases h with
      | number h1 h2 => have := hn.symm.trans h1; cases this
    · intro h
      cases hn : fltNumber 52 63 1 n with
      | none => exact absurd hn h
      | some a => exact num _ a hn

theorem sameRec_self {r : Rec} : SameRec r r ↔ NoNaN r := by
  constructor
  · intro h key x hk hl
    have := h key hk
    rw [hl] at this
    cases this with
    | some h => exact alike_self.1 h
  · intro h key hk
    cases hl : Rec.lookup r key with
    | none => exact .missing
    | some v =>
      cases v with
      | none => exact .none
      | some x => exact .some (alike_self.2 (h key x hk hl))

theorem each_self {α : Type} {R : α → α → Prop} {P : α → Prop} (h : ∀ a, R a a ↔ P a) {l : List α} :
    Each R l l ↔ ∀ a ∈ l, P a := by
  constructor
  · intro hh a ha
    obtain ⟨i, hi⟩ := List.getElem?_of_mem ha
    exact (h a).1 (hh.2 i a a hi hi)
  · intro hh
    refine ⟨rfl, fun i a b ha hb => ?_⟩
    rw [ha] at hb; cases hb
    exact (h a).2 (hh a (List.mem_of_getElem? ha))

section
variable [FloatAdd]

theorem sameValue_self {v : Value} : SameValue v v ↔ ValueNoNaN v := by
  cases v <;> simp only [SameValue, ValueNoNaN, and_self]
  case lv => exact alike_self
  case fields => exact sameRec_self
  case items => exact each_self fun _ => sameRec_self
  case auto h ps t =>
    rw [sameRec_self]
    refine and_congr_right fun _ => ⟨fun hh i r hr => sameRec_self.1 (hh.2 i r r hr hr), fun hh => ⟨trivial, fun i r r' hr hr' => ?_⟩⟩
    rw [hr] at hr'; cases hr'
    exact sameRec_self.2 (hh i r hr)
  case vst t l =>
    rw [true_and]
    refine each_self fun a => ?_
    obtain ⟨i, d⟩ := a
    cases d <;> simp [SameData, sameRec_self, alike_self]

/-- **C127** Two events with the same id and the same content, such as the events of two readings of the same bytes, are
equal iff they hold no NaN in a visible field. -/
theorem C127_copy_exact (e o : Event) (hi : o.id = e.id) (hv : o.value = e.value) :
    e.eq (some o) = .ok true ↔ ValueNoNaN e.value := by
  rw [C127_exact, hi, hv, sameValue_self]
  simp

end

/-- **C127** An event is equal to itself, the same object, iff it is no float event with NaN. -/
theorem C127_self_exact (e : Event) : e.eqSelf = true ↔ ∀ x, e.value = .lv x → ¬ NaN x := by
  unfold Event.eqSelf
  split
  · next x hx =>
    rw [alike_iff, alike_self]
    exact ⟨fun h y hy => by rw [hx] at hy; cases hy; exact h, fun h => h x hx⟩
  · next hn => exact ⟨fun _ x hx => absurd hx (hn x), fun _ => rfl⟩

/-! ### What equality says about the bytes -/

theorem alike_typed {l : Leaf} {x y : LV} (hx : LeafTyped l x) (hy : LeafTyped l y) (nx : NoMinusZero x) (ny : NoMinusZero y)
    (h : Alike x y) : x = y := by
  have pow : (2 : Int) ^ 1074 ≠ 0 := by decide +kernel
  cases h with
  | number h1 h2 =>
    cases l <;> cases x <;> simp only [LeafTyped] at hx <;> cases y <;> simp only [LeafTyped] at hy
    all_goals try cases h1
    all_goals try (injection h2 with h2; injection h2 with h2; have := Int.eq_of_mul_eq_mul_right pow h2; subst this; rfl)
    all_goals try
      (rename_i a b; injection h2 with h2; injection h2 with h2
       have := Int.eq_of_mul_eq_mul_right pow h2; cases a <;> cases b <;> first | rfl | cases this)
    all_goals first
      | (rcases fltNumber_inj (p := 23) (q := 31) (Nat.pow_pos (by decide)) nx.1 ny.1 h1 h2 with h | h
         · rw [h]
         · have a := nx.1; have b := ny.1; have c := nx.2; have d := ny.2; congr 1; omega)
      | (rcases fltNumber_inj (p := 52) (q := 63) (by decide) nx.1 ny.1 h1 h2 with h | h
         · rw [h]
         · have a := nx.1; have b := ny.1; have c := nx.2; have d := ny.2; congr 1; omega)
  | bytes => rfl
  | str => rfl
  | pair => rfl
  | time => rfl

/-- Containers with the same names, typed by the same struct, with the same visible content and the same hidden fields are
the same, but for `-0.0`. -/
theorem rec_same {fs : Fields} (hn : (fs.map Prod.fst).Nodup) {r r' : Rec} (hr : FieldsTyped fs r) (hr' : FieldsTyped fs r')
    (h : SameRec r r') (hh : ∀ key, key.toList.head? = some '_' → Rec.lookup r key = Rec.lookup r' key)
    (hz : ∀ key x, Rec.lookup r key = some (some x) → NoMinusZero x)
    (hz' : ∀ key x, Rec.lookup r' key = some (some x) → NoMinusZero x) : r = r' := by
  have look : ∀ key, key ∈ fs.map Prod.fst → Rec.lookup r key = Rec.lookup r' key := by
    intro key hk
    by_cases hu : key.toList.head? = some '_'
    · exact hh key hu
    · have := h key hu
      obtain ⟨nf, hnf, rfl⟩ := List.mem_map.1 hk
      generalize h1 : Rec.lookup r nf.1 = a at *
      generalize h2 : Rec.lookup r' nf.1 = b at *
      cases this with
      | missing => rfl
      | none => rfl
      | some hal =>
        rw [alike_typed (hr.values _ _ _ hnf h1) (hr'.values _ _ _ hnf h2) (hz _ _ h1) (hz' _ _ h2) hal]
  have names : r.map Prod.fst = r'.map Prod.fst := hr.names.trans hr'.names.symm
  have nd : (r.map Prod.fst).Nodup := hr.names ▸ hn
  have look' : ∀ key, key ∈ r.map Prod.fst → Rec.lookup r key = Rec.lookup r' key := fun k hk => look k (hr.names ▸ hk)
  clear h hh hz hz' look hr hr' hn
  induction r generalizing r' with
  | nil =>
    cases r' with
    | nil => rfl
    | cons a r' => cases names
  | cons a r ih =>
    cases r' with
    | nil => cases names
    | cons b r' =>
      obtain ⟨n, v⟩ := a
      obtain ⟨m, w⟩ := b
      rw [List.map_cons, List.map_cons] at names
      injection names with hnm names
      dsimp only at hnm
      subst hnm
      rw [List.map_cons, List.nodup_cons] at nd
      have h0 := look' n (List.mem_cons_self ..)
      unfold Rec.lookup at h0
      rw [if_pos rfl, if_pos rfl] at h0
      injection h0 with h0
      subst h0
      congr 1
      refine ih names nd.2 fun key hk => ?_
      have h1 := look' key (List.mem_cons_of_mem _ hk)
      unfold Rec.lookup at h1
      have hne : n ≠ key := fun he => nd.1 (he ▸ hk)
      rwa [if_neg hne, if_neg hne] at h1

section
variable [FloatEnv] [FloatAdd]


end

namespace Spec

/-- The same hidden fields: those whose names begin with an underscore. -/
def SameHidden (r r' : Rec) : Prop :=
  ∀ key : String, key.toList.head? = some '_' → Rec.lookup r key = Rec.lookup r' key

/-- What `==` does not see is the same in two values: the hidden fields of containers, of items and of the data of VST
sub-events, the bytes behind the points of an automation, the first bytes of a notebook. -/
def HiddenSame : Value → Value → Prop
  | .fields r, .fields r' => SameHidden r r'
  | .items l, .items l' => ∀ (i : Nat) (a b : Rec), l[i]? = some a → l'[i]? = some b → SameHidden a b
  | .auto h ps t, .auto h' ps' t' => SameHidden h h' ∧
      (∀ (i : Nat) (a b : Rec), ps[i]? = some a → ps'[i]? = some b → SameHidden a b) ∧ t = t'
  | .notebook u _ _ _, .notebook u' _ _ _ => u = u'
  | .vst _ l, .vst _ l' => ∀ (i : Nat) (j j' : Int) (r r' : Rec), l[i]? = some (j, .fields r) → l'[i]? = some (j', .fields r') →
      SameHidden r r'
  | _, _ => True

/-- A container without `-0.0`. -/
def RecNoMinusZero (r : Rec) : Prop := ∀ (key : String) (x : LV), Rec.lookup r key = some (some x) → NoMinusZero x

/-- A value without `-0.0`. -/
def ValueNoMinusZero : Value → Prop
  | .lv x => NoMinusZero x
  | .fields r => RecNoMinusZero r
  | .items l => ∀ r ∈ l, RecNoMinusZero r
  | .auto h ps _ => RecNoMinusZero h ∧ ∀ r ∈ ps, RecNoMinusZero r
  | .vst _ l => ∀ (j : Int) (r : Rec), (j, VstData.fields r) ∈ l → RecNoMinusZero r
  | _ => True

end Spec

/-! What the items of lists, automations and VST events are. -/

theorem list_nodup (l : LName) : (l.fields.map Prod.fst).Nodup := by cases l <;> decide +kernel

section
variable [FloatEnv]

theorem greedyParse_typed {cx : Ctx} {fs : Fields} (hn : (fs.map Prod.fst).Nodup) (bs : Bytes) :
    ∀ r ∈ (greedyParse cx fs bs).1, FieldsTyped fs r := by
  induction hl : bs.length using Nat.strongRecOn generalizing bs with
  | ind n ih =>
    rw [greedyParse]
    split
    · intro r hr; cases hr
    · next rec t hp =>
      split
      · next hlt =>
        intro r hr
        rcases List.mem_cons.1 hr with rfl | hr
        · exact structParse_typed hn hp
        · exact ih t.length (hl ▸ hlt) t rfl r hr
      · intro r hr; cases hr

theorem timesParse_typed {cx : Ctx} {fs : Fields} (hn : (fs.map Prod.fst).Nodup) {n : Nat} {bs t : Bytes} {ps : List Rec}
    (h : timesParse cx fs n bs = .ok (ps, t)) : ∀ r ∈ ps, FieldsTyped fs r := by
  induction n generalizing bs ps with
  | zero => unfold timesParse at h; cases h; intro r hr; cases hr
  | succ n ih =>
    unfold timesParse at h
    split at h
    · cases h
    · next rec u hp =>
      split at h
      · cases h
      · next recs v hq =>
        cases h
        intro r hr
        rcases List.mem_cons.1 hr with rfl | hr
        · exact structParse_typed hn hp
        · exact ih hq r hr

/-- What parsing makes of the data of a VST sub-event. -/
theorem vstDataParse_typed {i : Int} {bs : Bytes} {d : VstData} (h : vstDataParse i bs = .ok d) :
    (∃ r, d = .fields r ∧ FieldsTyped (if i = 1 then vstMidi else vstFlags) r) ∨ (∃ s, d = .str s) ∨ ∃ b, d = .raw b := by
  have fields : ∀ {fs : Fields}, (fs.map Prod.fst).Nodup → (structParse ⟨0⟩ fs bs).map (fun x => VstData.fields x.1) = .ok d →
      ∃ r, d = .fields r ∧ FieldsTyped fs r := by
    intro fs hn h
    cases hp : structParse ⟨0⟩ fs bs with
    | error err => rw [hp] at h; cases h
    | ok x => rw [hp] at h; cases h; exact ⟨_, rfl, structParse_typed hn (r := x.2) hp⟩
  unfold vstDataParse at h
  split at h
  · next hi => rw [if_pos hi]; exact .inl (fields (by decide +kernel) h)
  · next hi =>
    rw [if_neg hi]
    split at h
    · exact .inl (fields (by decide +kernel) h)
    · split at h
      · cases hp : utf8Decode bs with
        | error err => rw [hp] at h; cases h
        | ok s => rw [hp] at h; cases h; exact .inr (.inl ⟨_, rfl⟩)
      · cases h; exact .inr (.inr ⟨_, rfl⟩)

theorem autoPoint_nodup : (autoPoint.map Prod.fst).Nodup := by decide +kernel

theorem autoParse_typed {bs : Bytes} {v : Value} (h : Kind.automation.parse bs = .ok v) :
    ∃ a ps t, v = .auto a ps t ∧ FieldsTyped autoHead a ∧ ∀ r ∈ ps, FieldsTyped autoPoint r := by
  change autoParse bs = _ at h
  unfold autoParse at h
  split at h
  · cases h
  · next hp =>
    split at h
    · cases h
    · split at h
      · cases h
      · next hq =>
        cases h
        exact ⟨_, _, _, rfl, structParse_typed autoHead_nodup hp, timesParse_typed autoPoint_nodup hq⟩

theorem notebookParse_typed {bs : Bytes} {v : Value} (h : Kind.notebook.parse bs = .ok v) :
    ∃ u p ps x, v = .notebook u p ps x := by
  change notebookParse bs = _ at h
  unfold notebookParse at h
  split at h
  · cases h
  · split at h
    · cases h
    · dsimp only at h
      split at h
      · cases h
      · cases h; exact ⟨_, _, _, _, rfl⟩

theorem vstParse_typed {bs : Bytes} {v : Value} (h : Kind.vst.parse bs = .ok v) :
    ∃ t l, v = .vst t l ∧ ∀ a ∈ l, ∃ b, vstDataParse a.1 b = .ok a.2 := by
  change vstParse bs = _ at h
  unfold vstParse at h
  split at h
  · cases h
  · split at h
    · cases h
    · cases h
      refine ⟨_, _, rfl, fun a ha => ?_⟩
      obtain ⟨b, r, hp⟩ := chunks_forall_mem (many_chunks _ _) a ha
      unfold vstItemParse at hp
      split at hp
      · cases hp
      · split at hp
        · cases hp
        · split at hp
          · cases hp
          · split at hp
            · cases hp
            · next hd => cases hp; exact ⟨_, hd⟩

/-- The computed position of a point does not hide one of its fields. -/
theorem sameRec_tail {r r' : Rec} {x y : Option LV} (hr : FieldsTyped autoPoint r) (hr' : FieldsTyped autoPoint r')
    (h : SameRec (("position", x) :: r) (("position", y) :: r')) : SameRec r r' := by
  have none : ∀ {r}, FieldsTyped autoPoint r → Rec.lookup r "position" = none := by
    intro r hr
    refine lookup_none_iff.2 fun v hv => ?_
    have : "position" ∈ autoPoint.map Prod.fst := hr.names ▸ List.mem_map_of_mem (f := Prod.fst) hv
    exact absurd this (by decide +kernel)
  intro key hk
  by_cases he : "position" = key
  · subst he
    rw [none hr, none hr']
    exact .missing
  · have := h key hk
    unfold Rec.lookup at this
    rwa [if_neg he, if_neg he] at this

end

/-- Lists related item by item are the same if related items are. -/
theorem each_same {α : Type} {R : α → α → Prop} {l l' : List α} (h : Each R l l')
    (hs : ∀ (i : Nat) (a b : α), l[i]? = some a → l'[i]? = some b → R a b → a = b) : l = l' := by
  refine List.ext_getElem? fun i => ?_
  cases ha : l[i]? with
  | none => exact (List.getElem?_eq_none (h.1 ▸ List.getElem?_eq_none_iff.1 ha)).symm
  | some a =>
    cases hb : l'[i]? with
    | none =>
      have := List.getElem?_eq_none_iff.1 hb
      rw [← h.1] at this
      rw [List.getElem?_eq_none this] at ha
      cases ha
    | some b => rw [hs i a b ha hb (h.2 i a b ha hb)]

section
variable [FloatEnv] [FloatAdd]

/-- **C127** (what equality tells about the bytes) Two equal events that one class made of payloads of the same length are
the same, so that the same bytes are saved for both - unless something that `==` does not see is different, or they hold
`-0.0`. -/
theorem C127_bytes_partial {k : Kind} {i j : Nat} {d d' : Bytes} {e o : Event} (he : mkEvent k i d = .ok e)
    (ho : mkEvent k j d' = .ok o) (hl : d.length = d'.length) (heq : e.eq (some o) = .ok true)
    (hh : HiddenSame e.value o.value) (ze : ValueNoMinusZero e.value) (zo : ValueNoMinusZero o.value) :
    e = o ∧ e.toBytes = o.toBytes := by
  have made : ∀ {i d} {e : Event}, mkEvent k i d = .ok e → e.kind = k ∧ e.id = i ∧ e.len = d.length ∧ k.parse d = .ok e.value := by
    intro i d e h
    unfold mkEvent at h
    have : (k.parse d).map (fun v => (⟨i, k, v, d.length⟩ : Event)) = .ok e := by
      split at h
      · cases h
      · split at h
        · split at h
          · cases h
          · exact h
        · exact h
    cases hp : k.parse d with
    | error err => rw [hp] at this; cases this
    | ok v => rw [hp] at this; injection this with this; subst this; exact ⟨rfl, rfl, rfl, rfl⟩
  obtain ⟨k1, i1, l1, p1⟩ := made he
  obtain ⟨k2, i2, l2, p2⟩ := made ho
  obtain ⟨hid, hv⟩ := (C127_exact e o).1 heq
  have t1 := kindParse_typed p1
  have t2 := kindParse_typed p2
  have leaf : ∀ l, k.leaf = some l → ValueTyped k e.value = (∀ l, k.leaf = some l → ∃ x, e.value = .lv x ∧ LeafTyped l x) →
      ValueTyped k o.value = (∀ l, k.leaf = some l → ∃ x, o.value = .lv x ∧ LeafTyped l x) → e.value = o.value := by
    intro l hl q1 q2
    rw [q1] at t1
    rw [q2] at t2
    obtain ⟨x, hx, tx⟩ := t1 l hl
    obtain ⟨y, hy, ty⟩ := t2 l hl
    rw [hx] at hv ze ⊢
    rw [hy] at hv zo ⊢
    rw [alike_typed tx ty ze zo hv]
  have value : e.value = o.value := by
    cases k with
    | bool => exact leaf _ rfl rfl rfl
    | i8 => exact leaf _ rfl rfl rfl
    | u8 => exact leaf _ rfl rfl rfl
    | i16 => exact leaf _ rfl rfl rfl
    | u16 => exact leaf _ rfl rfl rfl
    | f32 => exact leaf _ rfl rfl rfl
    | i32 => exact leaf _ rfl rfl rfl
    | u32 => exact leaf _ rfl rfl rfl
    | u16t =>
      obtain ⟨a, b, h1⟩ := t1
      obtain ⟨c, d, h2⟩ := t2
      rw [h1, h2] at hv ⊢
      cases hv with
      | number h => cases h
      | pair => rfl
    | color =>
      obtain ⟨a, b, c, d, h1⟩ := t1
      obtain ⟨a', b', c', d', h2⟩ := t2
      rw [h1, h2] at hv ⊢
      obtain ⟨rfl, rfl, rfl, rfl⟩ := hv
      rfl
    | ascii =>
      obtain ⟨s, h1⟩ := t1
      obtain ⟨s', h2⟩ := t2
      rw [h1, h2] at hv ⊢
      have : s = s' := hv
      rw [this]
    | unicode =>
      obtain ⟨s, h1⟩ := t1
      obtain ⟨s', h2⟩ := t2
      rw [h1, h2] at hv ⊢
      have : s = s' := hv
      rw [this]
    | unknown =>
      unfold Kind.parse at p1 p2
      injection p1 with p1
      injection p2 with p2
      rw [← p1, ← p2] at hv ⊢
      have : d = d' := hv
      rw [this]
    | routing =>
      unfold Kind.parse at p1 p2
      injection p1 with p1
      injection p2 with p2
      rw [← p1, ← p2] at hv ⊢
      congr 1
    | struct s =>
      obtain ⟨r, h1, f1⟩ := t1
      obtain ⟨r', h2, f2⟩ := t2
      rw [h1] at hv hh ze ⊢
      rw [h2] at hv hh zo ⊢
      rw [rec_same (fields_nodup s) f1 f2 hv hh ze zo]
    | list l =>
      unfold Kind.parse at p1 p2
      injection p1 with p1
      injection p2 with p2
      rw [← p1] at hv hh ze ⊢
      rw [← p2] at hv hh zo ⊢
      congr 1
      refine each_same hv fun n a b ha hb hab => ?_
      exact rec_same (list_nodup l) (greedyParse_typed (list_nodup l) _ a (List.mem_of_getElem? ha))
        (greedyParse_typed (list_nodup l) _ b (List.mem_of_getElem? hb)) hab (hh n a b ha hb)
        (ze a (List.mem_of_getElem? ha)) (zo b (List.mem_of_getElem? hb))
    | automation =>
      obtain ⟨h, ps, t, e1, f1, g1⟩ := autoParse_typed p1
      obtain ⟨h', ps', t', e2, f2, g2⟩ := autoParse_typed p2
      rw [e1] at hv hh ze ⊢
      rw [e2] at hv hh zo ⊢
      obtain ⟨v1, v2, v3⟩ := hv
      obtain ⟨h1, h2, h3⟩ := hh
      have q1 := rec_same autoHead_nodup f1 f2 v1 h1 ze.1 zo.1
      have q2 : ps = ps' := by
        refine each_same (R := SameRec) ⟨v2, fun n a b ha hb => ?_⟩ fun n a b ha hb hab => ?_
        · exact sameRec_tail (g1 a (List.mem_of_getElem? ha)) (g2 b (List.mem_of_getElem? hb)) (v3 n a b ha hb)
        · exact rec_same autoPoint_nodup (g1 a (List.mem_of_getElem? ha)) (g2 b (List.mem_of_getElem? hb)) hab (h2 n a b ha hb)
            (ze.2 a (List.mem_of_getElem? ha)) (zo.2 b (List.mem_of_getElem? hb))
      rw [q1, q2, h3]
    | notebook =>
      obtain ⟨u, p, ps, x, e1⟩ := notebookParse_typed p1
      obtain ⟨u', p', ps', x', e2⟩ := notebookParse_typed p2
      rw [e1] at hv hh ⊢
      rw [e2] at hv hh ⊢
      obtain ⟨rfl, rfl, rfl⟩ := hv
      rw [show u = u' from hh]
    | vst =>
      obtain ⟨t, l, e1, f1⟩ := vstParse_typed p1
      obtain ⟨t', l', e2, f2⟩ := vstParse_typed p2
      rw [e1] at hv hh ze ⊢
      rw [e2] at hv hh zo ⊢
      obtain ⟨rfl, hv⟩ := hv
      congr 1
      refine each_same hv fun n a b ha hb hab => ?_
      obtain ⟨x, a⟩ := a
      obtain ⟨y, b⟩ := b
      obtain ⟨hxy, hab⟩ := hab
      dsimp only at hxy hab
      subst hxy
      have ma := List.mem_of_getElem? ha
      have mb := List.mem_of_getElem? hb
      rcases vstDataParse_typed (f1 _ ma).choose_spec with ⟨r, rfl, ta⟩ | ⟨s, rfl⟩ | ⟨s, rfl⟩ <;>
        rcases vstDataParse_typed (f2 _ mb).choose_spec with ⟨r', rfl, tb⟩ | ⟨s', rfl⟩ | ⟨s', rfl⟩
      all_goals first
        | exact absurd hab (by intro h; exact h)
        | (have : s = s' := hab
           rw [this])
        | skip
      rw [rec_same (by split <;> decide +kernel) ta tb hab (hh n x x r r' ha hb) (ze x r ma) (zo x r' mb)]
  have : e = o := by
    obtain ⟨a, b, c, d⟩ := e
    obtain ⟨a', b', c', d'⟩ := o
    simp only at *
    subst k1 l1
    rw [hid, k2, value, l2, hl]
  exact ⟨this, by rw [this]⟩

theorem hiddenSame_self (v : Value) : HiddenSame v v := by
  have one : ∀ {α : Type} {l : List α} {i : Nat} {a b : α}, l[i]? = some a → l[i]? = some b → a = b := by
    intro α l i a b ha hb
    rw [ha] at hb
    injection hb
  have same : ∀ r, SameHidden r r := fun r key _ => rfl
  have items : ∀ (l : List Rec) (i : Nat) (a b : Rec), l[i]? = some a → l[i]? = some b → SameHidden a b :=
    fun l i a b ha hb => one ha hb ▸ same a
  cases v with
  | fields r => exact same r
  | items l => exact items l
  | auto h ps t => exact ⟨same h, items ps, rfl⟩
  | notebook u => rfl
  | vst t l =>
    intro i j j' r r' ha hb
    have := one ha hb
    injection this with h1 h2
    injection h2 with h2
    exact h2 ▸ same r
  | _ => trivial

/-- **C127** Two events that one class made of payloads of the same length, without `-0.0`, and the first without NaN in a
visible field, are the same iff they are equal and what `==` does not see is the same, too. -/
theorem C127_bytes_exact {k : Kind} {i j : Nat} {d d' : Bytes} {e o : Event} (he : mkEvent k i d = .ok e)
    (ho : mkEvent k j d' = .ok o) (hl : d.length = d'.length) (hn : ValueNoNaN e.value)
    (ze : ValueNoMinusZero e.value) (zo : ValueNoMinusZero o.value) :
    e = o ↔ e.eq (some o) = .ok true ∧ HiddenSame e.value o.value := by
  constructor
  · rintro rfl
    exact ⟨(C127_copy_exact e e rfl rfl).2 hn, hiddenSame_self _⟩
  · exact fun h => (C127_bytes_partial he ho hl h.1 h.2 ze zo).1

/-- **C127** (refuted) Equal events need not be saved as the same bytes: hidden fields and the sign of zero do not count. -/
theorem C127_bytes_refuted :
    (∃ e o, mkEvent (.struct .fruityCenter) 213 [0, 0, 0, 0, 1, 0, 0, 0] = .ok e ∧
      mkEvent (.struct .fruityCenter) 213 [7, 0, 0, 0, 1, 0, 0, 0] = .ok o ∧ e.eq (some o) = .ok true ∧
      e.toBytes ≠ o.toBytes) ∧
    ∃ e o, mkEvent .f32 140 [0, 0, 0, 0] = .ok e ∧ mkEvent .f32 140 [0, 0, 0, 128] = .ok o ∧ e.eq (some o) = .ok true ∧
      e.toBytes ≠ o.toBytes := by
  refine ⟨⟨⟨213, .struct .fruityCenter, .fields [("_u1", some (.bytes [0, 0, 0, 0])), ("enabled", some (.bool true))], 8⟩,
    ⟨213, .struct .fruityCenter, .fields [("_u1", some (.bytes [7, 0, 0, 0])), ("enabled", some (.bool true))], 8⟩,
    by rfl, by rfl, ?_, ?_⟩, ⟨⟨140, .f32, .lv (.f32 0), 4⟩, ⟨140, .f32, .lv (.f32 2147483648), 4⟩, by rfl, by rfl, ?_, ?_⟩⟩
  · refine (C127_exact _ _).2 ⟨rfl, ?_⟩
    exact sameRec_iff.1 (by decide +kernel)
  · intro h
    have h1 : (⟨213, .struct .fruityCenter, .fields [("_u1", some (.bytes [0, 0, 0, 0])), ("enabled", some (.bool true))], 8⟩ :
        Event).toBytes = .ok ((([213] : Bytes) ++ varBuild 8) ++ [0, 0, 0, 0, 1, 0, 0, 0]) := by rfl
    have h2 : (⟨213, .struct .fruityCenter, .fields [("_u1", some (.bytes [7, 0, 0, 0])), ("enabled", some (.bool true))], 8⟩ :
        Event).toBytes = .ok ((([213] : Bytes) ++ varBuild 8) ++ [7, 0, 0, 0, 1, 0, 0, 0]) := by rfl
    rw [h1, h2] at h
    injection h with h
    exact absurd (List.append_cancel_left h) (by decide +kernel)
  · refine (C127_exact _ _).2 ⟨rfl, ?_⟩
    exact alike_iff.1 (by decide +kernel)
  · intro h
    have h1 : (⟨140, .f32, .lv (.f32 0), 4⟩ : Event).toBytes = .ok [140, 0, 0, 0, 0] := by rfl
    have h2 : (⟨140, .f32, .lv (.f32 2147483648), 4⟩ : Event).toBytes = .ok [140, 0, 0, 0, 128] := by rfl
    rw [h1, h2] at h
    exact absurd h (by decide +kernel)

/-- **C127** (refuted) An event need not be equal to itself, nor to an event read from the same bytes: NaN. -/
theorem C127_self_refuted : ∃ e, mkEvent .f32 140 [0, 0, 192, 127] = .ok e ∧ e.eqSelf = false ∧ e.eq (some e) = .ok false := by
  refine ⟨⟨140, .f32, .lv (.f32 2143289344), 4⟩, by rfl, by decide +kernel, ?_⟩
  have : (LV.f32 2143289344).pyEq (.f32 2143289344) = false := by decide +kernel
  show Except.ok (_ && (LV.f32 2143289344).pyEq (.f32 2143289344)) = _
  rw [this]
  rfl

end

namespace EqDemo

/-- The numerical values: `1.0` in both sizes is 1, `True` is 1, `-0.5` is a half of `-1`. -/
example : (LV.f32 0x3F800000).number = (LV.int 1).number ∧ (LV.f64 0x3FF0000000000000).number = (LV.int 1).number ∧
    (LV.bool true).number = (LV.int 1).number ∧ (LV.f32 0xBF000000).number = some (.fin (-(2 ^ 1073))) ∧
    (LV.f32 1).number = (LV.f64 0x36A0000000000000).number ∧ (LV.f32 0x7F800000).number = (LV.f64 0x7FF0000000000000).number := by
  decide +kernel

variable [FloatEnv] [FloatAdd]

/-- Equal events of one class with the same hidden fields. -/
example : ∃ e, mkEvent (.struct .fruityCenter) 213 [7, 0, 0, 0, 1, 0, 0, 0] = .ok e ∧ e.eq (some e) = .ok true ∧
    ∀ r key x, e.value = .fields r → Rec.lookup r key = some (some x) → NoMinusZero x := by
  refine ⟨⟨213, .struct .fruityCenter, .fields [("_u1", some (.bytes [7, 0, 0, 0])), ("enabled", some (.bool true))], 8⟩,
    by rfl, (C127_exact _ _).2 ⟨rfl, sameRec_iff.1 (by decide +kernel)⟩, ?_⟩
  intro r key x hr hx
  cases hr
  unfold Rec.lookup at hx
  split at hx
  · injection hx with hx; injection hx with hx; subst hx; trivial
  · unfold Rec.lookup at hx
    split at hx
    · injection hx with hx; injection hx with hx; subst hx; trivial
    · cases hx

/-- Two lists of one point each that only differ in hidden fields are equal; without the difference they are the same. -/
example : ∃ e o : Event, mkEvent (.list .controller) 223 [0, 1, 0, 0, 9, 9, 2, 1, 0, 0, 128, 63] = .ok e ∧
    mkEvent (.list .controller) 223 [0, 1, 0, 0, 8, 9, 2, 1, 0, 0, 128, 63] = .ok o ∧
    e.eq (some o) = .ok true ∧ ¬ HiddenSame e.value o.value ∧ ValueNoMinusZero e.value ∧ ValueNoNaN e.value := by
  let r : Int → Rec := fun n => [("position", some (.int 256)), ("_u1", some (.int n)), ("_u2", some (.int 9)),
    ("channel", some (.int 2)), ("_flags", some (.int 1)), ("value", some (.f32 0x3F800000))]
  have look : ∀ key x, Rec.lookup (r 9) key = some (some x) → NoMinusZero x ∧ ¬ NaN x := by
    intro key x h
    simp only [r, Rec.lookup] at h
    repeat' split at h
    all_goals first
      | (cases h; done)
      | (injection h with h; injection h with h; subst h; exact ⟨by simp [NoMinusZero], by simp [NaN]⟩)
  refine ⟨⟨223, .list .controller, .items [r 9], 12⟩, ⟨223, .list .controller, .items [r 8], 12⟩, ?_, ?_, ?_, ?_, ?_, ?_⟩
  · have : (greedyParse ⟨12⟩ LName.controller.fields [0, 1, 0, 0, 9, 9, 2, 1, 0, 0, 128, 63]).1 = [r 9] := by
      have h1 : structParse ⟨12⟩ LName.controller.fields [0, 1, 0, 0, 9, 9, 2, 1, 0, 0, 128, 63] = .ok (r 9, []) := rfl
      have h2 : structParse ⟨12⟩ LName.controller.fields [] = .error .streamError := rfl
      rw [greedyParse, h1]
      dsimp only
      rw [if_pos (by decide), greedyParse, h2]
    show Except.ok (⟨223, .list .controller, .items (greedyParse _ _ _).1, 12⟩ : Event) = _
    rw [← this]; rfl
  · have : (greedyParse ⟨12⟩ LName.controller.fields [0, 1, 0, 0, 8, 9, 2, 1, 0, 0, 128, 63]).1 = [r 8] := by
      have h1 : structParse ⟨12⟩ LName.controller.fields [0, 1, 0, 0, 8, 9, 2, 1, 0, 0, 128, 63] = .ok (r 8, []) := rfl
      have h2 : structParse ⟨12⟩ LName.controller.fields [] = .error .streamError := rfl
      rw [greedyParse, h1]
      dsimp only
      rw [if_pos (by decide), greedyParse, h2]
    show Except.ok (⟨223, .list .controller, .items (greedyParse _ _ _).1, 12⟩ : Event) = _
    rw [← this]; rfl
  · refine (C127_exact _ _).2 ⟨rfl, rfl, fun i a b ha hb => ?_⟩
    cases i with
    | zero => cases ha; cases hb; exact sameRec_iff.1 (by decide +kernel)
    | succ i => cases ha
  · intro h
    exact absurd (h 0 (r 9) (r 8) rfl rfl "_u1" (by decide)) (by decide +kernel)
  · intro a ha key x h
    rw [List.mem_singleton] at ha
    subst ha
    exact (look key x h).1
  · intro a ha key x _ h
    rw [List.mem_singleton] at ha
    subst ha
    exact (look key x h).2

/-- Events of different ids, or with different visible fields, are different. -/
example : (⟨140, .f32, .lv (.f32 0), 4⟩ : Event).eq (some ⟨141, .f32, .lv (.f32 0), 4⟩) = .ok false := rfl

end EqDemo

end PyFLP
