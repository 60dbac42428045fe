import Verif.Props.Exact3
import Verif.Props.PropTable
/-!
# Writing back what was read, and undoing assignments (C136)
-/

namespace PyFLP

open Spec

namespace Spec

/-- When an assignment of `x` can be undone without loss.  Values of events and fields always can.  A flag can up to Python
3.10, or if its word has no bit above the highest one of the enumeration's members, or if the flag is set before and after
the assignment. -/
def Undoable (ver : PyVer) : (a : Access) → Event → a.type → Prop
  | .event, _, _ => True
  | .field _, _, _ => True
  | .flag members bits key inverted, e, x => ∃ n, FlagWord e key n ∧
      (ver = .upTo310 ∨ (∀ i, Nat.log2 members < i → n.testBit i = false) ∨ (n &&& bits = bits ∧ x = !inverted))

/-- For flags: the event holds a number that is not negative. -/
def Numbered : Access → Event → Prop
  | .flag _ _ key _, e => ∃ n, FlagWord e key n
  | _, _ => True

/-- Assignments to properties of models, one after the other: the property, the model and the value it had before. -/
inductive Edits (ver : PyVer) : World → List ((p : PropRow) × Nat × p.type) → World → Prop
  | none {w : World} : Edits ver w [] w
  | one {w w1 w2 : World} {p : PropRow} {t : Nat} {old x : p.type} {l : List ((p : PropRow) × Nat × p.type)}
      {L : Nat → Prop} {k : Nat} {e : Event} (r : WReach w L) (ht : L t) (hp : p ∈ propTable)
      (hT : Target (w.events t) p.ids k e) (hr : p.read ver w t = .ok (some old)) (hu : Undoable ver p.acc e x)
      (hw : p.write ver w t x = (w1, .ok ())) (rest : Edits ver w1 l w2) : Edits ver w (⟨p, t, old⟩ :: l) w2

/-- Assigning the former values again, the last one first. -/
inductive Undone (ver : PyVer) : World → List ((p : PropRow) × Nat × p.type) → World → Prop
  | none {w : World} : Undone ver w [] w
  | one {w w1 w2 : World} {p : PropRow} {t : Nat} {old : p.type} {l : List ((p : PropRow) × Nat × p.type)}
      (rest : Undone ver w l w1) (hw : p.write ver w1 t old = (w2, .ok ())) : Undone ver w (⟨p, t, old⟩ :: l) w2

end Spec

/-! ### Records and words -/

theorem update_self {r : Rec} {key : String} {v : Option LV} (h : Rec.lookup r key = some v) : Rec.update r key v = r := by
  induction r with
  | nil => rfl
  | cons a r ih =>
    obtain ⟨n, y⟩ := a
    unfold Rec.lookup at h
    by_cases hn : n = key
    · rw [if_pos hn] at h
      injection h with h
      subst h
      simp only [Rec.update, if_pos hn]
    · rw [if_neg hn] at h
      simp only [Rec.update, if_neg hn, ih h]

theorem update_twice (r : Rec) (key : String) (x y : Option LV) :
    Rec.update (Rec.update r key x) key y = Rec.update r key y := by
  induction r with
  | nil => rfl
  | cons a r ih =>
    obtain ⟨n, z⟩ := a
    by_cases hn : n = key
    · simp only [Rec.update, if_pos hn]
    · simp only [Rec.update, if_neg hn, ih]

theorem update_inj {r : Rec} {key : String} {v x y : Option LV} (h : Rec.lookup r key = some v)
    (he : Rec.update r key x = Rec.update r key y) : x = y := by
  have h1 := (lookup_update h x).1
  rw [he, (lookup_update h y).1] at h1
  injection h1 with h1
  exact h1.symm

/-- The new flag word. -/
def flagNext (ver : PyVer) (members bits : Nat) (on : Bool) (n : Nat) : Nat :=
  (if on then flagOr n bits else flagAndNot ver members n bits).toNat

theorem flagNext_eq (ver : PyVer) (members bits : Nat) (on : Bool) (n : Nat) :
    (if on then flagOr n bits else flagAndNot ver members n bits) = (flagNext ver members bits on n : Int) := by
  unfold flagNext
  rw [Int.toNat_of_nonneg]
  unfold flagOr flagAndNot
  cases on
  · cases ver <;> exact Int.natCast_nonneg _
  · exact Int.natCast_nonneg _

theorem flagNext_bits {ver : PyVer} {members bits : Nat} (hf : bits ≠ 0) (hsub : bits &&& members = bits) (on : Bool)
    (n i : Nat) : (flagNext ver members bits on n).testBit i = if on then n.testBit i || bits.testBit i
      else n.testBit i && !bits.testBit i && (decide (ver = .upTo310) || decide (i ≤ Nat.log2 members)) :=
  flag_bits_exact hf hsub (flagNext_eq ver members bits on n).symm i

theorem and_pow_bit {n k : Nat} : n &&& 2 ^ k = 2 ^ k ↔ n.testBit k = true := by
  constructor
  · intro h
    have := congrArg (fun m => m.testBit k) h
    simpa [Nat.testBit_and, Nat.testBit_two_pow_self] using this
  · intro h
    apply Nat.eq_of_testBit_eq
    intro i
    rw [Nat.testBit_and, Nat.testBit_two_pow]
    by_cases hi : k = i
    · subst hi; simp [h]
    · simp [hi]

/-- Assigning the former value again restores the word, unless unknown bits are lost. -/
theorem flag_undo {ver : PyVer} {members k : Nat} (hsub : 2 ^ k &&& members = 2 ^ k) (on : Bool) (n : Nat) :
    flagNext ver members (2 ^ k) (decide (n &&& 2 ^ k = 2 ^ k)) (flagNext ver members (2 ^ k) on n) = n ↔
      ver = .upTo310 ∨ (∀ i, Nat.log2 members < i → n.testBit i = false) ∨ (n &&& 2 ^ k = 2 ^ k ∧ on = true) := by
  have hf : 2 ^ k ≠ 0 := Nat.ne_of_gt (Nat.two_pow_pos k)
  have hk : k ≤ Nat.log2 members := by
    have : members.testBit k = true := by rw [Nat.and_comm] at hsub; exact and_pow_bit.1 hsub
    have h := Nat.ge_two_pow_of_testBit this
    have hne : members ≠ 0 := by rintro rfl; simp at this
    exact (Nat.le_log2 hne).2 h
  have bits : ∀ i, (flagNext ver members (2 ^ k) (decide (n &&& 2 ^ k = 2 ^ k)) (flagNext ver members (2 ^ k) on n)).testBit i =
      if n.testBit k then ((if on then n.testBit i || decide (k = i)
          else n.testBit i && !decide (k = i) && (decide (ver = .upTo310) || decide (i ≤ Nat.log2 members))) || decide (k = i))
      else ((if on then n.testBit i || decide (k = i)
          else n.testBit i && !decide (k = i) && (decide (ver = .upTo310) || decide (i ≤ Nat.log2 members))) && !decide (k = i) &&
          (decide (ver = .upTo310) || decide (i ≤ Nat.log2 members))) := by
    intro i
    rw [flagNext_bits hf hsub, flagNext_bits hf hsub, Nat.testBit_two_pow]
    by_cases h : n.testBit k
    · rw [if_pos h, if_pos (decide_eq_true (and_pow_bit.2 h))]
    · rw [if_neg h, if_neg]
      simpa using fun hc => h (and_pow_bit.1 hc)
  constructor
  · intro h
    by_cases hv : ver = .upTo310
    · exact .inl hv
    · by_cases hs : n.testBit k = true ∧ on = true
      · exact .inr (.inr ⟨and_pow_bit.2 hs.1, hs.2⟩)
      · refine .inr (.inl fun i hi => ?_)
        have := bits i
        rw [h] at this
        have hki : k ≠ i := by omega
        have hle : ¬ i ≤ Nat.log2 members := by omega
        cases hb : n.testBit k <;> cases on <;> simp [hb, hv, hki, hle] at this hs ⊢ <;> exact this
  · intro h
    apply Nat.eq_of_testBit_eq
    intro i
    rw [bits i]
    by_cases hki : k = i
    · subst hki
      cases hb : n.testBit k <;> cases on <;> simp
    · rcases h with hv | hs | ⟨hb', rfl⟩
      · cases hb : n.testBit k <;> cases on <;> simp [hki, hv]
      · by_cases hle : i ≤ Nat.log2 members
        · cases hb : n.testBit k <;> cases on <;> simp [hki, hle]
        · have := hs i (by omega)
          cases hb : n.testBit k <;> cases on <;> simp [hki, this]
      · simp [and_pow_bit.1 hb', hki]

/-- Assigning the value the flag has. -/
theorem flag_same {ver : PyVer} {members k : Nat} (hsub : 2 ^ k &&& members = 2 ^ k) (n : Nat) :
    flagNext ver members (2 ^ k) (decide (n &&& 2 ^ k = 2 ^ k)) n = n ↔
      ver = .upTo310 ∨ (∀ i, Nat.log2 members < i → n.testBit i = false) ∨ n &&& 2 ^ k = 2 ^ k := by
  have hf : 2 ^ k ≠ 0 := Nat.ne_of_gt (Nat.two_pow_pos k)
  have hk : k ≤ Nat.log2 members := by
    have : members.testBit k = true := by rw [Nat.and_comm] at hsub; exact and_pow_bit.1 hsub
    have h := Nat.ge_two_pow_of_testBit this
    have hne : members ≠ 0 := by rintro rfl; simp at this
    exact (Nat.le_log2 hne).2 h
  have bits : ∀ i, (flagNext ver members (2 ^ k) (decide (n &&& 2 ^ k = 2 ^ k)) n).testBit i =
      if n.testBit k then n.testBit i || decide (k = i)
      else n.testBit i && !decide (k = i) && (decide (ver = .upTo310) || decide (i ≤ Nat.log2 members)) := by
    intro i
    rw [flagNext_bits hf hsub, Nat.testBit_two_pow]
    by_cases h : n.testBit k
    · rw [if_pos h, if_pos (decide_eq_true (and_pow_bit.2 h))]
    · rw [if_neg h, if_neg]
      simpa using fun hc => h (and_pow_bit.1 hc)
  constructor
  · intro h
    by_cases hv : ver = .upTo310
    · exact .inl hv
    · by_cases hs : n.testBit k = true
      · exact .inr (.inr (and_pow_bit.2 hs))
      · refine .inr (.inl fun i hi => ?_)
        have := bits i
        rw [h] at this
        have hki : k ≠ i := by omega
        have hle : ¬ i ≤ Nat.log2 members := by omega
        simpa [hs, hv, hki, hle] using this
  · intro h
    apply Nat.eq_of_testBit_eq
    intro i
    rw [bits i]
    by_cases hki : k = i
    · subst hki
      cases hb : n.testBit k <;> simp
    · rcases h with hv | hs | hb'
      · simp [hki, hv]
      · by_cases hle : i ≤ Nat.log2 members
        · simp [hki, hle]
        · have := hs i (by omega)
          simp [hki, this]
      · simp [and_pow_bit.1 hb', hki]

/-! ### Events -/

/-- All flags of the table are single bits of their enumerations. -/
theorem table_flags {p : PropRow} (hp : p ∈ propTable) {members bits : Nat} {key : String} {inverted : Bool}
    (h : p.acc = .flag members bits key inverted) : ∃ k, bits = 2 ^ k ∧ 2 ^ k &&& members = 2 ^ k := by
  have all : ∀ p ∈ propTable, (match p.acc with
      | .flag members bits _ _ => bits == 2 ^ Nat.log2 bits && bits &&& members == bits
      | _ => true) = true := by decide +kernel
  have := all p hp
  rw [h] at this
  simp only [Bool.and_eq_true, beq_iff_eq] at this
  exact ⟨_, this.1, by rw [← this.1]; exact this.2⟩

/-- Setting a flag, and what comes of setting it again. -/
theorem flag_next (ver : PyVer) {members bits : Nat} {ids : List Nat} {key : String} {inverted : Bool} {default : Option Bool}
    {e : Event} {n : Nat} (hw : FlagWord e key n) (x : Bool) :
    ∃ e1, (flagProp ver members bits ids key inverted default).set e x = .ok e1 ∧
      FlagWord e1 key (flagNext ver members bits (x != inverted) n) ∧
      (e1 = e ↔ flagNext ver members bits (x != inverted) n = n) ∧
      ∀ y, ∃ e2, (flagProp ver members bits ids key inverted default).set e1 y = .ok e2 ∧
        (e2 = e ↔ flagNext ver members bits (y != inverted) (flagNext ver members bits (x != inverted) n) = n) := by
  rcases hw with ⟨hk, hv⟩ | ⟨hk, r, hv, hl⟩
  · have step : ∀ (n : Nat) (y : Bool), (flagProp ver members bits ids key inverted default).set { e with value := .lv (.int n) } y =
        .ok { e with value := .lv (.int (flagNext ver members bits (y != inverted) n)) } := by
      intro n y
      simp only [flagProp, hk, flagWrite, flagWord, Except.map, flagNext_eq, Bool.false_eq_true, if_false]
    have self : ({ e with value := .lv (.int n) } : Event) = e := by rw [← hv]
    have same : ∀ m : Nat, ({ e with value := .lv (.int m) } : Event) = e ↔ m = n := by
      intro m
      constructor
      · intro h
        rw [← self] at h
        injection h with _ _ h _
        injection h with h
        injection h with h
        exact Int.ofNat.inj h
      · rintro rfl; exact self
    refine ⟨_, (congrArg (fun a => (flagProp ver members bits ids key inverted default).set a x) self).symm.trans (step n x),
      .inl ⟨hk, rfl⟩, same _, fun y => ⟨_, step _ y, same _⟩⟩
  · have step : ∀ (r : Rec) (n : Nat) (y : Bool), Rec.lookup r key = some (some (.int n)) →
        (flagProp ver members bits ids key inverted default).set { e with value := .fields r } y =
        .ok { e with value := .fields (Rec.update r key (some (.int (flagNext ver members bits (y != inverted) n)))) } := by
      intro r n y hl
      simp only [flagProp, hk, structGet, structSet, hl, flagWrite, flagWord, Except.map, flagNext_eq, if_true]
    have self : ({ e with value := .fields r } : Event) = e := by rw [← hv]
    have same : ∀ m : Nat, ({ e with value := .fields (Rec.update r key (some (.int m))) } : Event) = e ↔ m = n := by
      intro m
      constructor
      · intro h
        rw [← self] at h
        injection h with _ _ h _
        injection h with h
        have := update_inj hl (h.trans (update_self hl).symm)
        injection this with this
        injection this with this
        exact Int.ofNat.inj this
      · rintro rfl; rw [update_self hl]; exact self
    refine ⟨_, (congrArg (fun a => (flagProp ver members bits ids key inverted default).set a x) self).symm.trans (step r n x hl),
      .inr ⟨hk, _, rfl, (lookup_update hl _).1⟩, same _, fun y => ⟨_, step _ _ y (lookup_update hl _).1, ?_⟩⟩
    rw [update_twice]
    exact same _

/-- Reading gives what the event holds. -/
theorem get_content {ver : PyVer} {ids : List Nat} {d : Option Value} {a : Access} {e : Event} {old : a.type}
    (hn : Numbered a e) (h : (a.descr ver ids d).get e = .ok (some old)) : Content a e (some old) := by
  cases a with
  | event =>
    change Except.ok (some e.value) = _ at h
    injection h with h
    exact h.symm
  | field key =>
    change structGet e key = _ at h
    unfold structGet at h
    show fieldOf e key = _
    unfold fieldOf
    split at h
    · next r hv =>
      rw [hv]; dsimp only
      split at h
      · next v hl => injection h with h; rw [hl, h]
      · cases h
    · next head points tail hv =>
      rw [hv]; dsimp only
      split at h
      · next v hl => injection h with h; rw [hl, h]
      · cases h
    · cases h
  | flag members bits key inverted =>
    obtain ⟨n, hw⟩ := hn
    refine .inl ⟨n, hw, ?_⟩
    rcases hw with ⟨hk, hv⟩ | ⟨hk, r, hv, hl⟩
    · simp only [Access.descr, flagProp, hk, hv, flagRead, flagWord, Except.map, flagIn, Int.toNat_natCast, Bool.false_eq_true,
        if_false] at h
      injection h with h
      rw [← h]; rfl
    · simp only [Access.descr, flagProp, hk, structGet, hv, hl, flagRead, flagWord, Except.map, flagIn, Int.toNat_natCast,
        if_true] at h
      injection h with h
      rw [← h]; rfl

/-- Assigning a value to an event and the former value after that. -/
theorem set_back {ver : PyVer} {ids : List Nat} {d : Option Value} {a : Access}
    (hb : ∀ members bits key inverted, a = .flag members bits key inverted → ∃ k, bits = 2 ^ k ∧ 2 ^ k &&& members = 2 ^ k)
    {e e1 : Event} {old x : a.type} (hc : Content a e (some old)) (hs : (a.descr ver ids d).set e x = .ok e1) :
    ∃ e2, (a.descr ver ids d).set e1 old = .ok e2 ∧ (e2 = e ↔ Undoable ver a e x) := by
  cases a with
  | event =>
    change Except.ok _ = _ at hs
    injection hs with hs
    subst hs
    injection (show some old = some e.value from hc) with hc
    subst hc
    exact ⟨_, rfl, fun _ => trivial, fun _ => rfl⟩
  | field key =>
    change structSet e key (some x) = _ at hs
    change fieldOf e key = _ at hc
    show ∃ e2, structSet e1 key (some old) = .ok e2 ∧ _
    unfold structSet at hs
    unfold fieldOf at hc
    split at hs
    · next r hv =>
      rw [hv] at hc
      dsimp only at hc
      rw [hc] at hs
      injection hs with hs
      subst hs
      refine ⟨e, ?_, fun _ => trivial, fun _ => rfl⟩
      unfold structSet
      dsimp only
      rw [(lookup_update hc _).1]
      dsimp only
      rw [update_twice, update_self hc, ← hv]
    · next head points tail hv =>
      rw [hv] at hc
      dsimp only at hc
      rw [hc] at hs
      injection hs with hs
      subst hs
      refine ⟨e, ?_, fun _ => trivial, fun _ => rfl⟩
      unfold structSet
      dsimp only
      rw [(lookup_update hc _).1]
      dsimp only
      rw [update_twice, update_self hc, ← hv]
    · cases hs
  | flag members bits key inverted =>
    obtain ⟨k, rfl, hsub⟩ := hb _ _ _ _ rfl
    rcases hc with ⟨n, hw, ho⟩ | ⟨_, ho⟩
    · injection ho with ho
      subst ho
      obtain ⟨e1', h1, _, _, h4⟩ := flag_next ver (members := members) (bits := 2 ^ k) (ids := ids) (inverted := inverted)
        (default := none) hw x
      rw [show (Access.flag members (2 ^ k) key inverted).descr ver ids d = flagProp ver members (2 ^ k) ids key inverted none from rfl]
        at hs ⊢
      rw [h1] at hs
      injection hs with hs
      subst hs
      obtain ⟨e2, h5, h6⟩ := h4 (decide (n &&& 2 ^ k = 2 ^ k) != inverted)
      refine ⟨e2, h5, h6.trans ?_⟩
      have hx : ((decide (n &&& 2 ^ k = 2 ^ k) != inverted) != inverted) = decide (n &&& 2 ^ k = 2 ^ k) := by
        cases decide (n &&& 2 ^ k = 2 ^ k) <;> cases inverted <;> rfl
      rw [hx, flag_undo hsub]
      have hon : (x != inverted) = true ↔ x = !inverted := by cases x <;> cases inverted <;> simp
      rw [hon]
      constructor
      · intro h; exact ⟨n, hw, h⟩
      · rintro ⟨m, hm, h⟩
        rw [flagWord_unique hw hm]
        exact h
    · cases ho

/-- Assigning the value an event holds. -/
theorem set_same {ver : PyVer} {ids : List Nat} {d : Option Value} {a : Access}
    (hb : ∀ members bits key inverted, a = .flag members bits key inverted → ∃ k, bits = 2 ^ k ∧ 2 ^ k &&& members = 2 ^ k)
    {e : Event} {old : a.type} (hc : Content a e (some old)) :
    ∃ e1, (a.descr ver ids d).set e old = .ok e1 ∧ (e1 = e ↔ Undoable ver a e old) := by
  cases a with
  | event =>
    injection (show some old = some e.value from hc) with hc
    subst hc
    exact ⟨e, rfl, fun _ => trivial, fun _ => rfl⟩
  | field key =>
    refine ⟨e, ?_, fun _ => trivial, fun _ => rfl⟩
    show structSet e key (some old) = _
    change fieldOf e key = _ at hc
    unfold fieldOf at hc
    unfold structSet
    split at hc
    · next r hv => rw [hv]; dsimp only; rw [hc]; dsimp only; rw [update_self hc, ← hv]
    · next r _ _ hv => rw [hv]; dsimp only; rw [hc]; dsimp only; rw [update_self hc, ← hv]
    · cases hc
  | flag members bits key inverted =>
    obtain ⟨k, rfl, hsub⟩ := hb _ _ _ _ rfl
    rcases hc with ⟨n, hw, ho⟩ | ⟨_, ho⟩
    · injection ho with ho
      subst ho
      obtain ⟨e1, h1, _, h3, _⟩ := flag_next ver (members := members) (bits := 2 ^ k) (ids := ids) (inverted := inverted)
        (default := none) hw (decide (n &&& 2 ^ k = 2 ^ k) != inverted)
      refine ⟨e1, h1, h3.trans ?_⟩
      have hx : ((decide (n &&& 2 ^ k = 2 ^ k) != inverted) != inverted) = decide (n &&& 2 ^ k = 2 ^ k) := by
        cases decide (n &&& 2 ^ k = 2 ^ k) <;> cases inverted <;> rfl
      rw [hx, flag_same hsub]
      have hon : n &&& 2 ^ k = 2 ^ k ↔ n &&& 2 ^ k = 2 ^ k ∧ (decide (n &&& 2 ^ k = 2 ^ k) != inverted) = !inverted := by
        by_cases h : n &&& 2 ^ k = 2 ^ k
        · simp [h]
        · simp [h]
      constructor
      · intro h; exact ⟨n, hw, h.imp_right (fun h => h.imp_right hon.1)⟩
      · rintro ⟨m, hm, h⟩
        rw [← flagWord_unique hw hm] at h
        exact h.imp_right (fun h => h.imp_right hon.2)
    · cases ho

/-! ### Worlds -/

theorem World.setEv_back {w : World} {ref : Nat} (h : ref < w.store.length) (e1 e2 : Event) :
    (w.setEv ref e1).setEv ref e2 = w ↔ e2 = w.ev ref := by
  constructor
  · intro hw
    have := World.ev_setEv (w.setEv ref e1) ref e2 ref
    rw [hw, if_pos ⟨rfl, by simpa [World.setEv] using h⟩] at this
    exact this.symm
  · rintro rfl
    unfold World.setEv World.ev
    simp [List.getD_eq_getElem?_getD, h]

theorem World.setEv_same {w : World} {ref : Nat} (h : ref < w.store.length) (e1 : Event) :
    w.setEv ref e1 = w ↔ e1 = w.ev ref := by
  constructor
  · intro hw
    have := World.ev_setEv w ref e1 ref
    rw [hw, if_pos ⟨rfl, h⟩] at this
    exact this.symm
  · rintro rfl
    unfold World.setEv World.ev
    simp [List.getD_eq_getElem?_getD, h]

theorem read_at {w : World} {L : Nat → Prop} (r : WReach w L) {t : Nat} (ht : L t) (ver : PyVer) {p : PropRow} {k : Nat}
    {e : Event} (hT : Target (w.events t) p.ids k e) : p.read ver w t = (p.descr ver).get e ∧ ∃ ref, e = w.ev ref ∧
      ref < w.store.length ∧ w.getEvent t p.ids = .ok (some ref) ∧
      ∀ w' v, w'.heap = w.heap → p.write ver w' t v = match (p.descr ver).set (w'.ev ref) v with
        | .error x => (w', .error x)
        | .ok e' => (w'.setEv ref e', .ok ()) := by
  have hT' : Target (w.events t) (p.descr ver).ids k e := by rw [descr_ids]; exact hT
  rcases getEvent_spec r ht p.ids with ⟨k', ref, h1, h2, h3, h4⟩ | ⟨h0, h1, h2⟩ | ⟨h0, h1, h2⟩ | ⟨h0, h1, h2⟩
  · obtain ⟨rfl, rfl⟩ := target_unique h4 hT
    refine ⟨by unfold PropRow.read Descr.read; rw [descr_ids, h1], ref, rfl, h3, h1, fun w' v hh => ?_⟩
    unfold PropRow.write Descr.write
    rw [descr_readonly, descr_ids, getEvent_congr hh, h1]
    rfl
  · exfalso
    rcases hT with ⟨g, _⟩ | ⟨a, b, pre, post, g1, _, g3, _⟩
    · exact h0 g
    · exact h2 e (by rw [g3]; simp) (by rw [g1]; simp)
  · exfalso
    rcases hT with ⟨_, g, _⟩ | ⟨a, b, pre, post, g1, _, g3, _⟩
    · rw [h1] at g; cases g
    · rw [h0] at g1; simp at g1
  · exfalso
    rcases hT with ⟨_, g, _⟩ | ⟨a, b, pre, post, g1, _, g3, _⟩
    · rw [g] at h1; simp at h1
    · rw [h0] at g1; simp at g1

/-! ### C136 -/

/-- C136. Assigning the value that was just read: it is accepted, and it leaves everything as it was exactly if the
assignment is undoable: always, but for flags on Python 3.11 and later whose word has bits above the known ones and that are
not set. -/
theorem C136_same {w : World} {L : Nat → Prop} (r : WReach w L) {t : Nat} (ht : L t) (ver : PyVer) {p : PropRow}
    (hp : p ∈ propTable) {k : Nat} {e : Event} (hT : Target (w.events t) p.ids k e) (hn : Numbered p.acc e) {old : p.type}
    (hr : p.read ver w t = .ok (some old)) :
    ∃ w', p.write ver w t old = (w', .ok ()) ∧ (w' = w ↔ Undoable ver p.acc e old) := by
  obtain ⟨hread, ref, rfl, hlt, _, hwrite⟩ := read_at r ht ver hT
  obtain ⟨e1, h1, h2⟩ := set_same (ver := ver) (ids := p.ids) (d := p.default)
    (fun _ _ _ _ h => table_flags hp h) (get_content hn (hread.symm.trans hr))
  refine ⟨w.setEv ref e1, ?_, (World.setEv_same hlt e1).trans h2⟩
  rw [hwrite w old rfl]
  unfold PropRow.descr
  rw [h1]

/-- C136. Assigning a value and then the value the property had before: both are accepted, and everything is as it was exactly
if the assignment is undoable: always, but for flags on Python 3.11 and later whose word has bits above the known ones, if one
of the two values is the one that clears the flag. -/
theorem C136_undo {w w1 : World} {L : Nat → Prop} (r : WReach w L) {t : Nat} (ht : L t) (ver : PyVer) {p : PropRow}
    (hp : p ∈ propTable) {k : Nat} {e : Event} (hT : Target (w.events t) p.ids k e) (hn : Numbered p.acc e) {old x : p.type}
    (hr : p.read ver w t = .ok (some old)) (hw : p.write ver w t x = (w1, .ok ())) :
    ∃ w2, p.write ver w1 t old = (w2, .ok ()) ∧ (w2 = w ↔ Undoable ver p.acc e x) := by
  obtain ⟨hread, ref, rfl, hlt, _, hwrite⟩ := read_at r ht ver hT
  rw [hwrite w x rfl] at hw
  cases hs : (p.descr ver).set (w.ev ref) x with
  | error err => rw [hs] at hw; cases hw
  | ok e1 =>
    rw [hs] at hw
    injection hw with hw _
    subst hw
    obtain ⟨e2, h1, h2⟩ := set_back (ver := ver) (ids := p.ids) (d := p.default)
      (fun _ _ _ _ h => table_flags hp h) (get_content hn (hread.symm.trans hr)) hs
    refine ⟨(w.setEv ref e1).setEv ref e2, ?_, (World.setEv_back hlt e1 e2).trans h2⟩
    rw [hwrite (w.setEv ref e1) old rfl, World.ev_setEv, if_pos ⟨rfl, hlt⟩]
    unfold PropRow.descr
    rw [h1]

theorem undoable_numbered {ver : PyVer} {a : Access} {e : Event} {x : a.type} (h : Undoable ver a e x) : Numbered a e := by
  cases a with
  | event => trivial
  | field key => trivial
  | flag members bits key inverted => exact ⟨h.choose, h.choose_spec.1⟩

/-- C136. Any number of assignments to any properties of any models is undone by assigning the former values in the reverse
order: all of that is accepted, and everything is then as it was before the first assignment. -/
theorem C136_history {ver : PyVer} {w w2 : World} {l : List ((p : PropRow) × Nat × p.type)} (h : Edits ver w l w2) :
    ∀ w3, Undone ver w2 l w3 ↔ w3 = w := by
  induction h with
  | none =>
    intro w3
    constructor
    · intro h; cases h; rfl
    · rintro rfl; exact .none
  | one r ht hp hT hr hu hw rest ih =>
    intro w3
    obtain ⟨w4, h1, h2⟩ := C136_undo r ht ver hp hT (undoable_numbered hu) hr hw
    have := h2.2 hu
    subst this
    constructor
    · intro h
      cases h with
      | one rest' hw' =>
        have := (ih _).1 rest'
        subst this
        rw [h1] at hw'
        injection hw' with hw' _
        exact hw'.symm
    · rintro rfl
      exact .one ((ih _).2 rfl) h1

theorem content_numbered {a : Access} {e : Event} {old : a.type} (h : Content a e (some old)) : Numbered a e := by
  cases a with
  | event => trivial
  | field key => trivial
  | flag members bits key inverted =>
    rcases h with ⟨n, hw, _⟩ | ⟨_, h0⟩
    · exact ⟨n, hw⟩
    · cases h0

theorem undoable_old {ver : PyVer} (hv : ver = .upTo310) {a : Access} {e : Event} {x : a.type} (h : Numbered a e) :
    Undoable ver a e x := by
  cases a with
  | event => trivial
  | field key => trivial
  | flag members bits key inverted => exact ⟨h.choose, h.choose_spec, .inl hv⟩

/-- C136 in programs that open a project, create models and assign to their properties: a property that gives a value accepts
it back, and on Python up to 3.10 this changes nothing. -/
theorem C136_programs [FloatEnv] {w : World} {L : Nat → Prop} (r : PropReach w L) {t : Nat} (ht : L t) (ver : PyVer)
    {p : PropRow} (hp : p ∈ propTable) (hArp : p.cls ≠ "Arp") (hm : ModelOf p (w.events t)) {k : Nat} {e : Event}
    (hT : Target (w.events t) p.ids k e) {old : p.type} (hr : p.read ver w t = .ok (some old)) :
    ∃ w', p.write ver w t old = (w', .ok ()) ∧ (w' = w ↔ Undoable ver p.acc e old) ∧ (ver = .upTo310 → w' = w) := by
  obtain ⟨wr, hty⟩ := C75_typed r
  obtain ⟨o1, o2⟩ := target_ok (table_ok p hp hArp) (typed_view wr ht hty) hm hT
  obtain ⟨v, v1, v2⟩ := get_typed ver p.ids p.default p.acc o2 o1
  have hv : v = some old := by
    have := (read_at wr ht ver hT).1
    rw [hr] at this
    have v1' : (p.descr ver).get e = .ok v := v1
    rw [v1'] at this
    injection this with this
    exact this.symm
  subst hv
  have hn : Numbered p.acc e := content_numbered v2
  obtain ⟨w', h1, h2⟩ := C136_same wr ht ver hp hT hn hr
  refine ⟨w', h1, h2, fun hver => h2.2 (undoable_old hver hn)⟩

/-! ### Examples and the refutation -/

namespace Demo

/-- `FX.clip` as a row of the table. -/
def clipRow : PropRow := ⟨"FX", "clip", [70], [], .flag 263 4 "flags" false, none⟩

/-- The channel of `fxProject`, but the flag is not set. -/
def fxClear : Project := ⟨0, 1, 96, [⟨64, .u16, .lv (.int 0), 2⟩, ⟨70, .u16, .lv (.int 0x8000), 2⟩]⟩

end Demo

open Demo in
/-- C136 is false on Python 3.11 and later.  `fx.clip = fx.clip` changes the flags of the channel from `0x8000` to `0`; and
after `fx.clip = False` and `fx.clip = True` flags that were `0x8004` are `4`. -/
theorem C136_refuted : clipRow ∈ propTable ∧
    (clipRow.read .from311 (World.ofProject fxClear) 0 = .ok (some false) ∧
      ∃ w, clipRow.write .from311 (World.ofProject fxClear) 0 false = (w, .ok ()) ∧
        w.project.events = [⟨64, .u16, .lv (.int 0), 2⟩, ⟨70, .u16, .lv (.int 0), 2⟩]) ∧
    (clipRow.read .from311 (World.ofProject fxProject) 0 = .ok (some true) ∧
      ∃ w w', clipRow.write .from311 (World.ofProject fxProject) 0 false = (w, .ok ()) ∧
        clipRow.write .from311 w 0 true = (w', .ok ()) ∧
        w'.project.events = [⟨64, .u16, .lv (.int 0), 2⟩, ⟨70, .u16, .lv (.int 4), 2⟩]) :=
  ⟨by decide +kernel, ⟨rfl, (clipRow.write .from311 (World.ofProject fxClear) 0 false).1,
      pair_eq (by decide +kernel), by decide +kernel⟩,
    rfl, (clipRow.write .from311 (World.ofProject fxProject) 0 false).1,
      (clipRow.write .from311 (clipRow.write .from311 (World.ofProject fxProject) 0 false).1 0 true).1,
      pair_eq (by decide +kernel), pair_eq (by decide +kernel), by decide +kernel⟩

namespace Demo

/-- `FX.swap_stereo` as a row of the table. -/
def swapRow : PropRow := ⟨"FX", "swap_stereo", [70], [], .flag 263 256 "flags" false, none⟩

/-- A channel with the flag for clipping. -/
def fxClip : Project := ⟨0, 1, 96, [⟨64, .u16, .lv (.int 0), 2⟩, ⟨70, .u16, .lv (.int 4), 2⟩]⟩

theorem low_bits {n : Nat} (h : n < 2 ^ 9) : ∀ i, Nat.log2 263 < i → n.testBit i = false := by
  intro i hi
  have h8 : Nat.log2 263 = 8 := by decide +kernel
  exact Nat.testBit_lt_two_pow (Nat.lt_of_lt_of_le h (Nat.pow_le_pow_right (by decide) (by omega)))

end Demo

open Demo in
/-- Two assignments to two properties that can be undone, on Python 3.11: `fx.swap_stereo = True` and `fx.clip = False`. -/
example : ∃ w, Edits .from311 (World.ofProject fxClip) [⟨swapRow, 0, false⟩, ⟨clipRow, 0, true⟩] w ∧
    w.project.events[1]? = some ⟨70, .u16, .lv (.int 0x100), 2⟩ := by
  have r0 : WReach (World.ofProject fxClip) (· = 0) := .parsed _
  refine ⟨_, .one (w1 := (World.ofProject fxClip).setEv 1 ⟨70, .u16, .lv (.int 0x104), 2⟩) (x := true)
    (e := ⟨70, .u16, .lv (.int 4), 2⟩) r0 rfl
    (by decide +kernel) (.inr ⟨[], [], [⟨64, .u16, .lv (.int 0), 2⟩], [], rfl, by simp, by decide +kernel, by simp, rfl⟩) rfl
    ⟨4, .inl ⟨rfl, rfl⟩, .inr (.inl (low_bits (by decide)))⟩ rfl
    (.one (w1 := ((World.ofProject fxClip).setEv 1 ⟨70, .u16, .lv (.int 0x104), 2⟩).setEv 1 ⟨70, .u16, .lv (.int 0x100), 2⟩)
      (x := false) (e := ⟨70, .u16, .lv (.int 0x104), 2⟩) (r0.assign 1 (.lv (.int 0x104))) rfl
    (by decide +kernel) (.inr ⟨[], [], [⟨64, .u16, .lv (.int 0), 2⟩], [], rfl, by simp, by decide +kernel, by simp, rfl⟩) rfl
    ⟨0x104, .inl ⟨rfl, rfl⟩, .inr (.inl (low_bits (by decide)))⟩ rfl .none), by decide +kernel⟩

end PyFLP
