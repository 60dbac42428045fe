import Verif.Props.Undo
/-!
# The order of assignments (C137)
-/

namespace PyFLP

open Spec

namespace Spec

/-- Assignments to properties of models, all of them accepted: the property, the model and the value. -/
inductive Performs (ver : PyVer) : World → List ((p : PropRow) × Nat × p.type) → World → Prop
  | none {w : World} : Performs ver w [] w
  | one {w w1 w2 : World} {p : PropRow} {t : Nat} {x : p.type} {l : List ((p : PropRow) × Nat × p.type)}
      (hw : p.write ver w t x = (w1, .ok ())) (rest : Performs ver w1 l w2) : Performs ver w (⟨p, t, x⟩ :: l) w2

/-- Assignments to different things: the properties stand for different things, or the models have no event in common. -/
def Separate (w : World) (a b : (p : PropRow) × Nat × p.type) : Prop :=
  apart a.1 b.1 = true ∨ ∀ i ∈ w.entries a.2.1, ∀ j ∈ w.entries b.2.1, i.1 ≠ j.1

/-- Assigning `x` and then `y`: always for values of events and fields; for flags up to Python 3.10, or if the word has no bit
above the highest one of the enumeration's members, or if `x` sets the flag or `y` clears it. -/
def Superseded (ver : PyVer) : (a : Access) → Event → (x y : a.type) → Prop
  | .event, _, _, _ => True
  | .field _, _, _, _ => True
  | .flag members _ key inverted, e, x, y => ∃ n, FlagWord e key n ∧
      (ver = .upTo310 ∨ (∀ i, Nat.log2 members < i → n.testBit i = false) ∨ x = !inverted ∨ y = inverted)

end Spec

/-! ### Records -/

theorem update_comm (r : Rec) {key key' : String} (hk : key ≠ key') (x y : Option LV) :
    Rec.update (Rec.update r key x) key' y = Rec.update (Rec.update r key' y) key x := by
  induction r with
  | nil => rfl
  | cons a r ih =>
    obtain ⟨n, z⟩ := a
    by_cases h1 : n = key
    · have h2 : n ≠ key' := fun h => hk (h1.symm.trans h)
      simp only [Rec.update, if_pos h1, if_neg h2]
    · by_cases h2 : n = key'
      · simp only [Rec.update, if_neg h1, if_pos h2]
      · simp only [Rec.update, if_neg h1, if_neg h2, ih]

/-- What a successful assignment to a field is. -/
theorem structSet_ok {e e' : Event} {key : String} {x : Option LV} : structSet e key x = .ok e' ↔
    (∃ r old, e.value = .fields r ∧ Rec.lookup r key = some (some old) ∧ e' = { e with value := .fields (Rec.update r key x) }) ∨
    (∃ r pts tl old, e.value = .auto r pts tl ∧ Rec.lookup r key = some (some old) ∧
      e' = { e with value := .auto (Rec.update r key x) pts tl }) := by
  constructor
  · intro h
    unfold structSet at h
    split at h
    · next r hv =>
      split at h
      · cases h
      · cases h
      · next old hl => injection h with h; exact .inl ⟨r, old, hv, hl, h.symm⟩
    · next r pts tl hv =>
      split at h
      · cases h
      · cases h
      · next old hl => injection h with h; exact .inr ⟨r, pts, tl, old, hv, hl, h.symm⟩
    · cases h
  · rintro (⟨r, old, hv, hl, rfl⟩ | ⟨r, pts, tl, old, hv, hl, rfl⟩)
    · unfold structSet; rw [hv]; dsimp only; rw [hl]
    · unfold structSet; rw [hv]; dsimp only; rw [hl]

theorem structSet_comm {e e1 e3 : Event} {key key' : String} (hk : key ≠ key') {x y : Option LV}
    (h1 : structSet e key x = .ok e1) (h2 : structSet e1 key' y = .ok e3) :
    ∃ e2, structSet e key' y = .ok e2 ∧ structSet e2 key x = .ok e3 := by
  rcases structSet_ok.1 h1 with ⟨r, old, hv, hl, rfl⟩ | ⟨r, pts, tl, old, hv, hl, rfl⟩
  · rcases structSet_ok.1 h2 with ⟨r', old', hv', hl', rfl⟩ | ⟨r', pts', tl', old', hv', _⟩
    · injection hv' with hv'
      subst hv'
      rw [(lookup_update hl x).2.2 key' (Ne.symm hk)] at hl'
      refine ⟨_, structSet_ok.2 (.inl ⟨r, old', hv, hl', rfl⟩), structSet_ok.2 (.inl ⟨_, old, rfl, ?_, ?_⟩)⟩
      · rw [(lookup_update hl' y).2.2 key hk]; exact hl
      · rw [update_comm r hk]
    · cases hv'
  · rcases structSet_ok.1 h2 with ⟨r', old', hv', _⟩ | ⟨r', pts', tl', old', hv', hl', rfl⟩
    · cases hv'
    · injection hv' with hv' hp htl
      subst hv' hp htl
      rw [(lookup_update hl x).2.2 key' (Ne.symm hk)] at hl'
      refine ⟨_, structSet_ok.2 (.inr ⟨r, _, _, old', hv, hl', rfl⟩), structSet_ok.2 (.inr ⟨_, _, _, old, rfl, ?_, ?_⟩)⟩
      · rw [(lookup_update hl' y).2.2 key hk]; exact hl
      · rw [update_comm r hk]

/-- An assignment to a field overwrites an earlier one. -/
theorem structSet_again {e e1 : Event} {key : String} {x : LV} (h1 : structSet e key (some x) = .ok e1) (z : Option LV) :
    structSet e1 key z = structSet e key z := by
  rcases structSet_ok.1 h1 with ⟨r, old, hv, hl, rfl⟩ | ⟨r, pts, tl, old, hv, hl, rfl⟩
  · rw [structSet_ok.2 (.inl ⟨_, x, rfl, (lookup_update hl _).1, rfl⟩), structSet_ok.2 (.inl ⟨_, old, hv, hl, rfl⟩), update_twice]
  · rw [structSet_ok.2 (.inr ⟨_, _, _, x, rfl, (lookup_update hl _).1, rfl⟩),
      structSet_ok.2 (.inr ⟨_, _, _, old, hv, hl, rfl⟩), update_twice]

theorem structSet_any {e e1 : Event} {key : String} {x : Option LV} (h1 : structSet e key x = .ok e1) (z : Option LV) :
    ∃ e2, structSet e key z = .ok e2 := by
  rcases structSet_ok.1 h1 with ⟨r, old, hv, hl, rfl⟩ | ⟨r, pts, tl, old, hv, hl, rfl⟩
  · exact ⟨_, structSet_ok.2 (.inl ⟨_, old, hv, hl, rfl⟩)⟩
  · exact ⟨_, structSet_ok.2 (.inr ⟨_, _, _, old, hv, hl, rfl⟩)⟩

theorem structSet_kind {e e1 : Event} {key : String} {x : Option LV} (h1 : structSet e key x = .ok e1) :
    e1.kind = e.kind ∧ e1.id = e.id ∧ ∀ y, e1.value ≠ .lv y := by
  rcases structSet_ok.1 h1 with ⟨r, old, hv, hl, rfl⟩ | ⟨r, pts, tl, old, hv, hl, rfl⟩
  · exact ⟨rfl, rfl, fun y hy => by cases hy⟩
  · exact ⟨rfl, rfl, fun y hy => by cases hy⟩

/-! ### Flag words -/

theorem flagWrite_ok {ver : PyVer} {members f : Nat} {inv v : Bool} {word word' : Option LV} :
    flagWrite ver members f inv word v = .ok word' ↔
      ∃ i, flagWord word = .ok i ∧ word' = some (.int (flagNext ver members f (v != inv) i.toNat)) := by
  have key : ∀ i : Int, (if (v != inv) = true then flagOr i f else flagAndNot ver members i f) =
      (flagNext ver members f (v != inv) i.toNat : Int) := by
    intro i
    rw [← flagNext_eq]
    unfold flagOr flagAndNot
    simp only [Int.toNat_natCast]
  unfold flagWrite
  cases flagWord word with
  | error e =>
    constructor
    · intro h; cases h
    · rintro ⟨i, h, _⟩; cases h
  | ok i =>
    simp only [Except.map]
    rw [key]
    constructor
    · intro h; injection h with h; exact ⟨i, rfl, h.symm⟩
    · rintro ⟨j, h, rfl⟩; injection h with h; subst h; rfl

theorem flagNext_comm {ver : PyVer} {members f f' : Nat} (hf : f ≠ 0) (hf' : f' ≠ 0) (hs : f &&& members = f)
    (hs' : f' &&& members = f') (hd : f &&& f' = 0) (on on' : Bool) (n : Nat) :
    flagNext ver members f' on' (flagNext ver members f on n) = flagNext ver members f on (flagNext ver members f' on' n) := by
  apply Nat.eq_of_testBit_eq
  intro i
  rw [flagNext_bits hf' hs', flagNext_bits hf hs, flagNext_bits hf hs, flagNext_bits hf' hs']
  have h0 : f.testBit i = false ∨ f'.testBit i = false := by
    have := congrArg (fun k => k.testBit i) hd
    cases hb : f.testBit i with
    | false => exact .inl rfl
    | true => simp [hb] at this; exact .inr this
  have high : Nat.log2 members < i → f.testBit i = false ∧ f'.testBit i = false := by
    intro hi
    have hm : members.testBit i = false := Nat.testBit_lt_two_pow (Nat.lt_of_lt_of_le Nat.lt_log2_self
      (Nat.pow_le_pow_right (by omega) (by omega)))
    have h1 := congrArg (fun k => k.testBit i) hs
    have h2 := congrArg (fun k => k.testBit i) hs'
    simp [hm] at h1 h2
    exact ⟨h1, h2⟩
  by_cases hle : i ≤ Nat.log2 members
  · simp only [hle, decide_true, Bool.or_true, Bool.and_true]
    rcases h0 with h0 | h0 <;> cases on <;> cases on' <;> simp [h0]
  · obtain ⟨g1, g2⟩ := high (by omega)
    cases on <;> cases on' <;> simp [g1, g2, hle]

/-! ### Events -/

/-- What a successful assignment to a flag is. -/
theorem flagSet_ok {ver : PyVer} {members f : Nat} {ids : List Nat} {d : Option Value} {key : String} {inv v : Bool} {e e' : Event} :
    ((Access.flag members f key inv).descr ver ids d).set e v = .ok e' ↔
      (e.kind.isStruct = true ∧ ∃ word i, structGet e key = .ok word ∧ flagWord word = .ok i ∧
        structSet e key (some (.int (flagNext ver members f (v != inv) i.toNat))) = .ok e') ∨
      (e.kind.isStruct = false ∧ ∃ x i, e.value = .lv x ∧ flagWord (some x) = .ok i ∧
        e' = { e with value := .lv (.int (flagNext ver members f (v != inv) i.toNat)) }) := by
  have hset : ((Access.flag members f key inv).descr ver ids d).set e v = (if e.kind.isStruct then (match structGet e key with
      | .error y => (.error y : Py Event)
      | .ok word =>
        match flagWrite ver members f inv word v with
        | .error y => (.error y : Py Event)
        | .ok word' => structSet e key word')
    else (match e.value with
      | .lv y =>
        match flagWrite ver members f inv (some y) v with
        | .ok (some y') => .ok { e with value := .lv y' }
        | .ok none => .error .typeError
        | .error y => .error y
      | _ => .error .typeError)) := rfl
  rw [hset]
  constructor
  · intro h
    by_cases hs : e.kind.isStruct = true
    · rw [if_pos hs] at h
      left
      refine ⟨hs, ?_⟩
      split at h
      · cases h
      · next word hg =>
        split at h
        · cases h
        · next word' hw =>
          obtain ⟨i, h1, rfl⟩ := flagWrite_ok.1 hw
          exact ⟨word, i, hg, h1, h⟩
    · rw [if_neg hs] at h
      right
      refine ⟨by simpa using hs, ?_⟩
      split at h
      · next y hv =>
        split at h
        · next y' hw =>
          obtain ⟨i, h1, h2⟩ := flagWrite_ok.1 hw
          injection h2 with h2
          subst h2
          injection h with h
          exact ⟨y, i, hv, h1, h.symm⟩
        · cases h
        · cases h
      · cases h
  · rintro (⟨hs, word, i, h1, h2, h3⟩ | ⟨hs, x, i, h1, h2, rfl⟩)
    · rw [if_pos hs, h1]
      dsimp only
      rw [flagWrite_ok.2 ⟨i, h2, rfl⟩]
      exact h3
    · rw [if_neg (by simp [hs]), h1]
      dsimp only
      rw [flagWrite_ok.2 ⟨i, h2, rfl⟩]

/-- Flags have bits. -/
def nonzero : Access → Bool
  | .flag _ f _ _ => f != 0
  | _ => true

/-- Assignments to different parts of an event can be done in any order. -/
theorem set_comm {ver : PyVer} {ids ids' : List Nat} {d d' : Option Value} {a b : Access} (hd : disjoint a b = true)
    (hz : nonzero b = true) {e e1 e3 : Event} {x : a.type} {y : b.type} (h1 : (a.descr ver ids d).set e x = .ok e1)
    (h2 : (b.descr ver ids' d').set e1 y = .ok e3) :
    ∃ e2, (b.descr ver ids' d').set e y = .ok e2 ∧ (a.descr ver ids d).set e2 x = .ok e3 := by
  cases a with
  | event => cases b <;> cases hd
  | field ka =>
    have h1' : structSet e ka (some x) = .ok e1 := h1
    cases b with
    | event => cases hd
    | field kb =>
      simp only [disjoint, bne_iff_ne, ne_eq] at hd
      exact structSet_comm hd h1' h2
    | flag m f kb inv =>
      simp only [disjoint, bne_iff_ne, ne_eq] at hd
      obtain ⟨k1, k2, k3⟩ := structSet_kind h1'
      rcases flagSet_ok.1 h2 with ⟨hs, word, i, g1, g2, g3⟩ | ⟨hs, z, i, g1, g2, g3⟩
      · rw [(structSet_get (key' := kb) h1').2.1 (Ne.symm hd)] at g1
        obtain ⟨e2, j1, j2⟩ := structSet_comm hd h1' g3
        exact ⟨e2, flagSet_ok.2 (.inl ⟨by rw [← k1]; exact hs, word, i, g1, g2, j1⟩), j2⟩
      · exact absurd g1 (k3 z)
  | flag ma fa ka inva =>
    rcases flagSet_ok.1 h1 with ⟨hs, word, i, g1, g2, g3⟩ | ⟨hs, z, i, g1, g2, g3⟩
    · obtain ⟨k1, k2, k3⟩ := structSet_kind g3
      cases b with
      | event => cases hd
      | field kb =>
        simp only [disjoint, bne_iff_ne, ne_eq] at hd
        obtain ⟨e2, j1, j2⟩ := structSet_comm hd g3 (show structSet e1 kb (some y) = .ok e3 from h2)
        refine ⟨e2, j1, flagSet_ok.2 (.inl ⟨?_, word, i, ?_, g2, j2⟩)⟩
        · rw [(structSet_kind j1).1]; exact hs
        · rw [(structSet_get (key' := ka) j1).2.1 hd]; exact g1
      | flag mb fb kb invb =>
        simp only [disjoint, Bool.and_eq_true, beq_iff_eq, bne_iff_ne, ne_eq] at hd
        obtain ⟨⟨⟨⟨d1, d2⟩, rfl⟩, d3⟩, d4⟩ := hd
        simp only [nonzero, bne_iff_ne, ne_eq] at hz
        rcases flagSet_ok.1 h2 with ⟨hs2, word2, i2, q1, q2, q3⟩ | ⟨hs2, z, i2, q1, q2, q3⟩
        · by_cases hk : ka = kb
          · subst hk
            rw [(structSet_get (key' := ka) g3).2.2] at q1
            injection q1 with q1
            subst q1
            injection q2 with q2
            subst q2
            rw [Int.toNat_natCast, flagNext_comm d2 hz d3 d4 d1] at q3
            obtain ⟨e2, j1⟩ := structSet_any g3 (some (.int (flagNext ver ma fb (y != invb) i.toNat)))
            refine ⟨e2, flagSet_ok.2 (.inl ⟨hs, word, i, g1, g2, j1⟩), flagSet_ok.2 (.inl ⟨?_, _, _,
              (structSet_get (key' := ka) j1).2.2, rfl, ?_⟩)⟩
            · rw [(structSet_kind j1).1]; exact hs
            · rw [Int.toNat_natCast, structSet_again j1, ← structSet_again g3]; exact q3
          · rw [(structSet_get (key' := kb) g3).2.1 (Ne.symm hk)] at q1
            obtain ⟨e2, j1, j2⟩ := structSet_comm hk g3 q3
            refine ⟨e2, flagSet_ok.2 (.inl ⟨hs, word2, i2, q1, q2, j1⟩), flagSet_ok.2 (.inl ⟨?_, word, i, ?_, g2, j2⟩)⟩
            · rw [(structSet_kind j1).1]; exact hs
            · rw [(structSet_get (key' := ka) j1).2.1 hk]; exact g1
        · rw [k1, hs] at hs2; cases hs2
    · subst g3
      cases b with
      | event => cases hd
      | field kb => cases (show (Except.error .typeError : Py Event) = .ok e3 from h2)
      | flag mb fb kb invb =>
        simp only [disjoint, Bool.and_eq_true, beq_iff_eq, bne_iff_ne, ne_eq] at hd
        obtain ⟨⟨⟨⟨d1, d2⟩, rfl⟩, d3⟩, d4⟩ := hd
        simp only [nonzero, bne_iff_ne, ne_eq] at hz
        rcases flagSet_ok.1 h2 with ⟨hs2, _⟩ | ⟨hs2, z2, i2, q1, q2, rfl⟩
        · exact absurd (hs.symm.trans hs2) (by decide)
        · injection q1 with q1
          subst q1
          injection q2 with q2
          subst q2
          refine ⟨_, flagSet_ok.2 (.inr ⟨hs, z, i, g1, g2, rfl⟩), flagSet_ok.2 (.inr ⟨hs, _, _, rfl, rfl, ?_⟩)⟩
          rw [Int.toNat_natCast, Int.toNat_natCast, flagNext_comm d2 hz d3 d4 d1]

/-! ### Worlds -/

/-- What a successful assignment to a property is. -/
theorem write_ok {ver : PyVer} {p : PropRow} {w w' : World} {t : Nat} {x : p.type} : p.write ver w t x = (w', .ok ()) ↔
    ∃ ref e', w.getEvent t p.ids = .ok (some ref) ∧ (p.descr ver).set (w.ev ref) x = .ok e' ∧ w' = w.setEv ref e' := by
  unfold PropRow.write Descr.write
  rw [descr_readonly, descr_ids]
  simp only [Bool.false_eq_true, if_false]
  constructor
  · intro h
    split at h
    · cases h
    · cases h
    · next ref hg =>
      split at h
      · cases h
      · next e' hs => injection h with h _; exact ⟨ref, e', hg, hs, h.symm⟩
  · rintro ⟨ref, e', hg, hs, rfl⟩
    rw [hg]
    dsimp only
    rw [hs]

theorem setEv_heap (w : World) (ref : Nat) (e : Event) : (w.setEv ref e).heap = w.heap := rfl

theorem getEvent_setEv (w : World) (ref : Nat) (e : Event) (t : Nat) (ids : List Nat) :
    (w.setEv ref e).getEvent t ids = w.getEvent t ids :=
  getEvent_congr (setEv_heap w ref e) t ids

theorem setEv_length (w : World) (ref : Nat) (e : Event) : (w.setEv ref e).store.length = w.store.length := by
  simp [World.setEv]

theorem setEv_comm {w : World} {ref ref' : Nat} (h : ref ≠ ref') (e e' : Event) :
    (w.setEv ref e).setEv ref' e' = (w.setEv ref' e').setEv ref e := by
  unfold World.setEv
  simp only [List.set_comm _ _ h]

theorem setEv_twice (w : World) (ref : Nat) (e e' : Event) : (w.setEv ref e).setEv ref e' = w.setEv ref e' := by
  unfold World.setEv
  simp

/-- Assignments that do not meet. -/
def Aside (w : World) (a b : (p : PropRow) × Nat × p.type) : Prop :=
  ∀ ref, w.getEvent a.2.1 a.1.ids = .ok (some ref) → w.getEvent b.2.1 b.1.ids = .ok (some ref) → ref < w.store.length ∧
    disjoint a.1.acc b.1.acc = true ∧ disjoint b.1.acc a.1.acc = true ∧ nonzero a.1.acc = true ∧ nonzero b.1.acc = true

theorem Aside.symm {w : World} {a b : (p : PropRow) × Nat × p.type} (h : Aside w a b) : Aside w b a := by
  intro ref h1 h2
  obtain ⟨g1, g2, g3, g4, g5⟩ := h ref h2 h1
  exact ⟨g1, g3, g2, g5, g4⟩

theorem Aside.setEv {w : World} {a b : (p : PropRow) × Nat × p.type} (h : Aside w a b) (ref : Nat) (e : Event) :
    Aside (w.setEv ref e) a b := by
  intro ref' h1 h2
  rw [getEvent_setEv] at h1 h2
  rw [setEv_length]
  exact h ref' h1 h2

/-- Two assignments in the other order. -/
theorem write_comm {ver : PyVer} {w w1 w3 : World} {p q : PropRow} {t u : Nat} {x : p.type} {y : q.type}
    (h : Aside w ⟨p, t, x⟩ ⟨q, u, y⟩) (h1 : p.write ver w t x = (w1, .ok ())) (h2 : q.write ver w1 u y = (w3, .ok ())) :
    ∃ w2, q.write ver w u y = (w2, .ok ()) ∧ p.write ver w2 t x = (w3, .ok ()) := by
  obtain ⟨ref, e1, g1, g2, rfl⟩ := write_ok.1 h1
  obtain ⟨ref', e3, k1, k2, rfl⟩ := write_ok.1 h2
  rw [getEvent_setEv] at k1
  by_cases hr : ref = ref'
  · subst hr
    obtain ⟨hlt, d1, _, _, d2⟩ := h ref g1 k1
    rw [World.ev_setEv, if_pos ⟨rfl, hlt⟩] at k2
    obtain ⟨e2, j1, j2⟩ := set_comm d1 d2 g2 k2
    refine ⟨_, write_ok.2 ⟨ref, e2, k1, j1, rfl⟩, write_ok.2 ⟨ref, e3, ?_, ?_, ?_⟩⟩
    · rw [getEvent_setEv]; exact g1
    · rw [World.ev_setEv, if_pos ⟨rfl, hlt⟩]; exact j2
    · rw [setEv_twice, setEv_twice]
  · rw [World.ev_setEv, if_neg (fun hc => hr hc.1.symm)] at k2
    refine ⟨_, write_ok.2 ⟨ref', e3, k1, k2, rfl⟩, write_ok.2 ⟨ref, e1, ?_, ?_, ?_⟩⟩
    · rw [getEvent_setEv]; exact g1
    · rw [World.ev_setEv, if_neg (fun hc => hr hc.1)]; exact g2
    · exact setEv_comm hr _ _

theorem performs_perm {ver : PyVer} {l l' : List ((p : PropRow) × Nat × p.type)} (h : l.Perm l') :
    ∀ {w w' : World}, l.Pairwise (Aside w) → Performs ver w l w' → Performs ver w l' w' := by
  induction h with
  | nil => intro w w' _ h; exact h
  | cons a _ ih =>
    intro w w' hp h
    cases h with
    | one hw rest =>
      refine .one hw (ih ?_ rest)
      obtain ⟨ref, e', _, _, rfl⟩ := write_ok.1 hw
      exact (List.pairwise_cons.1 hp).2.imp (fun h => h.setEv ref e')
  | swap a b l =>
    intro w w' hp h
    cases h with
    | one hw rest =>
      cases rest with
      | one hw2 rest =>
        obtain ⟨w2, h1, h2⟩ := write_comm ((List.pairwise_cons.1 hp).1 _ (List.mem_cons_self ..)) hw hw2
        exact .one h1 (.one h2 rest)
  | trans h1 _ ih1 ih2 =>
    intro w w' hp h
    exact ih2 ((h1.pairwise_iff (fun h => Aside.symm h)).1 hp) (ih1 hp h)

theorem table_nonzero {p : PropRow} (hp : p ∈ propTable) : nonzero p.acc = true := by
  have all : ∀ p ∈ propTable, nonzero p.acc = true := by decide +kernel
  exact all p hp

theorem disjoint_symm {a b : Access} (h : disjoint a b = true) (hz : nonzero b = true) : disjoint b a = true := by
  cases a <;> cases b <;> simp only [disjoint, nonzero, bne_iff_ne, ne_eq, Bool.and_eq_true, beq_iff_eq] at * <;>
    first | (cases h; done) | (exact fun hc => h hc.symm) | skip
  obtain ⟨⟨⟨⟨d1, d2⟩, rfl⟩, d3⟩, d4⟩ := h
  rw [Nat.and_comm] at d1
  exact ⟨⟨⟨⟨d1, hz⟩, rfl⟩, d4⟩, d3⟩

theorem separate_aside {w : World} {L : Nat → Prop} (r : WReach w L) {a b : (p : PropRow) × Nat × p.type} (ha : a.1 ∈ propTable)
    (hb : b.1 ∈ propTable) (la : L a.2.1) (lb : L b.2.1) (ma : ModelOf a.1 (w.events a.2.1)) (mb : ModelOf b.1 (w.events b.2.1))
    (h : Separate w a b) : Aside w a b := by
  intro ref h1 h2
  rcases getEvent_spec r la a.1.ids with ⟨k, ref1, i1, i2, i3, i4⟩ | ⟨_, i1, _⟩ | ⟨_, _, i1⟩ | ⟨_, _, i1⟩
  · rcases getEvent_spec r lb b.1.ids with ⟨k', ref2, j1, j2, j3, j4⟩ | ⟨_, j1, _⟩ | ⟨_, _, j1⟩ | ⟨_, _, j1⟩
    · rw [h1] at i1
      injection i1 with i1; injection i1 with i1; subst i1
      rw [h2] at j1
      injection j1 with j1; injection j1 with j1; subst j1
      rcases h with hsep | hsep
      · obtain ⟨q1, -⟩ := target_id ma i4
        obtain ⟨q2, -⟩ := target_id mb j4
        have := List.all_eq_true.1 hsep _ q1
        have hcon : b.1.idsOf.contains (w.ev ref).id = true := List.contains_iff_mem.2 q2
        rw [hcon] at this
        have hd : disjoint a.1.acc b.1.acc = true := by simpa using this
        exact ⟨i3, hd, disjoint_symm hd (table_nonzero hb), table_nonzero ha, table_nonzero hb⟩
      · have m1 : ref ∈ (w.entries a.2.1).map Prod.fst := by rw [World.entries_refs]; exact List.mem_of_getElem? i2
        have m2 : ref ∈ (w.entries b.2.1).map Prod.fst := by rw [World.entries_refs]; exact List.mem_of_getElem? j2
        obtain ⟨c, c1, c2⟩ := List.mem_map.1 m1
        obtain ⟨d, d1, d2⟩ := List.mem_map.1 m2
        exact absurd (c2.trans d2.symm) (hsep c c1 d d1)
    all_goals rw [h2] at j1; cases j1
  all_goals rw [h1] at i1; cases i1

/-! ### C137 -/

/-- C137. Assignments to different things can be done in any order: if they are all accepted one after the other, they are in
every other order too, and the outcome is the same project. -/
theorem C137_order {w w' : World} {L : Nat → Prop} (r : WReach w L) {ver : PyVer} {l l' : List ((p : PropRow) × Nat × p.type)}
    (hp : ∀ a ∈ l, a.1 ∈ propTable ∧ L a.2.1 ∧ ModelOf a.1 (w.events a.2.1)) (hsep : l.Pairwise (Separate w)) (perm : l.Perm l')
    (h : Performs ver w l w') : Performs ver w l' w' := by
  refine performs_perm perm ?_ h
  refine hsep.imp_of_mem fun {a b} ha hb hs => ?_
  obtain ⟨a1, a2, a3⟩ := hp a ha
  obtain ⟨b1, b2, b3⟩ := hp b hb
  exact separate_aside r a1 b1 a2 b2 a3 b3 hs

/-- Two assignments to the same flag. -/
theorem flag_last {ver : PyVer} {members k : Nat} (hsub : 2 ^ k &&& members = 2 ^ k) (on on' : Bool) (n : Nat) :
    flagNext ver members (2 ^ k) on' (flagNext ver members (2 ^ k) on n) = flagNext ver members (2 ^ k) on' n ↔
      ver = .upTo310 ∨ (∀ i, Nat.log2 members < i → n.testBit i = false) ∨ on = true ∨ on' = false := by
  have hf : 2 ^ k ≠ 0 := Nat.ne_of_gt (Nat.two_pow_pos k)
  have hk : k ≤ Nat.log2 members := by
    have : members.testBit k = true := by rw [Nat.and_comm] at hsub; exact and_pow_bit.1 hsub
    have h := Nat.ge_two_pow_of_testBit this
    have hne : members ≠ 0 := by rintro rfl; simp at this
    exact (Nat.le_log2 hne).2 h
  constructor
  · intro h
    by_cases hv : ver = .upTo310
    · exact .inl hv
    · cases on with
      | true => exact .inr (.inr (.inl rfl))
      | false =>
        cases on' with
        | false => exact .inr (.inr (.inr rfl))
        | true =>
          refine .inr (.inl fun i hi => ?_)
          have := congrArg (fun m => m.testBit i) h
          simp only [flagNext_bits hf hsub, Nat.testBit_two_pow] at this
          have hki : k ≠ i := by omega
          have hle : ¬ i ≤ Nat.log2 members := by omega
          simp [hv, hki, hle] at this
          exact this
  · intro h
    apply Nat.eq_of_testBit_eq
    intro i
    simp only [flagNext_bits hf hsub, Nat.testBit_two_pow]
    rcases h with hv | hs | hon | hon
    · cases on <;> cases on' <;> by_cases hki : k = i <;> simp [hv, hki]
    · by_cases hle : i ≤ Nat.log2 members
      · cases on <;> cases on' <;> by_cases hki : k = i <;> simp [hle, hki]
      · have := hs i (by omega)
        cases on <;> cases on' <;> by_cases hki : k = i <;> simp [this, hki]
    · subst hon
      cases on' <;> by_cases hki : k = i <;> simp [hki]
    · subst hon
      cases on <;> by_cases hki : k = i <;> simp [hki]

/-- Two assignments to the same part of an event. -/
theorem set_last {ver : PyVer} {ids : List Nat} {d : Option Value} {a : Access}
    (hb : ∀ members bits key inverted, a = .flag members bits key inverted → ∃ k, bits = 2 ^ k ∧ 2 ^ k &&& members = 2 ^ k)
    {e e1 : Event} {x y : a.type} (hn : Numbered a e) (h : (a.descr ver ids d).set e x = .ok e1) :
    ∃ e2 e3, (a.descr ver ids d).set e1 y = .ok e2 ∧ (a.descr ver ids d).set e y = .ok e3 ∧
      (e2 = e3 ↔ Superseded ver a e x y) := by
  cases a with
  | event =>
    change Except.ok _ = _ at h
    injection h with h
    subst h
    exact ⟨_, _, rfl, rfl, fun _ => trivial, fun _ => rfl⟩
  | field key =>
    have h' : structSet e key (some x) = .ok e1 := h
    obtain ⟨e3, h3⟩ := structSet_any h' (some y)
    exact ⟨e3, e3, (structSet_again h' _).trans h3, h3, fun _ => trivial, fun _ => rfl⟩
  | flag members bits key inverted =>
    obtain ⟨k, rfl, hsub⟩ := hb _ _ _ _ rfl
    obtain ⟨n, hw⟩ := hn
    have iffs : (flagNext ver members (2 ^ k) (y != inverted) (flagNext ver members (2 ^ k) (x != inverted) n) =
        flagNext ver members (2 ^ k) (y != inverted) n) ↔ Superseded ver (.flag members (2 ^ k) key inverted) e x y := by
      rw [flag_last hsub]
      have hx : (x != inverted) = true ↔ x = !inverted := by cases x <;> cases inverted <;> simp
      have hy : (y != inverted) = false ↔ y = inverted := by cases y <;> cases inverted <;> simp
      rw [hx, hy]
      constructor
      · intro h; exact ⟨n, hw, h⟩
      · rintro ⟨m, hm, h⟩
        rw [flagWord_unique hw hm]
        exact h
    rw [← iffs]
    rcases flagSet_ok.1 h with ⟨hs, word, i, g1, g2, g3⟩ | ⟨hs, z, i, g1, g2, rfl⟩
    · have hwi : word = some (.int n) := by
        rcases hw with ⟨hs', _⟩ | ⟨_, r, hv, hl⟩
        · rw [hs] at hs'; cases hs'
        · unfold structGet at g1
          rw [hv] at g1
          dsimp only at g1
          rw [hl] at g1
          injection g1 with g1
          exact g1.symm
      subst hwi
      injection g2 with g2
      subst g2
      rw [Int.toNat_natCast] at g3
      obtain ⟨e2, h2⟩ := structSet_any g3
        (some (.int (flagNext ver members (2 ^ k) (y != inverted) (flagNext ver members (2 ^ k) (x != inverted) n))))
      obtain ⟨e3, h3⟩ := structSet_any g3 (some (.int (flagNext ver members (2 ^ k) (y != inverted) n)))
      refine ⟨e2, e3, flagSet_ok.2 (.inl ⟨?_, _, _, (structSet_get (key' := key) g3).2.2, rfl, ?_⟩),
        flagSet_ok.2 (.inl ⟨hs, _, _, g1, rfl, h3⟩), ?_, ?_⟩
      · rw [(structSet_kind g3).1]; exact hs
      · rw [Int.toNat_natCast, structSet_again g3]; exact h2
      · rintro rfl
        have q2 := (structSet_get (key' := key) h2).2.2
        rw [(structSet_get (key' := key) h3).2.2] at q2
        injection q2 with q2
        injection q2 with q2
        injection q2 with q2
        exact (Int.ofNat.inj q2).symm
      · intro hc
        rw [hc, h3] at h2
        injection h2 with h2
        exact h2.symm
    · have hzi : z = .int n := by
        rcases hw with ⟨_, hv⟩ | ⟨hs', _⟩
        · rw [g1] at hv; injection hv
        · rw [hs] at hs'; cases hs'
      subst hzi
      injection g2 with g2
      subst g2
      refine ⟨_, _, flagSet_ok.2 (.inr ⟨hs, _, _, rfl, rfl, rfl⟩), flagSet_ok.2 (.inr ⟨hs, _, _, g1, rfl, rfl⟩), ?_, ?_⟩
      · intro hc
        injection hc with _ _ hc _
        injection hc with hc
        injection hc with hc
        simpa using Int.ofNat.inj hc
      · intro hc
        rw [Int.toNat_natCast, Int.toNat_natCast, hc]

/-- C137. Of two assignments to the same property only the last one matters: the second value is accepted if the first one was,
and the outcome is that of assigning it alone exactly if the
first one does not clear a flag that the second one sets, in a word with bits above the known ones, on Python 3.11 and
later. -/
theorem C137_last {w w1 : World} {L : Nat → Prop} (r : WReach w L) {t : Nat} (ht : L t) (ver : PyVer) {p : PropRow}
    (hp : p ∈ propTable) {k : Nat} {e : Event} (hT : Target (w.events t) p.ids k e) (hn : Numbered p.acc e) {x y : p.type}
    (hw : p.write ver w t x = (w1, .ok ())) :
    ∃ w2 w3, p.write ver w1 t y = (w2, .ok ()) ∧ p.write ver w t y = (w3, .ok ()) ∧ (w2 = w3 ↔ Superseded ver p.acc e x y) := by
  obtain ⟨_, ref, rfl, hlt, hg, _⟩ := read_at r ht ver hT
  obtain ⟨ref', e1, g1, g2, rfl⟩ := write_ok.1 hw
  rw [hg] at g1
  injection g1 with g1
  injection g1 with g1
  subst g1
  obtain ⟨e2, e3, h2, h3, h4⟩ := set_last (y := y) (fun _ _ _ _ h => table_flags hp h) hn g2
  refine ⟨_, _, write_ok.2 ⟨ref, e2, ?_, ?_, rfl⟩, write_ok.2 ⟨ref, e3, hg, h3, rfl⟩, ?_⟩
  · rw [getEvent_setEv]; exact hg
  · rw [World.ev_setEv, if_pos ⟨rfl, hlt⟩]; exact h2
  · rw [setEv_twice, ← h4]
    constructor
    · intro hc
      have := congrArg (fun v => v.ev ref) hc
      simpa [World.ev_setEv, hlt] using this
    · rintro rfl; rfl

open Demo in
/-- C137 is false on Python 3.11 and later: `fx.clip = False; fx.clip = True` and `fx.clip = True` alone make different
projects out of flags `0x8004`. -/
theorem C137_refuted : clipRow ∈ propTable ∧ ∃ w1 w2 w3,
    clipRow.write .from311 (World.ofProject fxProject) 0 false = (w1, .ok ()) ∧ clipRow.write .from311 w1 0 true = (w2, .ok ()) ∧
    clipRow.write .from311 (World.ofProject fxProject) 0 true = (w3, .ok ()) ∧
    w2.project.events = [⟨64, .u16, .lv (.int 0), 2⟩, ⟨70, .u16, .lv (.int 4), 2⟩] ∧
    w3.project.events = [⟨64, .u16, .lv (.int 0), 2⟩, ⟨70, .u16, .lv (.int 0x8004), 2⟩] :=
  ⟨by decide +kernel, (clipRow.write .from311 (World.ofProject fxProject) 0 false).1,
    (clipRow.write .from311 (clipRow.write .from311 (World.ofProject fxProject) 0 false).1 0 true).1,
    (clipRow.write .from311 (World.ofProject fxProject) 0 true).1,
    pair_eq (by decide +kernel), pair_eq (by decide +kernel), pair_eq (by decide +kernel), by decide +kernel, by decide +kernel⟩

open Demo in
/-- The hypotheses of `C137_order` can be met: two flags of one event, on Python 3.11. -/
example : ∃ w', Performs .from311 (World.ofProject fxClip) [⟨swapRow, 0, true⟩, ⟨clipRow, 0, false⟩] w' ∧
    (∀ a ∈ ([⟨swapRow, 0, true⟩, ⟨clipRow, 0, false⟩] : List ((p : PropRow) × Nat × p.type)),
      a.1 ∈ propTable ∧ a.2.1 = 0 ∧ ModelOf a.1 ((World.ofProject fxClip).events a.2.1)) ∧
    ([⟨swapRow, 0, true⟩, ⟨clipRow, 0, false⟩] : List ((p : PropRow) × Nat × p.type)).Pairwise (Separate (World.ofProject fxClip)) ∧
    w'.project.events[1]? = some ⟨70, .u16, .lv (.int 0x100), 2⟩ := by
  have hs : swapRow ∈ propTable := by decide +kernel
  have hc : clipRow ∈ propTable := by decide +kernel
  have model : ∀ p ∈ [swapRow, clipRow], ModelOf p ((World.ofProject fxClip).events 0) := by
    intro p hp
    rcases List.mem_cons.1 hp with rfl | hp
    · exact ⟨fun h => absurd h (by decide), fun k hk => absurd hk (by simp [pluginClasses, swapRow])⟩
    · obtain rfl := List.mem_singleton.1 hp
      exact ⟨fun h => absurd h (by decide), fun k hk => absurd hk (by simp [pluginClasses, clipRow])⟩
  refine ⟨_, .one (w1 := (World.ofProject fxClip).setEv 1 ⟨70, .u16, .lv (.int 0x104), 2⟩) rfl
    (.one (w1 := ((World.ofProject fxClip).setEv 1 ⟨70, .u16, .lv (.int 0x104), 2⟩).setEv 1 ⟨70, .u16, .lv (.int 0x100), 2⟩)
      rfl .none), ?_, ?_, by decide +kernel⟩
  · intro a ha
    rcases List.mem_cons.1 ha with rfl | ha
    · exact ⟨hs, rfl, model _ (List.mem_cons_self ..)⟩
    · obtain rfl := List.mem_singleton.1 ha
      exact ⟨hc, rfl, model _ (List.mem_cons_of_mem _ (List.mem_cons_self ..))⟩
  · refine List.pairwise_cons.2 ⟨fun b hb => ?_, List.pairwise_cons.2 ⟨by simp, .nil⟩⟩
    obtain rfl := List.mem_singleton.1 hb
    exact .inl (by decide +kernel)

end PyFLP
