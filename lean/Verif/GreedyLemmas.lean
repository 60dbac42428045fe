import Verif.StructLemmas
/-!
# Arrays of fixed-size records (`c.GreedyRange(c.Struct(...))`)
-/

namespace PyFLP

variable [FloatEnv]

/-- Primitives of list items: integers, raw bytes and floats. -/
def leafPlain : Leaf → Bool
  | .int _ _ | .raw _ | .f32 | .f64 => true
  | _ => false

/-- Size in bytes of a record made of plain required / conditional fields. -/
def itemSize (cx : Ctx) : Fields → Option Nat
  | [] => some 0
  | (_, .req l) :: fs =>
    if leafPlain l then (leafSize l).bind fun a => (itemSize cx fs).map (a + ·) else none
  | (_, .ifNew l) :: fs =>
    if leafPlain l then
      if cx.len % 60 = 0 then (leafSize l).bind fun a => (itemSize cx fs).map (a + ·)
      else itemSize cx fs
    else none
  | _ => none

/-- A list item all of whose fields fit. -/
def validItem (cx : Ctx) : Fields → Rec → Prop
  | [], [] => True
  | (n, .req l) :: fs, (n', some x) :: rec => n = n' ∧ leafValid l x ∧ validItem cx fs rec
  | (n, .ifNew l) :: fs, (n', some x) :: rec =>
      n = n' ∧ cx.len % 60 = 0 ∧ leafValid l x ∧ validItem cx fs rec
  | (n, .ifNew _) :: fs, (n', none) :: rec => n = n' ∧ cx.len % 60 ≠ 0 ∧ validItem cx fs rec
  | _, _ => False

omit [FloatEnv] in
theorem plain_facts {l : Leaf} (h : leafPlain l = true) :
    leafLossy l = false ∧ (∀ n, l ≠ .rawC n) ∧ l ≠ .greedy := by
  cases l <;> simp_all [leafPlain, leafLossy]

/-- Reading a plain primitive when there are enough bytes. -/
theorem leafParse_plain {l : Leaf} {k : Nat} {bs : Bytes} (hp : leafPlain l = true)
    (hk : leafSize l = some k) (hb : k ≤ bs.length) :
    ∃ v, leafParse l bs = .ok (v, bs.drop k) ∧ leafValid l v ∧
      leafBuild l (some v) = .ok (bs.take k) := by
  obtain ⟨h1, h2, h3⟩ := plain_facts hp
  cases hpar : leafParse l bs with
  | error e =>
    obtain ⟨k', hk', hlt⟩ := leafParse_error h1 hpar
    rw [hk] at hk'; cases hk'; omega
  | ok vr =>
    obtain ⟨v, r⟩ := vr
    have hcan : leafCanon l bs := by
      cases l <;> simp only [leafPlain, Bool.false_eq_true] at hp <;> trivial
    obtain ⟨pre, rfl⟩ := leafParse_suffix hpar
    have hs := leafParse_size hpar hk
    have hlen : pre.length = k := by simp at hs; omega
    have hv := leafCanon_or hpar h1 h2
    obtain ⟨b, hb, hrt⟩ := leafRT_of_valid hv
    have hbl := leafBuild_size hb hk
    obtain ⟨pre', hpre, hbc⟩ := leaf_canon hpar hcan
    have : pre' = pre := by
      exact (List.append_cancel_right hpre).symm
    subst this
    exact ⟨v, by rw [List.drop_left' hlen], hv, by rw [List.take_left' hlen]; exact hbc⟩

theorem item_parse (cx : Ctx) {fs : Fields} {k : Nat} (hk : itemSize cx fs = some k) {bs : Bytes}
    (hb : k ≤ bs.length) :
    ∃ rec, structParse cx fs bs = .ok (rec, bs.drop k) ∧ validItem cx fs rec ∧
      structBuild cx fs rec = .ok (bs.take k) := by
  induction fs generalizing k bs with
  | nil => cases hk; exact ⟨[], by simp [structParse], trivial, by simp [structBuild]⟩
  | cons nf fs ih =>
    obtain ⟨n, f⟩ := nf
    cases f with
    | req l =>
      simp only [itemSize] at hk
      split at hk
      · next hp =>
        cases ha : leafSize l with
        | none => rw [ha] at hk; cases hk
        | some a =>
          cases hm : itemSize cx fs with
          | none => rw [ha, hm] at hk; cases hk
          | some m =>
            rw [ha, hm] at hk
            simp only [Option.bind_some, Option.map_some, Option.some.injEq] at hk
            subst hk
            obtain ⟨v, p1, p2, p3⟩ := leafParse_plain (bs := bs) hp ha (by omega)
            obtain ⟨rec, q1, q2, q3⟩ := ih hm (bs := bs.drop a) (by simp; omega)
            refine ⟨(n, some v) :: rec, ?_, ⟨rfl, p2, q2⟩, ?_⟩
            · simp only [structParse, fldParse, p1, Except.map, q1, List.drop_drop]
            · simp only [structBuild, fldBuild, p3, q3, if_true]
              rw [List.take_add]
      · cases hk
    | ifNew l =>
      simp only [itemSize] at hk
      split at hk
      · next hp =>
        split at hk
        · next hc =>
          cases ha : leafSize l with
          | none => rw [ha] at hk; cases hk
          | some a =>
            cases hm : itemSize cx fs with
            | none => rw [ha, hm] at hk; cases hk
            | some m =>
              rw [ha, hm] at hk
              simp only [Option.bind_some, Option.map_some, Option.some.injEq] at hk
              subst hk
              obtain ⟨v, p1, p2, p3⟩ := leafParse_plain (bs := bs) hp ha (by omega)
              obtain ⟨rec, q1, q2, q3⟩ := ih hm (bs := bs.drop a) (by simp; omega)
              refine ⟨(n, some v) :: rec, ?_, ⟨rfl, hc, p2, q2⟩, ?_⟩
              · simp only [structParse, fldParse, hc, if_true, p1, Except.map, q1, List.drop_drop]
              · simp only [structBuild, fldBuild, hc, p3, q3, if_true]
                rw [List.take_add]
        · next hc =>
          obtain ⟨rec, q1, q2, q3⟩ := ih hk hb
          refine ⟨(n, none) :: rec, ?_, ⟨rfl, hc, q2⟩, ?_⟩
          · simp only [structParse, fldParse, hc, if_false, q1]
          · simp only [structBuild, fldBuild, hc, if_false, if_true, q3, List.nil_append]
      · cases hk
    | opt l => cases hk
    | ifLen m l => cases hk

theorem item_short (cx : Ctx) {fs : Fields} {k : Nat} (hk : itemSize cx fs = some k) {bs : Bytes}
    (hb : bs.length < k) : ∃ e, structParse cx fs bs = .error e := by
  induction fs generalizing k bs with
  | nil => cases hk; omega
  | cons nf fs ih =>
    obtain ⟨n, f⟩ := nf
    have step : ∀ l a m, leafPlain l = true → leafSize l = some a → itemSize cx fs = some m →
        k = a + m → (∀ vr, leafParse l bs = .ok vr → ∃ e, structParse cx fs vr.2 = .error e) := by
      intro l a m hp ha hm hk' vr hvr
      obtain ⟨v, r⟩ := vr
      have := leafParse_size hvr ha
      exact ih hm (bs := r) (by omega)
    cases f with
    | req l =>
      simp only [itemSize] at hk
      split at hk
      · next hp =>
        cases ha : leafSize l with
        | none => rw [ha] at hk; cases hk
        | some a =>
          cases hm : itemSize cx fs with
          | none => rw [ha, hm] at hk; cases hk
          | some m =>
            rw [ha, hm] at hk
            simp only [Option.bind_some, Option.map_some, Option.some.injEq] at hk
            cases hl : leafParse l bs with
            | error e => exact ⟨e, by simp only [structParse, fldParse, hl, Except.map]⟩
            | ok vr =>
              obtain ⟨e, he⟩ := step l a m hp ha hm hk.symm vr hl
              exact ⟨e, by simp only [structParse, fldParse, hl, Except.map, he]⟩
      · cases hk
    | ifNew l =>
      simp only [itemSize] at hk
      split at hk
      · next hp =>
        split at hk
        · next hc =>
          cases ha : leafSize l with
          | none => rw [ha] at hk; cases hk
          | some a =>
            cases hm : itemSize cx fs with
            | none => rw [ha, hm] at hk; cases hk
            | some m =>
              rw [ha, hm] at hk
              simp only [Option.bind_some, Option.map_some, Option.some.injEq] at hk
              cases hl : leafParse l bs with
              | error e => exact ⟨e, by simp only [structParse, fldParse, hc, if_true, hl, Except.map]⟩
              | ok vr =>
                obtain ⟨e, he⟩ := step l a m hp ha hm hk.symm vr hl
                exact ⟨e, by simp only [structParse, fldParse, hc, if_true, hl, Except.map, he]⟩
        · next hc =>
          obtain ⟨e, he⟩ := ih hk hb
          exact ⟨e, by simp only [structParse, fldParse, hc, if_false, he]⟩
      · cases hk
    | opt l => cases hk
    | ifLen m l => cases hk

theorem item_roundtrip (cx : Ctx) {fs : Fields} {k : Nat} (hk : itemSize cx fs = some k) {rec : Rec}
    (h : validItem cx fs rec) :
    ∃ b, structBuild cx fs rec = .ok b ∧ b.length = k ∧
      ∀ r, structParse cx fs (b ++ r) = .ok (rec, r) := by
  induction fs generalizing k rec with
  | nil =>
    cases rec with
    | nil => cases hk; exact ⟨[], rfl, rfl, fun r => rfl⟩
    | cons x xs => exact h.elim
  | cons nf fs ih =>
    obtain ⟨n, f⟩ := nf
    have step : ∀ l a m x rec', leafPlain l = true → leafSize l = some a → itemSize cx fs = some m →
        leafValid l x → validItem cx fs rec' →
        ∃ b1 b2, leafBuild l (some x) = .ok b1 ∧ structBuild cx fs rec' = .ok b2 ∧
          (b1 ++ b2).length = a + m ∧ ∀ r, leafParse l (b1 ++ b2 ++ r) = .ok (x, b2 ++ r) ∧
            structParse cx fs (b2 ++ r) = .ok (rec', r) := by
      intro l a m x rec' hp ha hm hx hrec
      obtain ⟨b1, p1, p2⟩ := leafRT_of_valid hx
      obtain ⟨b2, q1, q2, q3⟩ := ih hm hrec
      have := leafBuild_size p1 ha
      refine ⟨b1, b2, p1, q1, by simp; omega, fun r => ⟨?_, q3 r⟩⟩
      rw [List.append_assoc]
      exact p2 _ (fun e => absurd e (plain_facts hp).2.2)
    cases f with
    | req l =>
      simp only [itemSize] at hk
      split at hk
      · next hp =>
        cases ha : leafSize l with
        | none => rw [ha] at hk; cases hk
        | some a =>
          cases hm : itemSize cx fs with
          | none => rw [ha, hm] at hk; cases hk
          | some m =>
            rw [ha, hm] at hk
            simp only [Option.bind_some, Option.map_some, Option.some.injEq] at hk
            subst hk
            match rec, h with
            | (n', some x) :: rec', h =>
              obtain ⟨rfl, hx, hrec⟩ := h
              obtain ⟨b1, b2, p1, p2, p3, p4⟩ := step l a m x rec' hp ha hm hx hrec
              refine ⟨b1 ++ b2, by simp only [structBuild, fldBuild, p1, p2, if_true], p3, fun r => ?_⟩
              simp only [structParse, fldParse, (p4 r).1, (p4 r).2, Except.map]
      · cases hk
    | ifNew l =>
      simp only [itemSize] at hk
      split at hk
      · next hp =>
        match rec, h with
        | (n', some x) :: rec', h =>
          obtain ⟨rfl, hc, hx, hrec⟩ := h
          rw [if_pos hc] at hk
          cases ha : leafSize l with
          | none => rw [ha] at hk; cases hk
          | some a =>
            cases hm : itemSize cx fs with
            | none => rw [ha, hm] at hk; cases hk
            | some m =>
              rw [ha, hm] at hk
              simp only [Option.bind_some, Option.map_some, Option.some.injEq] at hk
              subst hk
              obtain ⟨b1, b2, p1, p2, p3, p4⟩ := step l a m x rec' hp ha hm hx hrec
              refine ⟨b1 ++ b2, by simp only [structBuild, fldBuild, hc, p1, p2, if_true], p3,
                fun r => ?_⟩
              simp only [structParse, fldParse, hc, if_true, (p4 r).1, (p4 r).2, Except.map]
        | (n', none) :: rec', h =>
          obtain ⟨rfl, hc, hrec⟩ := h
          rw [if_neg hc] at hk
          obtain ⟨b, q1, q2, q3⟩ := ih hk hrec
          refine ⟨b, by simp only [structBuild, fldBuild, hc, q1, if_true, if_false, List.nil_append],
            q2, fun r => ?_⟩
          simp only [structParse, fldParse, hc, if_false, q3 r]
      · cases hk
    | opt l => cases hk
    | ifLen m l => cases hk

/-- Reading an array of `k`-byte records: all complete records, then the rest. -/
theorem greedy_parse (cx : Ctx) {fs : Fields} {k : Nat} (hk : itemSize cx fs = some k) (h0 : 0 < k)
    (bs : Bytes) :
    ∃ recs, greedyParse cx fs bs = (recs, bs.drop (k * (bs.length / k))) ∧
      recs.length = bs.length / k ∧ (∀ rec ∈ recs, validItem cx fs rec) ∧
      greedyBuild cx fs recs = .ok (bs.take (k * (bs.length / k))) := by
  induction hn : bs.length using Nat.strongRecOn generalizing bs with
  | ind n ih =>
    subst hn
    by_cases hb : k ≤ bs.length
    · obtain ⟨rec, p1, p2, p3⟩ := item_parse cx hk hb
      have hlen : (bs.drop k).length = bs.length - k := by simp
      obtain ⟨recs, q1, q2, q3, q4⟩ := ih (bs.drop k).length (by omega) (bs.drop k) rfl
      have hdiv : bs.length / k = (bs.drop k).length / k + 1 := by
        rw [hlen, Nat.div_eq bs.length k, if_pos ⟨h0, hb⟩]
      refine ⟨rec :: recs, ?_, by simp [q2, hdiv], ?_, ?_⟩
      · rw [greedyParse, p1]
        simp only
        rw [if_pos (by omega), q1, hdiv, List.drop_drop, Nat.mul_add, Nat.mul_one, Nat.add_comm k]
      · intro r hr
        rcases List.mem_cons.1 hr with rfl | hr
        · exact p2
        · exact q3 r hr
      · simp only [greedyBuild, p3, q4]
        rw [hdiv, Nat.mul_add, Nat.mul_one, Nat.add_comm _ k, List.take_add]
    · have hd : bs.length / k = 0 := Nat.div_eq_of_lt (by omega)
      obtain ⟨e, he⟩ := item_short cx hk (bs := bs) (by omega)
      refine ⟨[], ?_, by simp [hd], by simp, by simp [hd, greedyBuild]⟩
      rw [greedyParse, he, hd]; simp

/-- Writing records that fit and reading them back. -/
theorem greedy_roundtrip (cx : Ctx) {fs : Fields} {k : Nat} (hk : itemSize cx fs = some k) (h0 : 0 < k)
    {recs : List Rec} (h : ∀ rec ∈ recs, validItem cx fs rec) :
    ∃ b, greedyBuild cx fs recs = .ok b ∧ b.length = k * recs.length ∧
      greedyParse cx fs b = (recs, []) := by
  induction recs with
  | nil =>
    refine ⟨[], rfl, by simp, ?_⟩
    obtain ⟨e, he⟩ := item_short cx hk (bs := []) (by simpa using h0)
    rw [greedyParse, he]
  | cons rec recs ih =>
    obtain ⟨b1, p1, p2, p3⟩ := item_roundtrip cx hk (h rec (by simp))
    obtain ⟨b2, q1, q2, q3⟩ := ih (fun r hr => h r (by simp [hr]))
    refine ⟨b1 ++ b2, by simp only [greedyBuild, p1, q1], ?_, ?_⟩
    · simp only [List.length_append, List.length_cons, Nat.mul_add, Nat.mul_one]; omega
    · rw [greedyParse, p3 b2]
      simp only
      rw [if_pos (by simp; omega), q3]

end PyFLP
