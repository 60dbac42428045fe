import Verif.GreedyLemmas
import Verif.Event
/-!
# Round trips of the nested structs: notebook pages, VST sub-events, automation points
-/

namespace PyFLP

/-! ### Repetition -/

section many
variable {α : Type} {p : Bytes → Py (α × Bytes)} {bld : α → Py Bytes}

theorem many_roundtrip {as : List α} {t : Bytes} (ht : ∃ e, p t = .error e)
    (h : ∀ a ∈ as, ∃ b, bld a = .ok b ∧ b ≠ [] ∧ ∀ r, p (b ++ r) = .ok (a, r)) :
    ∃ b, manyBuild bld as = .ok b ∧ manyParse p (b ++ t) = (as, t) := by
  induction as with
  | nil =>
    obtain ⟨e, he⟩ := ht
    exact ⟨[], rfl, by rw [List.nil_append, manyParse, he]⟩
  | cons a as ih =>
    obtain ⟨b1, p1, p2, p3⟩ := h a (by simp)
    obtain ⟨b2, q1, q2⟩ := ih (fun x hx => h x (by simp [hx]))
    refine ⟨b1 ++ b2, by simp only [manyBuild, p1, q1], ?_⟩
    have : 0 < b1.length := List.length_pos_iff.2 p2
    rw [List.append_assoc, manyParse, p3]
    simp only
    rw [if_pos (by simp; omega), q2]

/-- What a repetition reads: consecutive items, then a rest it cannot continue with. -/
inductive Chunks (p : Bytes → Py (α × Bytes)) : Bytes → List α → Bytes → Prop
  | stop {bs} (h : ∀ a r, p bs = .ok (a, r) → ¬ r.length < bs.length) : Chunks p bs [] bs
  | step {bs a r as r'} (h : p bs = .ok (a, r)) (hl : r.length < bs.length) (t : Chunks p r as r') :
      Chunks p bs (a :: as) r'

theorem many_chunks (p : Bytes → Py (α × Bytes)) (bs : Bytes) :
    Chunks p bs (manyParse p bs).1 (manyParse p bs).2 := by
  induction hn : bs.length using Nat.strongRecOn generalizing bs with
  | ind n ih =>
    subst hn
    rw [manyParse]
    split
    · next e he => exact .stop (fun a r h => by rw [he] at h; cases h)
    · next a r h =>
      split
      · next hl => exact .step h hl (ih _ hl r rfl)
      · next hl =>
        refine .stop (fun a' r' h' => ?_)
        rw [h] at h'; cases h'; exact hl

/-- Writing the items that were read gives the bytes they were read from, when
every item is written back exactly. -/
theorem chunks_canon {bs as r} (h : Chunks p bs as r)
    (hc : ∀ bs' a r', (∃ pre, bs = pre ++ bs') → p bs' = .ok (a, r') →
      ∃ b, bs' = b ++ r' ∧ bld a = .ok b) :
    ∃ b, bs = b ++ r ∧ manyBuild bld as = .ok b := by
  induction h with
  | stop h => exact ⟨[], rfl, rfl⟩
  | @step bs a r as r' h hl t ih =>
    obtain ⟨b1, e1, p1⟩ := hc bs a r ⟨[], rfl⟩ h
    obtain ⟨b2, e2, p2⟩ := ih (fun bs' a' r'' ⟨pre, hpre⟩ hp =>
      hc bs' a' r'' ⟨b1 ++ pre, by rw [e1, hpre, List.append_assoc]⟩ hp)
    exact ⟨b1 ++ b2, by rw [e1, e2, List.append_assoc], by simp only [manyBuild, p1, p2]⟩

/-- Properties of every item read. -/
theorem chunks_forall {bs as r} (h : Chunks p bs as r) {P : α → Prop}
    (hP : ∀ bs' a r', p bs' = .ok (a, r') → P a) : ∀ a ∈ as, P a := by
  induction h with
  | stop h => simp
  | step h hl t ih =>
    intro a ha
    rcases List.mem_cons.1 ha with rfl | ha
    · exact hP _ _ _ h
    · exact ih a ha

end many

/-! ### Notebook pages -/

theorem replicate_two (k : Nat) :
    List.replicate (2 * (k + 1)) (0 : UInt8) = 0 :: 0 :: List.replicate (2 * k) 0 := by
  rw [show 2 * (k + 1) = 2 * k + 1 + 1 by omega, List.replicate_succ, List.replicate_succ]

theorem stripPad_zeros (k : Nat) : stripPad (List.replicate (2 * k) 0) = [] := by
  induction k with
  | zero => simp [stripPad]
  | succ k ih => rw [replicate_two, stripPad, ih]; simp

theorem stripPad_cons2 (a b : UInt8) (rest : Bytes) :
    stripPad (a :: b :: rest) =
      if stripPad rest = [] then (if a = 0 ∧ b = 0 then [] else [a, b]) else a :: b :: stripPad rest := by
  rw [stripPad]
  split
  · next h => rw [if_pos h]
  · next h => rw [if_neg h]

/-- Stripping removes whole zero units at the end. -/
theorem stripPad_spec (bs : Bytes) :
    ∃ k, bs = stripPad bs ++ List.replicate (2 * k) 0 := by
  fun_induction stripPad bs with
  | case1 a b rest h hz ih =>
    obtain ⟨k, hk⟩ := ih
    obtain ⟨rfl, rfl⟩ := hz
    rw [h] at hk
    refine ⟨k + 1, ?_⟩
    rw [hk, replicate_two]; rfl
  | case2 a b rest h hz ih =>
    obtain ⟨k, hk⟩ := ih
    rw [h] at hk
    exact ⟨k, by rw [hk]; rfl⟩
  | case3 a b rest h ih =>
    obtain ⟨k, hk⟩ := ih
    exact ⟨k, by conv => lhs; rw [hk]
                 rfl⟩
  | case4 bs h => exact ⟨0, by simp⟩

theorem utf16Char_shape {c : Nat} {b : Bytes} (h : utf16Char c = some b) :
    (∃ x y, b = [x, y] ∧ (x = 0 ∧ y = 0 → c = 0)) ∨
    (∃ x y z w, b = [x, y, z, w] ∧ ¬ (z = 0 ∧ w = 0)) := by
  have z : (0 : UInt8).toNat = 0 := rfl
  unfold utf16Char at h
  split at h
  · next h1 =>
    left
    have := Option.some.inj h
    refine ⟨_, _, this.symm, fun ⟨e1, e2⟩ => ?_⟩
    have e1 := congrArg UInt8.toNat e1
    have e2 := congrArg UInt8.toNat e2
    rw [u8_ofNat_toNat (by omega), z] at e1 e2
    omega
  · split at h
    · next h1 h2 =>
      right
      have := Option.some.inj h
      refine ⟨_, _, _, _, this.symm, fun ⟨e1, e2⟩ => ?_⟩
      have e2 := congrArg UInt8.toNat e2
      rw [u8_ofNat_toNat (by omega), z] at e2
      omega
    · cases h

theorem utf16Encode_cons_ok {c : Nat} {cs : PStr} {t : Bytes} (h : utf16Encode (c :: cs) = .ok t) :
    ∃ b t', utf16Char c = some b ∧ utf16Encode cs = .ok t' ∧ t = b ++ t' := by
  simp only [utf16Encode] at h
  split at h
  · cases h
  · split at h
    · next hb _ _ ht => exact ⟨_, _, hb, ht, (Except.ok.inj h).symm⟩
    · cases h

theorem stripPad_encode {s : PStr} {t : Bytes} (h : utf16Encode s = .ok t)
    (hl : s.getLast? ≠ some 0) (k : Nat) :
    stripPad (t ++ List.replicate (2 * k) 0) = t ∧ (s ≠ [] → t ≠ []) := by
  induction s generalizing t with
  | nil =>
    simp only [utf16Encode] at h
    cases h
    exact ⟨by simpa using stripPad_zeros k, fun h => absurd rfl h⟩
  | cons c cs ih =>
    obtain ⟨b, t', hb, ht', rfl⟩ := utf16Encode_cons_ok h
    have hl' : cs.getLast? ≠ some 0 := by
      cases cs with
      | nil => simp
      | cons d ds => simpa [List.getLast?_cons_cons] using hl
    obtain ⟨ih1, ih2⟩ := ih ht' hl'
    rcases utf16Char_shape hb with ⟨x, y, rfl, hxy⟩ | ⟨x, y, z, w, rfl, hzw⟩
    · refine ⟨?_, fun _ => by simp⟩
      simp only [List.cons_append, List.nil_append]
      rw [stripPad_cons2, ih1]
      split
      · next he =>
        subst he
        have hcs : cs = [] := by
          cases cs with
          | nil => rfl
          | cons d ds => exact absurd rfl (ih2 (by simp))
        subst hcs
        rw [if_neg]
        intro hz
        have := hxy hz
        subst this
        simp at hl
      · rfl
    · refine ⟨?_, fun _ => by simp⟩
      simp only [List.cons_append, List.nil_append]
      have h2 : stripPad (z :: w :: (t' ++ List.replicate (2 * k) 0)) = z :: w :: t' := by
        rw [stripPad_cons2, ih1]
        split
        · next h1 => rw [h1]
        · rfl
      rw [stripPad_cons2, h2, if_neg (by simp)]

/-- A page the notebook can store. -/
def validPage : Page → Prop
  | .stop => True
  | .text i n s =>
      (-2 ^ 31 ≤ i ∧ i < 2 ^ 31 ∧ i ≠ -1) ∧ (∀ c ∈ s, isScalar c) ∧ s.getLast? ≠ some 0 ∧
        ∀ t, utf16Encode s = .ok t → t.length ≤ 2 * n

theorem utf16Encode_even {s : PStr} {t : Bytes} (h : utf16Encode s = .ok t) : t.length % 2 = 0 := by
  induction s generalizing t with
  | nil => simp only [utf16Encode] at h; cases h; rfl
  | cons c cs ih =>
    obtain ⟨b, t', hb, ht', rfl⟩ := utf16Encode_cons_ok h
    have := ih ht'
    rcases utf16Char_shape hb with ⟨x, y, rfl, -⟩ | ⟨x, y, z, w, rfl, -⟩ <;> simp <;> omega

theorem page_roundtrip {pg : Page} (h : validPage pg) :
    ∃ b, pageBuild pg = .ok b ∧ b ≠ [] ∧ ∀ r, pageParse (b ++ r) = .ok (pg, r) := by
  cases pg with
  | stop =>
    obtain ⟨b, hb⟩ := (intBuild_ok_iff (w := 4) (s := true) (v := -1)).2 (by decide)
    refine ⟨b, hb, ?_, fun r => ?_⟩
    · intro e; have := intBuild_length hb; rw [e] at this; cases this
    · unfold pageParse
      rw [intParse_intBuild hb]
      simp
  | text i n s =>
    obtain ⟨⟨h1, h2, h3⟩, hs, hl, hn⟩ := h
    have hf : intFits 4 true i = true := by
      simp only [intFits, if_true, decide_eq_true_eq]; omega
    obtain ⟨b, hb⟩ := intBuild_ok_iff.2 hf
    obtain ⟨t, ht⟩ := utf16Encode_ok_iff.2 hs
    have hlen := hn t ht
    have heven := utf16Encode_even ht
    refine ⟨b ++ varBuild n ++ t ++ List.replicate (n * 2 - t.length) 0, ?_, ?_, fun r => ?_⟩
    · simp only [pageBuild, hb, if_neg h3, ht]
      rw [if_neg (by omega)]
    · intro e
      have := intBuild_length hb
      have := congrArg List.length e
      simp only [List.length_append, List.length_nil] at this; omega
    · unfold pageParse
      simp only [List.append_assoc]
      rw [intParse_intBuild hb]
      simp only [if_neg h3]
      rw [varParse_varBuild]
      simp only
      have hlen2 : (t ++ List.replicate (n * 2 - t.length) (0 : UInt8)).length = n * 2 := by
        simp; omega
      rw [if_neg (by simp; omega), ← List.append_assoc, List.take_left' hlen2, List.drop_left' hlen2,
        show n * 2 - t.length = 2 * ((n * 2 - t.length) / 2) by omega,
        (stripPad_encode ht hl _).1, utf16Decode_utf16Encode ht]

/-- Page bytes that are written back exactly: the length prefix is minimal. -/
def canonPage (bs : Bytes) : Prop :=
  ∀ i r, intParse 4 true bs = .ok (i, r) → i ≠ -1 → ∀ n r', varParse r = .ok (n, r') → r = varBuild n ++ r'

theorem page_canon {bs pg r} (h : pageParse bs = .ok (pg, r)) (hc : canonPage bs) :
    ∃ b, bs = b ++ r ∧ pageBuild pg = .ok b := by
  unfold pageParse at h
  split at h
  · cases h
  · next i m h1 =>
    obtain ⟨pre, rfl, hb⟩ := intBuild_intParse h1
    split at h
    · next hi => cases h; subst hi; exact ⟨pre, rfl, hb⟩
    · next hi =>
      split at h
      · cases h
      · next n m' h2 =>
        have hv := hc i m h1 hi n m' h2
        split at h
        · cases h
        · next h3 =>
          split at h
          · cases h
          · next s h4 =>
            cases h
            have hd := utf16Encode_utf16Decode h4
            obtain ⟨k, hk⟩ := stripPad_spec (m'.take (n * 2))
            have hlen : (m'.take (n * 2)).length = n * 2 := by simp; omega
            have hlen' := congrArg List.length hk
            rw [hlen] at hlen'
            simp only [List.length_append, List.length_replicate] at hlen'
            refine ⟨pre ++ varBuild n ++ stripPad (m'.take (n * 2))
              ++ List.replicate (n * 2 - (stripPad (m'.take (n * 2))).length) 0, ?_, ?_⟩
            · rw [show n * 2 - (stripPad (m'.take (n * 2))).length = 2 * k by omega]
              rw [List.append_assoc (pre ++ varBuild n), ← hk]
              simp only [List.append_assoc, List.take_append_drop]
              rw [← hv]
            · simp only [pageBuild, hb, if_neg hi, hd]
              rw [if_neg (by omega)]

theorem rstrip_last_ne {s : PStr} {t : Bytes} (h : utf16Encode s = .ok t) (hs : stripPad t = t) :
    s.getLast? ≠ some 0 := by
  intro hl
  obtain ⟨s', rfl⟩ : ∃ s', s = s' ++ [0] := by
    rw [List.getLast?_eq_some_iff] at hl; exact hl
  have hs' : ∀ c ∈ s', isScalar c := fun c hc =>
    utf16Encode_ok_iff.1 ⟨t, h⟩ c (by simp [hc])
  obtain ⟨t', ht'⟩ := utf16Encode_ok_iff.2 hs'
  have h0 : utf16Encode [0] = .ok [0, 0] := by rfl
  have := utf16Encode_append ht' h0
  rw [h] at this
  have := Except.ok.inj this
  subst this
  have key : ∀ (k : Nat) (x : Bytes), x.length = 2 * k → stripPad (x ++ [0, 0]) ≠ x ++ [0, 0] := by
    intro k
    induction k with
    | zero =>
      intro x hx
      have : x = [] := List.eq_nil_of_length_eq_zero (by omega)
      subst this
      simp [stripPad]
    | succ k ih =>
      intro x hx
      match x, hx with
      | a :: b :: x', hx =>
        simp only [List.cons_append]
        rw [stripPad_cons2]
        have := ih x' (by simp at hx; omega)
        split
        · split <;> simp
        · intro e
          injection e with _ e
          injection e with _ e
          exact this e
  have he := utf16Encode_even ht'
  exact key (t'.length / 2) t' (by omega) hs

theorem stripPad_idem (bs : Bytes) : stripPad (stripPad bs) = stripPad bs := by
  fun_induction stripPad bs with
  | case1 => simp [stripPad]
  | case2 a b rest h hz ih =>
    rw [stripPad_cons2]; simp [stripPad, hz]
  | case3 a b rest h ih =>
    rw [stripPad_cons2, ih, if_neg h]
  | case4 bs h =>
    match bs, h with
    | [], _ => rfl
    | [a], _ => rfl
    | a :: b :: rest, h => exact absurd rfl (h a b rest)

/-- Every page that is read can be stored. -/
theorem pageParse_valid {bs pg r} (h : pageParse bs = .ok (pg, r)) : validPage pg := by
  unfold pageParse at h
  split at h
  · cases h
  · next i m h1 =>
    obtain ⟨pre, rfl, hb⟩ := intBuild_intParse h1
    have hf := intBuild_ok_iff.1 ⟨_, hb⟩
    simp only [intFits, if_true, decide_eq_true_eq] at hf
    split at h
    · cases h; trivial
    · next hi =>
      split at h
      · cases h
      · next n m' h2 =>
        split at h
        · cases h
        · next h3 =>
          split at h
          · cases h
          · next s h4 =>
            cases h
            have hd := utf16Encode_utf16Decode h4
            refine ⟨⟨by omega, by omega, hi⟩, utf16Encode_ok_iff.1 ⟨_, hd⟩,
              rstrip_last_ne hd (stripPad_idem _), fun t ht => ?_⟩
            rw [hd] at ht
            have := Except.ok.inj ht
            subst this
            obtain ⟨k, hk⟩ := stripPad_spec (m'.take (n * 2))
            have hlen' := congrArg List.length hk
            simp only [List.length_append, List.length_replicate, List.length_take] at hlen'
            omega

/-! ### VST sub-events -/

variable [FloatEnv]

/-- A VST sub-event that can be stored. -/
def validVst (x : Int × VstData) : Prop :=
  (0 ≤ x.1 ∧ x.1 < 2 ^ 32) ∧ (∀ d, vstDataBuild x.1 x.2 = .ok d → d.length < 2 ^ 64) ∧
  match x.2 with
  | .fields r => (x.1 = 1 ∧ validFields ⟨0⟩ vstMidi r) ∨ (x.1 = 2 ∧ validFields ⟨0⟩ vstFlags r)
  | .str s => vstIsText x.1 = true ∧ ∀ c ∈ s, isScalar c
  | .raw _ => x.1 ≠ 1 ∧ x.1 ≠ 2 ∧ vstIsText x.1 = false
  | .lv _ => False

omit [FloatEnv] in
theorem utf8Encode_ok {s : PStr} (h : ∀ c ∈ s, isScalar c) : ∃ b, utf8Encode s = .ok b := by
  induction s with
  | nil => exact ⟨[], rfl⟩
  | cons c cs ih =>
    obtain ⟨b, hb⟩ := ih (fun x hx => h x (by simp [hx]))
    have hc := h c (by simp)
    have : ∃ x, utf8Char c = some x := by
      unfold utf8Char isScalar at *
      split
      · exact ⟨_, rfl⟩
      · split
        · exact ⟨_, rfl⟩
        · split
          · exact ⟨_, rfl⟩
          · split
            · exact ⟨_, rfl⟩
            · omega
    obtain ⟨x, hx⟩ := this
    exact ⟨x ++ b, utf8Encode_cons hx hb⟩

theorem vstData_roundtrip {x : Int × VstData} (h : validVst x) :
    ∃ d, vstDataBuild x.1 x.2 = .ok d ∧ vstDataParse x.1 d = .ok x.2 := by
  obtain ⟨id, d⟩ := x
  obtain ⟨-, -, h⟩ := h
  cases d with
  | fields r =>
    rcases h with ⟨h1, h⟩ | ⟨h1, h⟩
    · simp only at h1; subst h1
      obtain ⟨b, hb, hp⟩ := struct_roundtrip ⟨0⟩ h
      exact ⟨b, by simp [vstDataBuild, hb], by simp [vstDataParse, hp, Except.map]⟩
    · simp only at h1; subst h1
      obtain ⟨b, hb, hp⟩ := struct_roundtrip ⟨0⟩ h
      exact ⟨b, by simp [vstDataBuild, hb], by simp [vstDataParse, hp, Except.map]⟩
  | str s =>
    obtain ⟨h1, h2⟩ := h
    obtain ⟨b, hb⟩ := utf8Encode_ok h2
    have n1 : id ≠ 1 := by rintro rfl; simp [vstIsText] at h1
    have n2 : id ≠ 2 := by rintro rfl; simp [vstIsText] at h1
    simp only at h1
    exact ⟨b, by simp [vstDataBuild, n1, n2, h1, hb],
      by simp [vstDataParse, n1, n2, h1, utf8Decode_utf8Encode hb, Except.map]⟩
  | raw bs =>
    obtain ⟨n1, n2, h1⟩ := h
    simp only at n1 n2 h1
    exact ⟨bs, by simp [vstDataBuild, n1, n2, h1], by simp [vstDataParse, n1, n2, h1]⟩
  | lv x => exact h.elim

omit [FloatEnv] in
theorem prefixedBuild_eq {A D : Py Bytes} {L : Bytes → Py Bytes} {a d l : Bytes} (ha : A = .ok a)
    (hd : D = .ok d) (hl : L d = .ok l) : prefixedBuild A D L = .ok (a ++ l ++ d) := by
  subst ha hd
  simp only [prefixedBuild, hl]

theorem vstItemBuild_eq {x : Int × VstData} {a l d : Bytes} (ha : intBuild 4 false x.1 = .ok a)
    (hd : vstDataBuild x.1 x.2 = .ok d) (hl : intBuild 8 false (d.length : Int) = .ok l) :
    vstItemBuild x = .ok (a ++ l ++ d) :=
  prefixedBuild_eq (L := fun d => intBuild 8 false (d.length : Int)) ha hd hl

theorem vst_roundtrip {x : Int × VstData} (h : validVst x) :
    ∃ b, vstItemBuild x = .ok b ∧ b ≠ [] ∧ ∀ r, vstItemParse (b ++ r) = .ok (x, r) := by
  obtain ⟨d, hd, hp⟩ := vstData_roundtrip h
  obtain ⟨⟨h1, h2⟩, h3, -⟩ := h
  have hlen := h3 d hd
  have hf : intFits 4 false x.1 = true := by
    simp only [intFits, Bool.false_eq_true, if_false, decide_eq_true_eq]; omega
  obtain ⟨a, ha⟩ := intBuild_ok_iff.2 hf
  have hl := intBuild_nat (w := 8) (n := d.length) (by omega)
  have hal := intBuild_length ha
  refine ⟨a ++ leBytes 8 d.length ++ d, vstItemBuild_eq ha hd hl, ?_, fun r => ?_⟩
  · intro e
    have := congrArg List.length e
    simp only [List.length_append, List.length_nil] at this; omega
  · unfold vstItemParse
    simp only [List.append_assoc]
    rw [intParse_intBuild ha]
    simp only
    rw [intParse_intBuild hl]
    simp only [Int.toNat_natCast]
    rw [if_neg (by simp), List.take_left' rfl, List.drop_left' rfl, hp]

/-- Sub-event bytes that are written back exactly. -/
def canonVst (bs : Bytes) : Prop :=
  ∀ id r, intParse 4 false bs = .ok (id, r) → ∀ n r', intParse 8 false r = .ok (n, r') →
    (id = 1 → canonFields ⟨0⟩ vstMidi (r'.take n.toNat)) ∧
    (id = 2 → canonFields ⟨0⟩ vstFlags (r'.take n.toNat))

theorem vst_canon {bs x r} (h : vstItemParse bs = .ok (x, r)) (hc : canonVst bs) :
    ∃ b, bs = b ++ r ∧ vstItemBuild x = .ok b := by
  unfold vstItemParse at h
  split at h
  · cases h
  · next id m h1 =>
    split at h
    · cases h
    · next n m' h2 =>
      obtain ⟨c1, c2⟩ := hc id m h1 n m' h2
      obtain ⟨pre, rfl, hb⟩ := intBuild_intParse h1
      obtain ⟨pre', rfl, hb'⟩ := intBuild_intParse h2
      have hn := intBuild_ok_iff.1 ⟨_, hb'⟩
      simp only [intFits, Bool.false_eq_true, if_false, decide_eq_true_eq] at hn
      split at h
      · cases h
      · next h3 =>
        split at h
        · cases h
        · next d h4 =>
          cases h
          have hlen : (m'.take n.toNat).length = n.toNat := by simp; omega
          have hbuild : vstDataBuild id d = .ok (m'.take n.toNat) := by
            unfold vstDataParse at h4
            split at h4
            · next e =>
              obtain ⟨⟨rec, r⟩, p1, p2⟩ := map_ok h4
              cases p2
              simp only [vstDataBuild, e, if_true]
              exact (struct_canon ⟨0⟩ p1 (c1 e)).2
            · next e1 =>
              split at h4
              · next e =>
                obtain ⟨⟨rec, r⟩, p1, p2⟩ := map_ok h4
                cases p2
                simp only [vstDataBuild, e]
                exact (struct_canon ⟨0⟩ p1 (c2 e)).2
              · next e2 =>
                split at h4
                · next e3 =>
                  obtain ⟨s, p1, p2⟩ := map_ok h4
                  cases p2
                  simp only [vstDataBuild, if_neg e1, if_neg e2, e3, if_true]
                  exact utf8Encode_utf8Decode p1
                · next e3 =>
                  cases h4
                  simp only [vstDataBuild, if_neg e1, if_neg e2, e3]
                  rfl
          refine ⟨pre ++ pre' ++ m'.take n.toNat, by simp, ?_⟩
          refine vstItemBuild_eq hb hbuild ?_
          rw [hlen, Int.toNat_of_nonneg hn.1]; exact hb'

/-! ### Automation points -/

theorem times_roundtrip (cx : Ctx) {fs : Fields} {k : Nat} (hk : itemSize cx fs = some k)
    {recs : List Rec} (h : ∀ rec ∈ recs, validItem cx fs rec) :
    ∃ b, greedyBuild cx fs recs = .ok b ∧ ∀ r, timesParse cx fs recs.length (b ++ r) = .ok (recs, r) := by
  induction recs with
  | nil => exact ⟨[], rfl, fun r => rfl⟩
  | cons rec recs ih =>
    obtain ⟨b1, p1, p2, p3⟩ := item_roundtrip cx hk (h rec (by simp))
    obtain ⟨b2, q1, q2⟩ := ih (fun r hr => h r (by simp [hr]))
    refine ⟨b1 ++ b2, by simp only [greedyBuild, p1, q1], fun r => ?_⟩
    simp only [List.length_cons, timesParse, List.append_assoc, p3, q2]

theorem times_canon (cx : Ctx) {fs : Fields} {k : Nat} (hk : itemSize cx fs = some k) {n : Nat}
    {bs recs r} (h : timesParse cx fs n bs = .ok (recs, r)) :
    recs.length = n ∧ (∀ rec ∈ recs, validItem cx fs rec) ∧
      ∃ b, bs = b ++ r ∧ greedyBuild cx fs recs = .ok b := by
  induction n generalizing bs recs with
  | zero => cases h; exact ⟨rfl, by simp, [], rfl, rfl⟩
  | succ n ih =>
    simp only [timesParse] at h
    split at h
    · cases h
    · next a m h1 =>
      split at h
      · cases h
      · next as m' h2 =>
        cases h
        obtain ⟨i1, i2, b2, i3, i4⟩ := ih h2
        have hb : k ≤ bs.length := by
          by_cases hb : k ≤ bs.length
          · exact hb
          · obtain ⟨e, he⟩ := item_short cx hk (bs := bs) (by omega)
            rw [he] at h1; cases h1
        obtain ⟨rec, p1, p2, p3⟩ := item_parse cx hk hb
        rw [h1] at p1
        cases p1
        refine ⟨by simp [i1], ?_, bs.take k ++ b2, ?_, by simp only [greedyBuild, p3, i4]⟩
        · intro x hx
          rcases List.mem_cons.1 hx with rfl | hx
          · exact p2
          · exact i2 x hx
        · rw [List.append_assoc, ← i3, List.take_append_drop]

end PyFLP
