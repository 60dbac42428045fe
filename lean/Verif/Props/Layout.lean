import Verif.LayoutSpec
import Verif.ParseSpec
import Verif.Props.Files
/-!
# C131: what the bytes of a file mean
-/

namespace PyFLP

open Spec

/-! ### Numbers -/

theorem littleEndian_lt (bs : Bytes) : littleEndian bs < 256 ^ bs.length := by
  induction bs with
  | nil => simp [littleEndian]
  | cons b bs ih =>
    have := u8_toNat_lt b
    simp only [littleEndian, List.length_cons, Nat.pow_succ]
    omega

/-- Reading a number. -/
theorem intParse_means {w : Nat} {sg : Bool} {bs rest : Bytes} {v : Int} :
    intParse w sg bs = .ok (v, rest) ↔
      ∃ chunk, bs = chunk ++ rest ∧ chunk.length = w ∧ InRange w sg v ∧ Encodes sg chunk v := by
  constructor
  · intro h
    unfold intParse at h
    split at h
    · cases h
    · next hl =>
      have h := Except.ok.inj h
      rw [Prod.mk.injEq] at h
      obtain ⟨h1, h2⟩ := h
      have hw : (bs.take w).length = w := by simp; omega
      have hlt := littleEndian_lt (bs.take w)
      rw [hw] at hlt
      refine ⟨bs.take w, by rw [← h2, List.take_append_drop], hw, ?_⟩
      rw [← littleEndian_eq] at h1
      unfold Encodes InRange
      rw [hw]
      cases sg with
      | false =>
        simp only [Bool.false_eq_true, if_false] at h1
        subst h1
        exact ⟨⟨by omega, by omega⟩, .inl rfl⟩
      | true =>
        simp only [if_true] at h1
        unfold toSigned at h1
        by_cases hs : 2 * littleEndian (bs.take w) < 256 ^ w
        · rw [if_pos hs] at h1
          subst h1
          exact ⟨⟨by omega, by omega⟩, .inl rfl⟩
        · rw [if_neg hs] at h1
          subst h1
          exact ⟨⟨by omega, by omega⟩, .inr ⟨rfl, by omega, by omega⟩⟩
  · rintro ⟨chunk, rfl, rfl, hr, he⟩
    unfold intParse
    rw [if_neg (by simp)]
    have hlt := littleEndian_lt chunk
    simp only [List.take_left, List.drop_left, ← littleEndian_eq]
    unfold InRange at hr
    unfold Encodes at he
    congr 2
    cases sg with
    | false =>
      simp only [Bool.false_eq_true, if_false]
      rcases he with he | ⟨he, _⟩
      · exact he.symm
      · cases he
    | true =>
      simp only [if_true]
      unfold toSigned
      dsimp only at hr
      rcases he with he | ⟨_, h0, he⟩
      · rw [if_pos (by omega)]; exact he.symm
      · rw [if_neg (by omega)]; omega

/-- Reading an unsigned number. -/
theorem uintParse_means {w : Nat} {bs rest : Bytes} {v : Int} :
    intParse w false bs = .ok (v, rest) ↔ ∃ chunk, bs = chunk ++ rest ∧ chunk.length = w ∧ v = littleEndian chunk := by
  rw [intParse_means]
  constructor
  · rintro ⟨chunk, h1, h2, _, he | ⟨he, _⟩⟩
    · exact ⟨chunk, h1, h2, he⟩
    · cases he
  · rintro ⟨chunk, h1, rfl, rfl⟩
    have := littleEndian_lt chunk
    exact ⟨chunk, h1, rfl, ⟨by omega, by omega⟩, .inl rfl⟩

theorem int2Parse_means {w : Nat} {bs rest : Bytes} {a b : Int} :
    int2Parse w bs = .ok (a, b, rest) ↔ ∃ c d, bs = c ++ d ++ rest ∧ c.length = w ∧ d.length = w ∧
      a = littleEndian c ∧ b = littleEndian d := by
  unfold int2Parse
  constructor
  · intro h
    split at h
    · cases h
    · next a' r h1 =>
      split at h
      · cases h
      · next b' r' h2 =>
        cases h
        obtain ⟨c, rfl, hc, rfl⟩ := uintParse_means.1 h1
        obtain ⟨d, rfl, hd, rfl⟩ := uintParse_means.1 h2
        exact ⟨c, d, by simp, hc, hd, rfl, rfl⟩
  · rintro ⟨c, d, rfl, hc, hd, rfl, rfl⟩
    rw [uintParse_means.2 ⟨c, List.append_assoc .., hc, rfl⟩]
    dsimp only
    rw [uintParse_means.2 ⟨d, rfl, hd, rfl⟩]

theorem littleEndian_zero {bs : Bytes} : littleEndian bs = 0 ↔ bs = List.replicate bs.length 0 := by
  induction bs with
  | nil => simp [littleEndian]
  | cons b bs ih =>
    simp only [littleEndian, List.length_cons, List.replicate_succ, List.cons.injEq]
    rw [← ih]
    constructor
    · intro h
      refine ⟨u8_eq_of_toNat (by show b.toNat = 0; omega), by omega⟩
    · rintro ⟨rfl, h⟩
      rw [h]; rfl

/-! ### Sizes -/

/-- Reading a size. -/
theorem varParse_means {bs rest : Bytes} {n : Nat} :
    varParse bs = .ok (n, rest) ↔ ∃ pre, bs = pre ++ rest ∧ SizeBytes pre n := by
  induction bs generalizing n with
  | nil =>
    constructor
    · intro h; cases h
    · rintro ⟨pre, h, hs⟩
      cases hs <;> simp at h
  | cons b bs ih =>
    constructor
    · intro h
      unfold varParse at h
      split at h
      · next hb => cases h; exact ⟨[b], rfl, .last hb⟩
      · next hb =>
        split at h
        · cases h
        · next m r hm =>
          cases h
          obtain ⟨pre, rfl, hs⟩ := ih.1 hm
          have := u8_toNat_lt b
          refine ⟨b :: pre, rfl, ?_⟩
          rw [show b.toNat % 128 = b.toNat - 128 by omega]
          exact .more (by omega) hs
    · rintro ⟨pre, h, hs⟩
      unfold varParse
      cases hs with
      | last hb =>
        simp only [List.cons_append, List.nil_append, List.cons.injEq] at h
        obtain ⟨rfl, rfl⟩ := h
        rw [if_pos hb]
      | @more b' pre' m hb hs =>
        simp only [List.cons_append, List.cons.injEq] at h
        obtain ⟨rfl, rfl⟩ := h
        rw [if_neg (by omega), ih.2 ⟨_, rfl, hs⟩]
        have := u8_toNat_lt b
        dsimp only
        rw [show b.toNat % 128 = b.toNat - 128 by omega]

theorem varBuild_means (n : Nat) : SizeBytes (varBuild n) n := by
  have h := varParse_varBuild n []
  rw [List.append_nil] at h
  obtain ⟨pre, h1, h2⟩ := varParse_means.1 h
  rw [List.append_nil] at h1
  rw [h1]; exact h2

/-! ### Texts -/

theorem asciiDecode_means {bs : Bytes} {s : PStr} : asciiDecode bs = .ok s ↔ Ascii s bs := by
  unfold Ascii
  induction bs generalizing s with
  | nil => simp [asciiDecode]
  | cons b bs ih =>
    unfold asciiDecode
    constructor
    · intro h
      split at h
      · next hb =>
        split at h
        · next t ht =>
          cases h
          obtain ⟨h1, rfl⟩ := ih.1 ht
          exact ⟨by simpa using ⟨hb, h1⟩, by simp⟩
        · cases h
      · cases h
    · rintro ⟨h1, rfl⟩
      simp only [List.mem_cons, forall_eq_or_imp] at h1
      rw [if_pos h1.1, ih.2 ⟨h1.2, rfl⟩]
      rfl

theorem character_iff (c : Nat) : Character c ↔ isScalar c := by unfold Character isScalar; omega

theorem utf16Char_means {c : Nat} (h : Character c) : utf16Char c = some ((utf16Units c).flatMap lowHigh) := by
  unfold Character at h
  unfold utf16Char utf16Units
  by_cases hc : c < 0x10000
  · rw [if_pos (by omega), if_pos hc]; simp [unit16, lowHigh]
  · rw [if_neg (by omega), if_pos (by omega), if_neg hc]; simp [unit16, lowHigh]

theorem utf16Encode_means {s : PStr} {bs : Bytes} : utf16Encode s = .ok bs ↔ Utf16 s bs := by
  unfold Utf16
  induction s generalizing bs with
  | nil => simp [utf16Encode]
  | cons c s ih =>
    constructor
    · intro h
      have hc : ∀ x ∈ c :: s, Character x := fun x hx => (character_iff x).2 (utf16Encode_ok_iff.1 ⟨_, h⟩ x hx)
      refine ⟨hc, ?_⟩
      obtain ⟨b, t, hb, ht, rfl⟩ := utf16Encode_cons_ok h
      rw [utf16Char_means (hc c (by simp))] at hb
      rw [← Option.some.inj hb, (ih.1 ht).2]
      rfl
    · rintro ⟨h1, rfl⟩
      exact utf16Encode_cons (utf16Char_means (h1 c (by simp))) (ih.2 ⟨fun x hx => h1 x (by simp [hx]), rfl⟩)

theorem utf16Decode_means {bs : Bytes} {s : PStr} : utf16Decode bs = .ok s ↔ Utf16 s bs :=
  ⟨fun h => utf16Encode_means.1 (utf16Encode_utf16Decode h), fun h => utf16Decode_utf16Encode (utf16Encode_means.2 h)⟩

theorem utf8Char_means {c : Nat} (h : Character c) : utf8Char c = some ((utf8Bytes c).map UInt8.ofNat) := by
  unfold Character at h
  unfold utf8Char utf8Bytes
  by_cases h1 : c < 128
  · rw [if_pos h1, if_pos h1]; rfl
  · rw [if_neg h1, if_neg h1]
    by_cases h2 : c < 2048
    · rw [if_pos h2, if_pos h2]; rfl
    · rw [if_neg h2, if_neg h2]
      by_cases h3 : c < 65536
      · rw [if_pos (by omega), if_pos h3]; rfl
      · rw [if_neg (by omega), if_pos (by omega), if_neg h3]; rfl

theorem utf8Char_character {c : Nat} {b : Bytes} (h : utf8Char c = some b) : Character c := by
  unfold Character
  unfold utf8Char at h
  split at h
  · omega
  · split at h
    · omega
    · split at h
      · omega
      · split at h
        · omega
        · cases h

theorem utf8Encode_means {s : PStr} {bs : Bytes} : utf8Encode s = .ok bs ↔ Utf8 s bs := by
  unfold Utf8
  induction s generalizing bs with
  | nil => simp [utf8Encode]
  | cons c s ih =>
    constructor
    · intro h
      simp only [utf8Encode] at h
      split at h
      · cases h
      · next b hb =>
        split at h
        · next t ht =>
          cases h
          have hc := utf8Char_character hb
          obtain ⟨h1, h2⟩ := ih.1 ht
          rw [utf8Char_means hc] at hb
          refine ⟨by simpa using ⟨hc, h1⟩, ?_⟩
          rw [← Option.some.inj hb, h2]
          rfl
        · cases h
    · rintro ⟨h1, rfl⟩
      exact utf8Encode_cons (utf8Char_means (h1 c (by simp))) (ih.2 ⟨fun x hx => h1 x (by simp [hx]), rfl⟩)

theorem utf8Decode_means {bs : Bytes} {s : PStr} : utf8Decode bs = .ok s ↔ Utf8 s bs :=
  ⟨fun h => utf8Encode_means.1 (utf8Encode_utf8Decode h), fun h => utf8Decode_utf8Encode (utf8Encode_means.2 h)⟩

theorem stripped_iff {s t : PStr} : Stripped s t ↔ s = rstripNul t := by
  constructor
  · rintro ⟨⟨k, rfl⟩, hl⟩
    induction k with
    | zero => simpa using (rstripNul_eq_self hl).symm
    | succ k ih =>
      rw [List.replicate_succ', ← List.append_assoc, rstripNul_append_nul]
      exact ih
  · rintro rfl
    exact ⟨rstripNul_append t, rstripNul_last t⟩

section
variable [FloatEnv]

/-! ### Fields and records -/

omit [FloatEnv] in
theorem pyMap_ok {α β : Type} {x : Py α} {f : α → β} {y : β} : x.map f = .ok y ↔ ∃ a, x = .ok a ∧ f a = y := by
  cases x with
  | error e => constructor <;> intro h <;> simp [Except.map] at h
  | ok a => simp [Except.map]

theorem leafParse_means {l : Leaf} {bs rest : Bytes} {x : LV} :
    leafParse l bs = .ok (x, rest) ↔ ∃ chunk, bs = chunk ++ rest ∧ FieldMeans l chunk rest x := by
  have viaInt : ∀ {w : Nat} {sg : Bool} {f : Int → LV} {P : Bytes → Prop},
      (∀ chunk v, chunk.length = w → InRange w sg v → Encodes sg chunk v → (f v = x ↔ P chunk)) →
      (∀ chunk, P chunk → chunk.length = w) →
      (((intParse w sg bs).map fun (v, r) => (f v, r)) = .ok (x, rest) ↔ ∃ chunk, bs = chunk ++ rest ∧ P chunk) := by
    intro w sg f P hP hw
    rw [pyMap_ok]
    constructor
    · rintro ⟨⟨v, r⟩, h, e⟩
      simp only [Prod.mk.injEq] at e
      obtain ⟨e1, rfl⟩ := e
      obtain ⟨chunk, h1, h2, h3, h4⟩ := intParse_means.1 h
      exact ⟨chunk, h1, (hP chunk v h2 h3 h4).1 e1⟩
    · rintro ⟨chunk, rfl, hp⟩
      obtain ⟨v, hv⟩ : ∃ v, intParse w sg (chunk ++ rest) = .ok (v, rest) := by
        have := hw chunk hp
        unfold intParse
        rw [if_neg (by simp; omega)]
        subst this
        exact ⟨_, by rw [List.drop_left]⟩
      obtain ⟨chunk', h1, h2, h3, h4⟩ := intParse_means.1 hv
      have := List.append_cancel_right h1
      subst this
      exact ⟨(v, rest), hv, by simp only [Prod.mk.injEq, and_true]; exact (hP _ v h2 h3 h4).2 hp⟩
  have uns : ∀ {w : Nat} {chunk : Bytes} {v : Int}, Encodes false chunk v → v = littleEndian chunk := by
    intro w chunk v h
    rcases h with h | ⟨h, _⟩
    · exact h
    · cases h
  have uniq : ∀ {w : Nat} {sg : Bool} {chunk : Bytes} {v v' : Int}, chunk.length = w → InRange w sg v → Encodes sg chunk v →
      InRange w sg v' → Encodes sg chunk v' → v = v' := by
    intro w sg chunk v v' h0 h1 h2 h3 h4
    have a := intParse_means.2 ⟨chunk, (List.append_nil _).symm, h0, h1, h2⟩
    have b := intParse_means.2 ⟨chunk, (List.append_nil _).symm, h0, h3, h4⟩
    rw [a] at b
    simpa using b
  cases l with
  | int w sg =>
    refine viaInt (fun chunk v h1 h2 h3 => ?_) fun chunk h => h.1
    show _ ↔ FieldMeans (.int w sg) chunk rest x
    unfold FieldMeans
    constructor
    · rintro rfl; exact ⟨h1, v, rfl, h2, h3⟩
    · rintro ⟨_, v', rfl, h4, h5⟩
      rw [uniq h1 h2 h3 h4 h5]
  | flagsS m =>
    refine viaInt (f := fun v => LV.int (intFlagValue m v)) (fun chunk v h1 h2 h3 => ?_) fun chunk h => h.1
    show _ ↔ FieldMeans (.flagsS m) chunk rest x
    unfold FieldMeans
    constructor
    · rintro rfl
      refine ⟨h1, v, h2, h3, fun h0 => ?_, fun _ => rfl⟩
      unfold intFlagValue
      rw [if_pos h0]
    · rintro ⟨_, v', h4, h5, h6, h7⟩
      rw [uniq h1 h2 h3 h4 h5]
      by_cases h0 : 0 ≤ v'
      · rw [h6 h0]; unfold intFlagValue; rw [if_pos h0]
      · rw [h7 (by omega)]
  | flag =>
    unfold FieldMeans
    simp only [leafParse]
    constructor
    · intro h
      split at h
      · cases h
      · next b r =>
        cases h
        exact ⟨[b], rfl, rfl, by simp⟩
    · rintro ⟨chunk, rfl, h1, rfl⟩
      match chunk, h1 with
      | [b], _ => simp
  | raw n =>
    unfold FieldMeans
    simp only [leafParse]
    constructor
    · intro h
      split at h
      · cases h
      · next hl =>
        cases h
        exact ⟨bs.take n, by simp, by simp; omega, rfl⟩
    · rintro ⟨chunk, rfl, rfl, rfl⟩
      rw [if_neg (by simp)]
      simp
  | rawC n =>
    unfold FieldMeans
    simp only [leafParse]
    constructor
    · intro h
      cases h
      refine ⟨bs.take n, by simp, ?_, rfl⟩
      by_cases hl : n ≤ bs.length
      · left; simp; omega
      · right; simp; omega
    · rintro ⟨chunk, rfl, h | ⟨h, rfl⟩, rfl⟩
      · subst h; simp
      · rw [List.append_nil, List.take_of_length_le (by omega), List.drop_of_length_le (by omega)]
  | greedy =>
    unfold FieldMeans
    simp only [leafParse]
    constructor
    · intro h
      cases h
      exact ⟨bs, by simp, rfl, rfl⟩
    · rintro ⟨chunk, rfl, rfl, rfl⟩
      simp
  | f32 =>
    refine viaInt (f := fun v => LV.f32 v.toNat) (fun chunk v h1 h2 h3 => ?_) fun chunk h => h.1
    show _ ↔ FieldMeans .f32 chunk rest x
    unfold FieldMeans
    rw [uns (w := 4) h3]
    constructor
    · rintro rfl; exact ⟨h1, by simp⟩
    · rintro ⟨_, rfl⟩; simp
  | f64 =>
    refine viaInt (f := fun v => LV.f64 v.toNat) (fun chunk v h1 h2 h3 => ?_) fun chunk h => h.1
    show _ ↔ FieldMeans .f64 chunk rest x
    unfold FieldMeans
    rw [uns (w := 8) h3]
    constructor
    · rintro rfl; exact ⟨h1, by simp⟩
    · rintro ⟨_, rfl⟩; simp
  | fourBool =>
    refine viaInt (f := fun v => LV.bool (v ≠ 0)) (fun chunk v h1 h2 h3 => ?_) fun chunk h => h.1
    show _ ↔ FieldMeans .fourBool chunk rest x
    unfold FieldMeans
    have hz := littleEndian_zero (bs := chunk)
    rw [h1] at hz
    have e : (decide (v ≠ 0)) = decide (chunk ≠ [0, 0, 0, 0]) := by
      apply decide_eq_decide.2
      rw [uns (w := 4) h3]
      have : ((littleEndian chunk : Nat) : Int) = 0 ↔ littleEndian chunk = 0 := by omega
      rw [Ne, this, hz]
      rfl
    rw [e]
    constructor
    · rintro rfl; exact ⟨h1, rfl⟩
    · rintro ⟨_, rfl⟩; rfl
  | height =>
    unfold FieldMeans
    simp only [leafParse]
    constructor
    · intro h
      split at h
      · cases h
      · next v r hv =>
        obtain ⟨chunk, rfl, h1, rfl⟩ := uintParse_means.1 hv
        split at h
        · next s hs =>
          cases h
          exact ⟨chunk, rfl, h1, s, rfl, by simpa using hs⟩
        · cases h
    · rintro ⟨chunk, rfl, h1, s, rfl, hs⟩
      rw [uintParse_means.2 ⟨chunk, rfl, h1, rfl⟩]
      simp [hs]
  | pair32 =>
    unfold FieldMeans
    simp only [leafParse]
    rw [pyMap_ok]
    constructor
    · rintro ⟨⟨a, b, r⟩, h, e⟩
      simp only [Prod.mk.injEq] at e
      obtain ⟨rfl, rfl⟩ := e
      obtain ⟨c, d, rfl, hc, hd, rfl, rfl⟩ := int2Parse_means.1 h
      refine ⟨c ++ d, rfl, by simp [hc, hd], ?_⟩
      rw [← hc, List.take_left, List.drop_left]
    · rintro ⟨chunk, rfl, h1, rfl⟩
      exact ⟨(_, _, rest), int2Parse_means.2 ⟨chunk.take 4, chunk.drop 4, by rw [List.take_append_drop], by simp [h1], by simp [h1], rfl, rfl⟩, rfl⟩
  | musical =>
    refine viaInt (f := musicalDecode) (fun chunk v h1 h2 h3 => ?_) fun chunk h => h.1
    show _ ↔ FieldMeans .musical chunk rest x
    unfold FieldMeans musicalDecode
    rw [uns (w := 4) h3]
    generalize littleEndian chunk = n
    constructor
    · rintro rfl
      refine ⟨h1, n / 768, n % 768 / 48, n % 768 % 48, by omega, by omega, by omega, ?_⟩
      congr 1
      omega
    · rintro ⟨_, bars, beats, steps, b1, b2, rfl, rfl⟩
      congr 1 <;> omega
  | log2 =>
    unfold FieldMeans
    simp only [leafParse]
    constructor
    · intro h
      split at h
      · cases h
      · next v r hv =>
        obtain ⟨chunk, rfl, h1, h2, h3⟩ := intParse_means.1 hv
        split at h
        · next n hn =>
          cases h
          exact ⟨chunk, rfl, h1, v, n, h2, h3, hn, rfl⟩
        · cases h
    · rintro ⟨chunk, rfl, h1, v, n, h2, h3, hn, rfl⟩
      rw [intParse_means.2 ⟨chunk, rfl, h1, h2, h3⟩]
      simp [hn]
  | logNormal =>
    unfold FieldMeans
    simp only [leafParse]
    constructor
    · intro h
      split at h
      · cases h
      · next a b r hv =>
        obtain ⟨c, d, rfl, hc, hd, rfl, rfl⟩ := int2Parse_means.1 hv
        split at h
        · next n hn =>
          cases h
          refine ⟨c ++ d, rfl, by simp [hc, hd], n, ?_, rfl⟩
          rw [← hc, List.take_left, List.drop_left]
          exact hn
        · cases h
    · rintro ⟨chunk, rfl, h1, n, hn, rfl⟩
      rw [int2Parse_means.2 ⟨chunk.take 2, chunk.drop 2, by rw [List.take_append_drop], by simp [h1], by simp [h1], rfl, rfl⟩]
      simp [hn]

/-- Reading a record. -/
theorem structParse_means {cx : Ctx} {fs : Fields} {bs left : Bytes} {rec : Rec} :
    structParse cx fs bs = .ok (rec, left) ↔ Record cx.len fs bs rec left := by
  induction fs generalizing bs rec with
  | nil =>
    simp only [structParse]
    constructor
    · intro h; cases h; exact .done
    · intro h; cases h; rfl
  | cons nf fs ih =>
    obtain ⟨n, f⟩ := nf
    have req : ∀ {l : Leaf}, present cx.len f = some l → (∀ l', f ≠ .opt l') →
        fldParse cx f bs = (leafParse l bs).map (fun (v, r) => (some v, r)) →
        (structParse cx ((n, f) :: fs) bs = .ok (rec, left) ↔ Record cx.len ((n, f) :: fs) bs rec left) := by
      intro l hp hno hf
      simp only [structParse, hf]
      constructor
      · intro h
        split at h
        · cases h
        · next v r hv =>
          obtain ⟨⟨x, r'⟩, hx, e⟩ := pyMap_ok.1 hv
          simp only [Prod.mk.injEq] at e
          obtain ⟨rfl, rfl⟩ := e
          obtain ⟨chunk, rfl, hc⟩ := leafParse_means.1 hx
          split at h
          · cases h
          · next h2 => cases h; exact .field hp hc (ih.1 h2)
      · intro h
        cases h with
        | field hp' hx t =>
          rw [hp] at hp'
          cases hp'
          rw [leafParse_means.2 ⟨_, rfl, hx⟩]
          simp only [Except.map]
          rw [ih.2 t]
        | absent hp' t => rw [hp] at hp'; cases hp'
        | missing hm t => exact absurd rfl (hno _)
    have skip : present cx.len f = none → (∀ l', f ≠ .opt l') → fldParse cx f bs = .ok (none, bs) →
        (structParse cx ((n, f) :: fs) bs = .ok (rec, left) ↔ Record cx.len ((n, f) :: fs) bs rec left) := by
      intro hp hno hf
      simp only [structParse, hf]
      constructor
      · intro h
        split at h
        · cases h
        · next h2 => cases h; exact .absent hp (ih.1 h2)
      · intro h
        cases h with
        | field hp' hx t => rw [hp] at hp'; cases hp'
        | absent hp' t => rw [ih.2 t]
        | missing hm t => exact absurd rfl (hno _)
    cases f with
    | req l => exact req rfl (fun _ h => by cases h) rfl
    | opt l =>
      simp only [structParse, fldParse]
      constructor
      · intro h
        split at h
        · cases h
        · next v r hv =>
          split at hv
          · next x r' hx =>
            cases hv
            obtain ⟨chunk, rfl, hc⟩ := leafParse_means.1 hx
            split at h
            · cases h
            · next h2 => cases h; exact .field rfl hc (ih.1 h2)
          · next e he =>
            cases hv
            split at h
            · cases h
            · next h2 =>
              cases h
              refine .missing (fun chunk more x hb hx => ?_) (ih.1 h2)
              rw [leafParse_means.2 ⟨chunk, hb, hx⟩] at he
              cases he
      · intro h
        cases h with
        | field hp' hx t =>
          cases hp'
          rw [leafParse_means.2 ⟨_, rfl, hx⟩]
          simp only
          rw [ih.2 t]
        | absent hp' t => cases hp'
        | missing hm t =>
          cases hx : leafParse l bs with
          | ok vr =>
            obtain ⟨v, r⟩ := vr
            obtain ⟨chunk, hb, hc⟩ := leafParse_means.1 hx
            exact absurd hc (hm _ _ _ hb)
          | error e =>
            simp only
            rw [ih.2 t]
    | ifLen m l =>
      by_cases hm : cx.len = m
      · exact req (l := l) (by simp [present, hm]) (fun _ h => by cases h) (by simp [fldParse, hm])
      · exact skip (by simp [present, hm]) (fun _ h => by cases h) (by simp [fldParse, hm])
    | ifNew l =>
      by_cases hm : cx.len % 60 = 0
      · exact req (l := l) (by simp [present, hm]) (fun _ h => by cases h) (by simp [fldParse, hm])
      · exact skip (by simp [present, hm]) (fun _ h => by cases h) (by simp [fldParse, hm])

end

section
variable [FloatEnv]

/-! ### Lists of records -/

/-- A complete item at the front of the bytes is a record of exactly these bytes. -/
theorem item_means {cx : Ctx} {fs : Fields} {k : Nat} (hk : itemSize cx fs = some k) {bs : Bytes} (hb : k ≤ bs.length) :
    ∃ rec, structParse cx fs bs = .ok (rec, bs.drop k) ∧ Record cx.len fs (bs.take k) rec [] := by
  obtain ⟨rec, p1, p2, p3⟩ := item_parse cx hk hb
  obtain ⟨b, q1, q2, q3⟩ := item_roundtrip cx hk p2
  rw [p3] at q1
  cases q1
  have := q3 []
  rw [List.append_nil] at this
  exact ⟨rec, p1, structParse_means.1 this⟩

theorem greedy_means (cx : Ctx) {fs : Fields} {k : Nat} (hk : itemSize cx fs = some k) (h0 : 0 < k) (bs : Bytes) :
    (greedyParse cx fs bs).1.length = bs.length / k ∧ ∀ (i : Nat) (rec : Rec), (greedyParse cx fs bs).1[i]? = some rec →
      Record cx.len fs ((bs.drop (k * i)).take k) rec [] := by
  induction hn : bs.length using Nat.strongRecOn generalizing bs with
  | ind n ih =>
    subst hn
    by_cases hb : k ≤ bs.length
    · obtain ⟨rec, p1, p2⟩ := item_means hk hb
      have hlen : (bs.drop k).length = bs.length - k := by simp
      obtain ⟨q1, q2⟩ := ih (bs.drop k).length (by omega) (bs.drop k) rfl
      have hdiv : bs.length / k = (bs.drop k).length / k + 1 := by
        rw [hlen, Nat.div_eq bs.length k, if_pos ⟨h0, hb⟩]
      have e : (greedyParse cx fs bs).1 = rec :: (greedyParse cx fs (bs.drop k)).1 := by
        rw [greedyParse, p1]
        simp only
        rw [if_pos (by omega)]
      rw [e]
      refine ⟨by simp [q1, hdiv], fun i r hi => ?_⟩
      cases i with
      | zero => cases hi; simpa using p2
      | succ i =>
        have := q2 i r (by simpa using hi)
        rwa [List.drop_drop, show k + k * i = k * (i + 1) by rw [Nat.mul_add]; omega] at this
    · have hd : bs.length / k = 0 := Nat.div_eq_of_lt (by omega)
      obtain ⟨e, he⟩ := item_short cx hk (bs := bs) (by omega)
      have e : (greedyParse cx fs bs).1 = [] := by rw [greedyParse, he]
      rw [e, hd]
      exact ⟨rfl, by simp⟩

theorem greedy_means_iff (cx : Ctx) {fs : Fields} {k : Nat} (hk : itemSize cx fs = some k) (h0 : 0 < k) (bs : Bytes)
    (items : List Rec) : (greedyParse cx fs bs).1 = items ↔ items.length = bs.length / k ∧
      ∀ (i : Nat) (rec : Rec), items[i]? = some rec → Record cx.len fs ((bs.drop (k * i)).take k) rec [] := by
  obtain ⟨h1, h2⟩ := greedy_means cx hk h0 bs
  constructor
  · rintro rfl; exact ⟨h1, h2⟩
  · rintro ⟨g1, g2⟩
    apply List.ext_getElem (by omega)
    intro i hi hi'
    have a := structParse_means.2 (h2 i _ (List.getElem?_eq_getElem hi))
    have b := structParse_means.2 (g2 i _ (List.getElem?_eq_getElem hi'))
    rw [a] at b
    simpa using b

theorem times_means {fs : Fields} {n : Nat} {bs left : Bytes} {recs : List Rec} :
    timesParse ⟨0⟩ fs n bs = .ok (recs, left) ↔ recs.length = n ∧ RecordsIn fs bs recs left := by
  induction n generalizing bs recs with
  | zero =>
    simp only [timesParse]
    constructor
    · intro h; cases h; exact ⟨rfl, .done⟩
    · rintro ⟨h, hr⟩
      cases hr with
      | done => rfl
      | next => cases h
  | succ n ih =>
    simp only [timesParse]
    constructor
    · intro h
      split at h
      · cases h
      · next a r h1 =>
        split at h
        · cases h
        · next h2 =>
          cases h
          obtain ⟨g1, g2⟩ := ih.1 h2
          exact ⟨by simp [g1], .next (structParse_means.1 h1) g2⟩
    · rintro ⟨h, hr⟩
      cases hr with
      | done => cases h
      | next h1 t =>
        rw [structParse_means.2 h1]
        simp only
        rw [ih.2 ⟨by simpa using h, t⟩]

/-! ### Repetitions -/

omit [FloatEnv] in
theorem many_means {α : Type} {p : Bytes → Py (α × Bytes)} {item : Bytes → α → Bytes → Prop}
    (hp : ∀ {bs a r}, p bs = .ok (a, r) ↔ item bs a r) (hl : ∀ {bs a r}, item bs a r → r.length < bs.length)
    {bs left : Bytes} {as : List α} : manyParse p bs = (as, left) ↔ AsManyAs item bs as left := by
  induction hn : bs.length using Nat.strongRecOn generalizing bs as with
  | ind n ih =>
    subst hn
    rw [manyParse]
    cases h : p bs with
    | error e =>
      dsimp only
      constructor
      · intro e; cases e
        exact .stop fun a more hi => by rw [hp.2 hi] at h; cases h
      · intro hm
        cases hm with
        | stop => rfl
        | next hi t => rw [hp.2 hi] at h; cases h
    | ok ar =>
      obtain ⟨a, r⟩ := ar
      have hlt := hl (hp.1 h)
      dsimp only
      rw [if_pos hlt]
      constructor
      · intro e
        cases e
        exact .next (hp.1 h) ((ih _ hlt rfl).1 rfl)
      · intro hm
        cases hm with
        | stop hs => exact absurd (hp.1 h) (hs _ _)
        | next hi t =>
          have := hp.2 hi
          rw [h] at this
          cases this
          rw [(ih _ hlt rfl).2 t]

omit [FloatEnv] in
theorem page_means {bs rest : Bytes} {pg : Page} : pageParse bs = .ok (pg, rest) ↔ PageMeans bs pg rest := by
  unfold pageParse
  have minus : ∀ chunk : Bytes, chunk.length = 4 → Encodes true chunk (-1) → chunk = [255, 255, 255, 255] := by
    intro chunk hl he
    match chunk, hl with
    | [a, b, c, d], _ =>
      unfold Encodes at he
      have ha := u8_toNat_lt a
      have hb := u8_toNat_lt b
      have hc := u8_toNat_lt c
      have hd := u8_toNat_lt d
      simp only [littleEndian, List.length_cons, List.length_nil] at he
      have e1 : a.toNat = 255 := by omega
      have e2 : b.toNat = 255 := by omega
      have e3 : c.toNat = 255 := by omega
      have e4 : d.toNat = 255 := by omega
      rw [u8_eq_of_toNat (b := 255) e1, u8_eq_of_toNat (b := 255) e2, u8_eq_of_toNat (b := 255) e3,
        u8_eq_of_toNat (b := 255) e4]
  constructor
  · intro h
    split at h
    · cases h
    · next i r hi =>
      obtain ⟨chunk, rfl, c1, c2, c3⟩ := intParse_means.1 hi
      split at h
      · next h1 =>
        subst h1
        cases h
        rw [minus chunk c1 c3]
        exact .stop
      · next h1 =>
        split at h
        · cases h
        · next n r' hn =>
          obtain ⟨pre, rfl, hs⟩ := varParse_means.1 hn
          split at h
          · cases h
          · next hlen =>
            split at h
            · cases h
            · next s hd =>
              cases h
              obtain ⟨k, hk⟩ := stripPad_spec (r'.take (n * 2))
              match chunk, c1 with
              | [a, b, c, d], _ =>
                have hlast : s.getLast? ≠ some 0 :=
                  rstrip_last_ne (utf16Encode_utf16Decode hd) (stripPad_idem _)
                have := PageMeans.text (rest := r'.drop (n * 2)) (k := k) (core := stripPad (r'.take (n * 2)))
                  ⟨c2, c3⟩ h1 hs (utf16Decode_means.1 hd) hlast (by
                    have := congrArg List.length hk
                    simp only [List.length_append, List.length_replicate, List.length_take] at this
                    omega)
                have e : [a, b, c, d] ++ (pre ++ r') =
                    ([a, b, c, d] ++ pre ++ stripPad (r'.take (n * 2)) ++ List.replicate (2 * k) 0) ++ r'.drop (n * 2) := by
                  conv => lhs; rw [← List.take_append_drop (n * 2) r', hk]
                  simp
                rw [e]
                exact this
  · intro h
    cases h with
    | stop =>
      have hi : intParse 4 true ([255, 255, 255, 255] ++ rest) = .ok (-1, rest) :=
        intParse_means.2 ⟨_, rfl, rfl, by unfold InRange; decide, by unfold Encodes; decide⟩
      rw [hi]
      rfl
    | @text a b c d i pre core _ n k s hi h1 hn hs hl hk =>
      have e : ([a, b, c, d] ++ pre ++ core ++ List.replicate (2 * k) 0) ++ rest =
          [a, b, c, d] ++ (pre ++ ((core ++ List.replicate (2 * k) 0) ++ rest)) := by simp
      rw [e, intParse_means (w := 4).2 ⟨[a, b, c, d], rfl, rfl, hi.1, hi.2⟩]
      simp only
      rw [if_neg h1, varParse_means.2 ⟨_, rfl, hn⟩]
      simp only
      have hlen : (core ++ List.replicate (2 * k) 0).length = n * 2 := by simp; omega
      rw [if_neg (by rw [List.length_append]; omega), List.take_left' hlen, List.drop_left' hlen,
        (stripPad_encode (utf16Encode_means.2 hs) hl k).1, utf16Decode_means.2 hs]

theorem vstData_means {id : Nat} {data : Bytes} {d : VstData} : vstDataParse (id : Int) data = .ok d ↔ VstMeans id data d := by
  unfold vstDataParse VstMeans
  have viaRec : ∀ fs : Fields, ((structParse ⟨0⟩ fs data).map fun x => VstData.fields x.1) = .ok d ↔
      ∃ rec left, d = .fields rec ∧ Record 0 fs data rec left := by
    intro fs
    rw [pyMap_ok]
    constructor
    · rintro ⟨⟨rec, left⟩, h, rfl⟩
      exact ⟨rec, left, rfl, structParse_means.1 h⟩
    · rintro ⟨rec, left, rfl, h⟩
      exact ⟨(rec, left), structParse_means.2 h, rfl⟩
  by_cases h1 : id = 1
  · rw [if_pos (by omega), if_pos h1]; exact viaRec _
  · rw [if_neg (by omega), if_neg h1]
    by_cases h2 : id = 2
    · rw [if_pos (by omega), if_pos h2]; exact viaRec _
    · rw [if_neg (by omega), if_neg h2]
      have e : vstIsText (id : Int) = decide (id ∈ [51, 54, 55, 56]) := by
        unfold vstIsText
        rw [Bool.eq_iff_iff]
        simp only [Bool.or_eq_true, decide_eq_true_eq, List.mem_cons, List.not_mem_nil, or_false]
        omega
      rw [e]
      by_cases h3 : id ∈ [51, 54, 55, 56]
      · rw [if_pos (by simpa using h3), if_pos h3, pyMap_ok]
        constructor
        · rintro ⟨s, h, rfl⟩; exact ⟨s, rfl, utf8Decode_means.1 h⟩
        · rintro ⟨s, rfl, h⟩; exact ⟨s, utf8Decode_means.2 h, rfl⟩
      · rw [if_neg (by simpa using h3), if_neg h3]
        constructor
        · intro h; cases h; rfl
        · rintro rfl; rfl

theorem vstItem_means {bs rest : Bytes} {x : Int × VstData} : vstItemParse bs = .ok (x, rest) ↔ VstItem bs x rest := by
  unfold vstItemParse
  constructor
  · intro h
    split at h
    · cases h
    · next id r hi =>
      obtain ⟨i, rfl, h4, rfl⟩ := uintParse_means.1 hi
      split at h
      · cases h
      · next n r' hn =>
        obtain ⟨size, rfl, h8, rfl⟩ := uintParse_means.1 hn
        split at h
        · cases h
        · next hlen =>
          split at h
          · cases h
          · next d hd =>
            cases h
            simp only [Int.toNat_natCast] at *
            have := VstItem.item (rest := r'.drop (littleEndian size)) h4 h8 (data := r'.take (littleEndian size))
              (by simp; omega) (vstData_means.1 hd)
            have e : i ++ size ++ r'.take (littleEndian size) ++ r'.drop (littleEndian size) = i ++ (size ++ r') := by simp
            rwa [e] at this
  · intro h
    cases h with
    | @item i size data _ d hi hs hd hm =>
      rw [uintParse_means.2 ⟨i, by rw [List.append_assoc, List.append_assoc], hi, rfl⟩]
      simp only
      rw [uintParse_means.2 ⟨size, rfl, hs, rfl⟩]
      simp only [Int.toNat_natCast, hd]
      rw [if_neg (by simp), List.take_left, List.drop_left, vstData_means.2 hm]

end

section
variable [FloatEnv]

/-! ### Events -/

theorem front_means {k : Kind} {l : Leaf} (hp : ∀ bs, k.parse bs = (leafParse l bs).map fun x => .lv x.1)
    {bs : Bytes} {v : Value} : k.parse bs = .ok v ↔ Front l bs v := by
  rw [hp, pyMap_ok]
  unfold Front
  constructor
  · rintro ⟨⟨x, r⟩, h, rfl⟩
    obtain ⟨chunk, h1, h2⟩ := leafParse_means.1 h
    exact ⟨chunk, r, x, h1, h2, rfl⟩
  · rintro ⟨chunk, rest, x, h1, h2, rfl⟩
    exact ⟨(x, rest), leafParse_means.2 ⟨chunk, h1, h2⟩, rfl⟩

omit [FloatEnv] in
theorem page_shorter {bs more : Bytes} {pg : Page} (h : PageMeans bs pg more) : more.length < bs.length := by
  cases h <;> simp <;> omega

theorem vstItem_shorter {bs more : Bytes} {x : Int × VstData} (h : VstItem bs x more) : more.length < bs.length := by
  cases h with
  | item hi => simp; omega

/-- C131, one event: the data of an event is accepted by its type exactly if it means a value, and the event then has this
value. -/
theorem C131_event (k : Kind) (bs : Bytes) (v : Value) : k.parse bs = .ok v ↔ Means k bs v := by
  cases k with
  | bool => exact front_means fun _ => rfl
  | i8 => exact front_means fun _ => rfl
  | u8 => exact front_means fun _ => rfl
  | i16 => exact front_means fun _ => rfl
  | u16 => exact front_means fun _ => rfl
  | f32 => exact front_means fun _ => rfl
  | i32 => exact front_means fun _ => rfl
  | u32 => exact front_means fun _ => rfl
  | u16t =>
    show ((int2Parse 2 bs).map fun x => Value.lv (.pair x.1 x.2.1)) = .ok v ↔ _
    rw [pyMap_ok]
    unfold Means
    constructor
    · rintro ⟨⟨a, b, r⟩, h, rfl⟩
      obtain ⟨c, d, rfl, hc, hd, rfl, rfl⟩ := int2Parse_means.1 h
      match c, d, hc, hd with
      | [a, b], [c, d], _, _ => exact ⟨a, b, c, d, r, rfl, rfl⟩
    · rintro ⟨a, b, c, d, rest, rfl, rfl⟩
      exact ⟨(_, _, rest), int2Parse_means.2 ⟨[a, b], [c, d], rfl, rfl, rfl, rfl, rfl⟩, rfl⟩
  | color =>
    unfold Means
    simp only [Kind.parse]
    constructor
    · intro h
      split at h
      · next r g b a => cases h; exact ⟨r, g, b, a, rfl, rfl⟩
      · cases h
    · rintro ⟨r, g, b, a, rfl, rfl⟩
      rfl
  | ascii =>
    show ((asciiDecode bs).map fun s => Value.str (rstripNul s)) = .ok v ↔ _
    rw [pyMap_ok]
    unfold Means
    constructor
    · rintro ⟨t, h, rfl⟩
      exact ⟨_, t, rfl, stripped_iff.2 rfl, asciiDecode_means.1 h⟩
    · rintro ⟨s, t, rfl, h1, h2⟩
      exact ⟨t, asciiDecode_means.2 h2, by rw [stripped_iff.1 h1]⟩
  | unicode =>
    show ((utf16Decode bs).map fun s => Value.str (rstripNul s)) = .ok v ↔ _
    rw [pyMap_ok]
    unfold Means
    constructor
    · rintro ⟨t, h, rfl⟩
      exact ⟨_, t, rfl, stripped_iff.2 rfl, utf16Decode_means.1 h⟩
    · rintro ⟨s, t, rfl, h1, h2⟩
      exact ⟨t, utf16Decode_means.2 h2, by rw [stripped_iff.1 h1]⟩
  | unknown =>
    show Except.ok (Value.bytes bs) = .ok v ↔ v = .bytes bs
    constructor
    · intro h; cases h; rfl
    · rintro rfl; rfl
  | struct s =>
    show ((structParse ⟨bs.length⟩ s.fields bs).map fun x => Value.fields x.1) = .ok v ↔ _
    rw [pyMap_ok]
    unfold Means
    constructor
    · rintro ⟨⟨rec, left⟩, h, rfl⟩
      exact ⟨rec, left, rfl, structParse_means.1 h⟩
    · rintro ⟨rec, left, rfl, h⟩
      exact ⟨(rec, left), structParse_means.2 h, rfl⟩
  | list l =>
    show Except.ok (Value.items (greedyParse ⟨bs.length⟩ l.fields bs).1) = .ok v ↔ _
    unfold Means
    have hs : itemSize ⟨bs.length⟩ l.fields = some (recordSize l bs.length) := by
      rw [itemSize_list, recordSize_eq]
    have h0 : 0 < recordSize l bs.length := by rw [← recordSize_eq]; exact l.size_pos _
    constructor
    · intro h
      have h := (Except.ok.inj h).symm
      subst h
      exact ⟨_, rfl, (greedy_means_iff _ hs h0 bs _).1 rfl⟩
    · rintro ⟨items, rfl, h⟩
      rw [(greedy_means_iff _ hs h0 bs items).2 h]
  | routing =>
    show Except.ok (Value.flags (bs.map (· ≠ 0))) = .ok v ↔ v = _
    constructor
    · intro h; cases h; rfl
    · rintro rfl; rfl
  | automation =>
    show autoParse bs = .ok v ↔ _
    unfold autoParse Means
    constructor
    · intro h
      split at h
      · cases h
      · next head r h1 =>
        split at h
        · cases h
        · next n r' h2 =>
          split at h
          · cases h
          · next pts tail h3 =>
            cases h
            obtain ⟨nb, rfl, g1, rfl⟩ := uintParse_means.1 h2
            obtain ⟨g2, g3⟩ := times_means.1 h3
            exact ⟨head, nb, pts, tail, r', tail, rfl, structParse_means.1 h1, g1, by simpa using g2.symm, g3, rfl⟩
    · rintro ⟨head, n, points, tail, rest, more, rfl, h1, h2, h3, h4, rfl⟩
      rw [structParse_means.2 h1]
      simp only
      rw [uintParse_means.2 ⟨n, rfl, h2, rfl⟩]
      simp only [Int.toNat_natCast]
      rw [times_means.2 ⟨h3.symm, h4⟩]
  | notebook =>
    show notebookParse bs = .ok v ↔ _
    unfold notebookParse Means
    constructor
    · intro h
      split at h
      · cases h
      · next hl =>
        split at h
        · cases h
        · next page r h1 =>
          obtain ⟨pb, e, g1, rfl⟩ := uintParse_means.1 h1
          generalize hm : manyParse pageParse r = m at h
          obtain ⟨pages, r'⟩ := m
          have hm := (many_means (fun {bs a r} => page_means) page_shorter).1 hm
          dsimp only at h
          cases r' with
          | nil => cases h
          | cons b rest =>
            cases h
            exact ⟨bs.take 4, pb, r, pages, b, rest, rfl,
              by rw [List.append_assoc, ← e, List.take_append_drop], by simp; omega, g1, hm⟩
    · rintro ⟨u1, page, more, pages, editable, rest, rfl, rfl, h4, hp, hm⟩
      rw [if_neg (by simp; omega), List.append_assoc, List.take_left' h4, List.drop_left' h4,
        uintParse_means.2 ⟨page, rfl, hp, rfl⟩]
      simp only
      rw [(many_means (fun {bs a r} => page_means) page_shorter).2 hm]
  | vst =>
    show vstParse bs = .ok v ↔ _
    unfold vstParse Means
    have key : (match intParse 4 false bs with
        | .error e => Except.error e
        | .ok (t, r) => .ok (Value.vst t (manyParse vstItemParse r).1)) = .ok v ↔
        ∃ (type more : Bytes) (items : List (Int × VstData)) (left : Bytes),
          v = .vst (littleEndian type) items ∧ bs = type ++ more ∧ type.length = 4 ∧ AsManyAs VstItem more items left := by
      constructor
      · intro h
        split at h
        · cases h
        · next t r h1 =>
          cases h
          obtain ⟨tb, rfl, g1, rfl⟩ := uintParse_means.1 h1
          exact ⟨tb, r, _, (manyParse vstItemParse r).2, rfl, rfl, g1,
            (many_means (fun {bs a r} => vstItem_means) vstItem_shorter).1 rfl⟩
      · rintro ⟨type, more, items, left, rfl, rfl, h4, hm⟩
        rw [uintParse_means.2 ⟨type, rfl, h4, rfl⟩]
        simp only
        rw [(many_means (fun {bs a r} => vstItem_means) vstItem_shorter).2 hm]
    match bs, key with
    | [], _ =>
      constructor
      · intro h; cases h
      · rintro ⟨type, more, items, left, rfl, h, h4, hm⟩
        have := (List.append_eq_nil_iff.1 h.symm).1
        rw [this] at h4
        cases h4
    | b :: bs, key => exact key

end

section
variable [FloatEnv]

/-! ### Files -/

omit [FloatEnv] in
theorem sizeFor_iff {id : Nat} {pre : Bytes} {n : Nat} : SizeFor id pre n ↔ Announces id pre n := by
  have hv : varParse pre = .ok (n, []) ↔ SizeBytes pre n := by
    rw [varParse_means]
    constructor
    · rintro ⟨pre', rfl, h⟩; simpa using h
    · intro h; exact ⟨pre, by simp, h⟩
  unfold SizeFor Announces
  rw [hv]
  constructor
  · intro h
    split at h
    · exact .inl ⟨by omega, h.1, h.2⟩
    · split at h
      · exact .inr (.inl ⟨by omega, by omega, h.1, h.2⟩)
      · split at h
        · exact .inr (.inr (.inl ⟨by omega, by omega, h.1, h.2⟩))
        · exact .inr (.inr (.inr ⟨by omega, h.1, h.2⟩))
  · rintro (⟨h1, h2⟩ | ⟨h0, h1, h2⟩ | ⟨h0, h1, h2⟩ | ⟨h1, h2⟩)
    · rw [if_pos h1]; exact h2
    · rw [if_neg (by omega), if_pos h1]; exact h2
    · rw [if_neg (by omega), if_neg (by omega), if_pos h1]; exact h2
    · rw [if_neg (by omega), if_neg (by omega), if_neg (by omega)]; exact h2

omit [FloatEnv] in
theorem framed_iff {bs : Bytes} {fs : List (Nat × Bytes)} : Framed bs fs ↔ Splits bs fs := by
  constructor
  · intro h
    induction h with
    | done => exact .nil
    | event hs hn t ih =>
      have := Splits.cons (sizeFor_iff.1 hs) hn ih
      simpa using this
  · intro h
    induction h with
    | nil => exact .done
    | cons hs hn t ih =>
      have := Framed.event (sizeFor_iff.2 hs) hn ih
      simpa using this

theorem eventMeans_iff {before : List Event} {f : Nat × Bytes} {e : Event} : EventMeans before f e ↔ DecodesTo before f e := by
  constructor
  · rintro ⟨h1, h2, h3, h4, h5, h6⟩
    refine ⟨h1, h2, h3, (C131_event _ _ _).2 h4, fun h => h5 [] 1 (by omega) ?_, fun h0 h => h5 [] 2 (by omega) ?_,
      fun h0 h => h5 [] 4 (by omega) ?_, h6⟩
    · unfold SizeFor; rw [if_pos h]; exact ⟨rfl, rfl⟩
    · unfold SizeFor; rw [if_neg (by omega), if_pos h]; exact ⟨rfl, rfl⟩
    · unfold SizeFor; rw [if_neg (by omega), if_neg (by omega), if_pos h]; exact ⟨rfl, rfl⟩
  · rintro ⟨h1, h2, h3, h4, h5, h6, h7, h8⟩
    refine ⟨h1, h2, h3, (C131_event _ _ _).1 h4, fun pre n h hs => ?_, h8⟩
    unfold SizeFor at hs
    split at hs
    · next g => rw [h5 g, hs.2]
    · split at hs
      · next g => rw [h6 (by omega) g, hs.2]
      · rw [h7 (by omega) h, hs.2]

theorem eventsMean_iff {before : List Event} {fs : List (Nat × Bytes)} {evs : List Event} :
    EventsMean before fs evs ↔ Decoded before fs evs := by
  constructor
  · intro h
    induction h with
    | done => exact .nil
    | next h _ ih => exact .cons (eventMeans_iff.1 h) ih
  · intro h
    induction h with
    | nil => exact .done
    | cons h _ ih => exact .next (eventMeans_iff.2 h) ih

/-- C131: which project the bytes of a file are.  A file is accepted exactly if it is `FLhd`, the number 6, the format, the
number of channels and the resolution (two bytes each), `FLdt`, the size of the rest (four bytes), and the rest consists of
framed events that mean something; the project then has the format, number of channels and resolution of the header, and the
events that the bytes mean. -/
theorem C131_file (file : Bytes) (p : Project) : parseFile file = .ok p ↔
    ∃ f0 f1 c0 c1 p0 p1 s0 s1 s2 s3 data fs,
      file = [70, 76, 104, 100, 6, 0, 0, 0, f0, f1, c0, c1, p0, p1, 70, 76, 100, 116, s0, s1, s2, s3] ++ data ∧
      (InRange 2 true p.format ∧ Encodes true [f0, f1] p.format) ∧ p.format ∈ formats ∧
      p.channelCount = littleEndian [c0, c1] ∧ p.ppq = littleEndian [p0, p1] ∧ p.ppq ∈ ppqs ∧
      littleEndian [s0, s1, s2, s3] = data.length ∧ data ≠ [] ∧ Framed data fs ∧ EventsMean [] fs p.events := by
  rw [parse_iff]
  have hw : ∀ a b : UInt8, word a b = littleEndian [a, b] := by
    intro a b
    simp [word, littleEndian]
  have hd : ∀ a b c d : UInt8, dword a b c d = littleEndian [a, b, c, d] := by
    intro a b c d
    simp only [dword, littleEndian]
    omega
  have hsw : ∀ (a b : UInt8) (v : Int), v = sword a b ↔ InRange 2 true v ∧ Encodes true [a, b] v := by
    intro a b v
    have ha := u8_toNat_lt a
    have hb := u8_toNat_lt b
    have hlt : littleEndian [a, b] < 65536 := by simp only [littleEndian]; omega
    unfold sword InRange Encodes
    rw [hw]
    simp only [List.length_cons, List.length_nil, Nat.reduceAdd, Nat.reducePow]
    generalize littleEndian [a, b] = m at *
    constructor
    · intro h
      by_cases hm : m < 32768
      · rw [if_pos hm] at h; omega
      · rw [if_neg hm] at h
        exact ⟨by omega, .inr ⟨trivial, by omega, by omega⟩⟩
    · rintro ⟨h1, h2 | ⟨_, h2, h3⟩⟩
      · rw [if_pos (by omega)]; omega
      · rw [if_neg (by omega)]; omega
  constructor
  · rintro ⟨f0, f1, c0, c1, p0, p1, s0, s1, s2, s3, data, h1, h2, h3, h4, h5, h6, h7, h8, fs, h9, h10⟩
    exact ⟨f0, f1, c0, c1, p0, p1, s0, s1, s2, s3, data, fs, h1, (hsw _ _ _).1 h6, h6 ▸ h2, hw c0 c1 ▸ h7, hw p0 p1 ▸ h8,
      h8 ▸ h3, hd s0 s1 s2 s3 ▸ h5, h4, framed_iff.2 h9, eventsMean_iff.2 h10⟩
  · rintro ⟨f0, f1, c0, c1, p0, p1, s0, s1, s2, s3, data, fs, h1, h2, h3, h4, h5, h6, h7, h8, h9, h10⟩
    have e := (hsw _ _ _).2 h2
    have e2 : p.ppq = word p0 p1 := by rw [hw]; exact h5
    exact ⟨f0, f1, c0, c1, p0, p1, s0, s1, s2, s3, data, h1, e ▸ h3, e2 ▸ h6, h8, by rw [hd]; exact h7, e,
      by rw [hw]; exact h4, e2, fs, framed_iff.1 h9, eventsMean_iff.1 h10⟩

/-- C131, saving: the saved file of a project whose events have the types of their places and values that their types can
hold is such a file, with the bytes that mean these values. -/
theorem C131_saved (p : Project) (file : Bytes) (hf : p.format ∈ formats) (hq : p.ppq ∈ ppqs) (ht : WellTyped p.events)
    (hv : ∀ e ∈ p.events, validValue e.kind e.len e.value) (h : saveBytes p = .ok file) :
    ∃ f0 f1 c0 c1 p0 p1 s0 s1 s2 s3 data fs evs,
      file = [70, 76, 104, 100, 6, 0, 0, 0, f0, f1, c0, c1, p0, p1, 70, 76, 100, 116, s0, s1, s2, s3] ++ data ∧
      Encodes true [f0, f1] p.format ∧ channelStarts p.events = littleEndian [c0, c1] ∧ p.ppq = littleEndian [p0, p1] ∧
      littleEndian [s0, s1, s2, s3] = data.length ∧ Framed data fs ∧ EventsMean [] fs evs ∧
      evs.map observe = p.events.map observe := by
  obtain ⟨q, h1, h2, h3, h4, h5, _⟩ := C04_save_parse p file hf hq ht hv h
  obtain ⟨f0, f1, c0, c1, p0, p1, s0, s1, s2, s3, data, fs, g1, g2, _, g4, g5, _, g7, _, g9, g10⟩ := (C131_file file q).1 h1
  exact ⟨f0, f1, c0, c1, p0, p1, s0, s1, s2, s3, data, fs, q.events, g1, h2 ▸ g2.2, h4 ▸ g4, h3 ▸ g5, g7, g9, g10, h5⟩

/-! ### What is written -/

/-- C131, writing: the bytes that numbers and texts are stored as.  Sizes are the shortest bytes that mean them. -/
theorem C131_written :
    (∀ n, SizeBytes (varBuild n) n ∧ ∀ pre, SizeBytes pre n → (varBuild n).length ≤ pre.length) ∧
    (∀ k w sg, (k, w, sg) ∈ [(Kind.i8, 1, true), (.u8, 1, false), (.i16, 2, true), (.u16, 2, false), (.i32, 4, true),
        (.u32, 4, false)] → ∀ len v bs, k.build len (.lv (.int v)) = .ok bs ↔
      bs.length = w ∧ InRange w sg v ∧ Encodes sg bs v) ∧
    (∀ len n bs, Kind.build .f32 len (.lv (.f32 n)) = .ok bs ↔ bs.length = 4 ∧ littleEndian bs = n) ∧
    (∀ len b, Kind.build .bool len (.lv (.bool b)) = .ok [if b then 1 else 0]) ∧
    (∀ len a b bs, Kind.build .u16t len (.lv (.pair a b)) = .ok bs ↔
      ∃ c d, bs = c ++ d ∧ c.length = 2 ∧ d.length = 2 ∧ a = littleEndian c ∧ b = littleEndian d) ∧
    (∀ len s bs, Kind.build .ascii len (.str s) = .ok bs ↔ Ascii (s ++ [0]) bs) ∧
    (∀ len s bs, Kind.build .unicode len (.str s) = .ok bs ↔ Utf16 (s ++ [0]) bs) ∧
    (∀ len flags, Kind.build .routing len (.flags flags) = .ok (flags.map fun b => if b then 1 else 0)) ∧
    (∀ len bs, Kind.build .unknown len (.bytes bs) = .ok bs) := by
  have hint : ∀ w sg (v : Int) bs, intBuild w sg v = .ok bs ↔ bs.length = w ∧ InRange w sg v ∧ Encodes sg bs v := by
    intro w sg v bs
    constructor
    · intro h
      have hr : InRange w sg v := by
        rw [inRange_iff]
        unfold intBuild at h
        split at h
        · assumption
        · cases h
      obtain ⟨n, h1, h2, h3⟩ := encodes_build hr
      rw [h] at h1
      cases h1
      exact ⟨h2, hr, h3⟩
    · rintro ⟨h1, h2, h3⟩
      obtain ⟨n, g1, g2, g3⟩ := encodes_build h2
      rw [g1]
      have a := intParse_means.2 ⟨bs, (List.append_nil _).symm, h1, h2, h3⟩
      have : leNat bs = leNat n := by
        rw [← littleEndian_eq, ← littleEndian_eq]
        have l1 := littleEndian_lt bs
        have l2 := littleEndian_lt n
        unfold Encodes at h3 g3
        unfold InRange at h2
        rw [h1] at l1 h3
        rw [g2] at l2 g3
        cases sg with
        | false =>
          rcases h3 with h3 | ⟨h3, _⟩
          · rcases g3 with g3 | ⟨g3, _⟩
            · omega
            · cases g3
          · cases h3
        | true => dsimp only at h2; omega
      rw [← leBytes_leNat bs, ← leBytes_leNat n, this, h1, g2]
  have hu : ∀ w (v : Int) bs, intBuild w false v = .ok bs ↔ bs.length = w ∧ v = littleEndian bs := by
    intro w v bs
    rw [hint]
    constructor
    · rintro ⟨h1, _, h3 | ⟨h3, _⟩⟩
      · exact ⟨h1, h3⟩
      · cases h3
    · rintro ⟨rfl, rfl⟩
      have := littleEndian_lt bs
      exact ⟨rfl, ⟨by omega, by omega⟩, .inl rfl⟩
  refine ⟨fun n => ⟨varBuild_means n, fun pre hp => ?_⟩, ?_, ?_, ?_, ?_, ?_, ?_, ?_, ?_⟩
  · exact varBuild_minimal (rest := []) (varParse_means.2 ⟨pre, by simp, hp⟩)
  · intro k w sg hk len v bs
    simp only [List.mem_cons, Prod.mk.injEq, List.not_mem_nil, or_false] at hk
    rcases hk with ⟨rfl, rfl, rfl⟩ | ⟨rfl, rfl, rfl⟩ | ⟨rfl, rfl, rfl⟩ | ⟨rfl, rfl, rfl⟩ | ⟨rfl, rfl, rfl⟩ | ⟨rfl, rfl, rfl⟩ <;>
      exact hint _ _ v bs
  · intro len n bs
    show intBuild 4 false (n : Int) = .ok bs ↔ _
    rw [hu]
    constructor
    · rintro ⟨h1, h2⟩; exact ⟨h1, by omega⟩
    · rintro ⟨h1, h2⟩; exact ⟨h1, by omega⟩
  · intro len b; cases b <;> rfl
  · intro len a b bs
    show int2Build 2 a b = .ok bs ↔ _
    unfold int2Build
    constructor
    · intro h
      split at h
      · cases h
      · next x hx =>
        split at h
        · cases h
        · next y hy =>
          cases h
          obtain ⟨g1, g2⟩ := (hu _ _ _).1 hx
          obtain ⟨g3, g4⟩ := (hu _ _ _).1 hy
          exact ⟨x, y, rfl, g1, g3, g2, g4⟩
    · rintro ⟨c, d, rfl, h1, h2, h3, h4⟩
      rw [(hu 2 a c).2 ⟨h1, h3⟩]
      simp only
      rw [(hu 2 b d).2 ⟨h2, h4⟩]
  · intro len s bs
    show asciiEncode (s ++ [0]) = .ok bs ↔ _
    rw [← asciiDecode_means]
    exact ⟨asciiDecode_asciiEncode, asciiEncode_asciiDecode⟩
  · intro len s bs
    exact utf16Encode_means
  · intro len flags
    show Except.ok (flags.map flagByte) = _
    rfl
  · intro len bs; rfl

end

/-- The hypotheses of `C131_saved` hold of a project, and its file is one of those of `C131_file`. -/
example [FloatEnv] : Demo.project.format ∈ formats ∧ Demo.project.ppq ∈ ppqs ∧ WellTyped Demo.project.events ∧
    (∀ e ∈ Demo.project.events, validValue e.kind e.len e.value) ∧ saveBytes Demo.project = .ok Demo.file ∧
    ∃ p, parseFile Demo.file = .ok p := by
  obtain ⟨q, h, _⟩ := C04_save_parse Demo.project Demo.file (by decide) (by decide) Demo.wellTyped Demo.valid Demo.saved
  exact ⟨by decide, by decide, Demo.wellTyped, Demo.valid, Demo.saved, q, h⟩

/-- Bytes and what they mean: 0x0201, a size of 300, a character outside the basic plane. -/
example [FloatEnv] : Means .u16 [1, 2] (.lv (.int 513)) ∧ Means .i16 [254, 255] (.lv (.int (-2))) ∧ SizeBytes [172, 2] 300 ∧
    Utf16 [0x1F600] [0x3D, 0xD8, 0x00, 0xDE] ∧ Means .unicode [0x3D, 0xD8, 0x00, 0xDE, 0, 0] (.str [0x1F600]) :=
  ⟨(C131_event .u16 _ _).1 rfl, (C131_event .i16 _ _).1 rfl, SizeBytes.more (b := 172) (by decide) (.last (b := 2) (by decide)),
    by unfold Utf16 Character; decide +kernel,
    [0x1F600], [0x1F600, 0], rfl, ⟨⟨1, rfl⟩, by decide⟩, by unfold Utf16 Character; decide +kernel⟩

end PyFLP
