import Verif.Props.Resave
/-!
# Properties of single events: C09 – C11, C16, C17, C38, C39
-/

namespace PyFLP

open Spec

/-! ## Specification -/

namespace Spec

/-- Event ids a class accepts.  Byte, word and double word classes have a fixed
range, text classes have the text range and three newer ids, others accept all. -/
def idInRange : Kind → Nat → Prop
  | .bool, id | .i8, id | .u8, id => id ≤ 63
  | .i16, id | .u16, id => 64 ≤ id ∧ id ≤ 127
  | .f32, id | .i32, id | .u32, id | .u16t, id | .color, id => 128 ≤ id ∧ id ≤ 191
  | .ascii, id | .unicode, id => (192 ≤ id ∧ id ≤ 207) ∨ id = 231 ∨ id = 239 ∨ id = 241
  | _, _ => True

/-- Data sizes that are allowed for an id. -/
def dataSizeOK (id n : Nat) : Prop :=
  (id ≤ 63 ∧ n = 1) ∨ (64 ≤ id ∧ id ≤ 127 ∧ n = 2) ∨ (128 ≤ id ∧ id ≤ 191 ∧ n = 4) ∨ 192 ≤ id

/-- The classes whose value is one number, boolean or colour, and raw data. -/
def simpleKind : Kind → Prop
  | .bool | .i8 | .u8 | .i16 | .u16 | .f32 | .i32 | .u32 | .u16t | .color | .unknown => True
  | _ => False

/-- The integer classes with their ranges: lowest value, number of values. -/
def intRange : Kind → Option (Int × Int)
  | .i8 => some (-128, 256)
  | .u8 => some (0, 256)
  | .i16 => some (-32768, 65536)
  | .u16 => some (0, 65536)
  | .i32 => some (-2147483648, 4294967296)
  | .u32 => some (0, 4294967296)
  | _ => none

end Spec

variable [FloatEnv]

/-! ## C09 Constructors reject exactly the illegal id/size combinations -/

omit [FloatEnv] in
theorem allowed_iff (k : Kind) (id : Nat) : k.allowed id = true ↔ idInRange k id := by
  cases k <;> simp [Kind.allowed, idInRange, newTextIds] <;> omega

omit [FloatEnv] in
theorem dataSizeOK_iff (id n : Nat) :
    dataSizeOK id n ↔ (match fixedSize id with | some m => n = m | none => True) := by
  unfold dataSizeOK fixedSize
  by_cases h1 : id < 64
  · rw [if_pos h1]; dsimp only; omega
  · rw [if_neg h1]
    by_cases h2 : id < 128
    · rw [if_pos h2]; dsimp only; omega
    · rw [if_neg h2]
      by_cases h3 : id < 192
      · rw [if_pos h3]; dsimp only; omega
      · rw [if_neg h3]; simp only [iff_true]; omega

omit [FloatEnv] in
theorem dataSizeOK_some {id n m : Nat} (h : fixedSize id = some m) : dataSizeOK id n ↔ n = m := by
  rw [dataSizeOK_iff, h]

omit [FloatEnv] in
theorem dataSizeOK_none {id n : Nat} (h : fixedSize id = none) : dataSizeOK id n := by
  rw [dataSizeOK_iff, h]; trivial

/-- `EventIDOutOfRange` exactly for ids outside the range of the class,
`InvalidEventChunkSize` exactly for ids in range with data of a wrong size,
and the value classes accept everything else. -/
theorem C09_constructor_guards (k : Kind) (id : Nat) (data : Bytes) :
    (mkEvent k id data = .error .eventIDOutOfRange ↔ ¬ idInRange k id) ∧
    (mkEvent k id data = .error .invalidEventChunkSize ↔ idInRange k id ∧ ¬ dataSizeOK id data.length) ∧
    (simpleKind k → idInRange k id → dataSizeOK id data.length →
      ∃ e, mkEvent k id data = .ok e ∧ e.id = id ∧ e.kind = k ∧ k.parse data = .ok e.value) := by
  have hdec := kindParse_dec k data
  have hmap : ∀ x, (k.parse data).map (fun v => (⟨id, k, v, data.length⟩ : Event)) = .error x → x.decoding := by
    intro x hx
    exact (hdec.map _).out x hx
  unfold mkEvent
  by_cases hr : idInRange k id
  · have ha := (allowed_iff k id).2 hr
    rw [if_neg (by simp [ha])]
    cases hf : fixedSize id with
    | some n =>
      dsimp only
      by_cases hs : data.length = n
      · have hd := (dataSizeOK_some hf).2 hs
        rw [if_neg (by simp [hs])]
        refine ⟨⟨fun h => (hmap _ h).elim, fun h => absurd hr h⟩, ⟨fun h => (hmap _ h).elim, fun h => absurd hd h.2⟩, ?_⟩
        intro hk _ _
        have hpar : ∃ v, k.parse data = .ok v := by
          have hint : ∀ w s, data.length = w → ∃ v r, intParse w s data = .ok (v, r) := by
            intro w s h
            unfold intParse
            rw [if_neg (by omega)]
            exact ⟨_, _, rfl⟩
          have f1 : id ≤ 63 → data.length = 1 := by
            intro h; unfold fixedSize at hf; rw [if_pos (by omega)] at hf; rw [hs]; exact (Option.some.inj hf).symm
          have f2 : 64 ≤ id ∧ id ≤ 127 → data.length = 2 := by
            intro h; unfold fixedSize at hf; rw [if_neg (by omega), if_pos (by omega)] at hf
            rw [hs]; exact (Option.some.inj hf).symm
          have f4 : 128 ≤ id ∧ id ≤ 191 → data.length = 4 := by
            intro h; unfold fixedSize at hf; rw [if_neg (by omega), if_neg (by omega), if_pos (by omega)] at hf
            rw [hs]; exact (Option.some.inj hf).symm
          cases k <;> simp only [simpleKind] at hk <;> simp only [idInRange] at hr
          case bool =>
            match data, f1 hr with
            | [b], _ => exact ⟨_, rfl⟩
          case i8 =>
            obtain ⟨v, r, h⟩ := hint 1 true (f1 hr)
            exact ⟨_, by simp only [Kind.parse, Kind.leaf, leafParse]; rw [h]; rfl⟩
          case u8 =>
            obtain ⟨v, r, h⟩ := hint 1 false (f1 hr)
            exact ⟨_, by simp only [Kind.parse, Kind.leaf, leafParse]; rw [h]; rfl⟩
          case i16 =>
            obtain ⟨v, r, h⟩ := hint 2 true (f2 hr)
            exact ⟨_, by simp only [Kind.parse, Kind.leaf, leafParse]; rw [h]; rfl⟩
          case u16 =>
            obtain ⟨v, r, h⟩ := hint 2 false (f2 hr)
            exact ⟨_, by simp only [Kind.parse, Kind.leaf, leafParse]; rw [h]; rfl⟩
          case i32 =>
            obtain ⟨v, r, h⟩ := hint 4 true (f4 hr)
            exact ⟨_, by simp only [Kind.parse, Kind.leaf, leafParse]; rw [h]; rfl⟩
          case u32 =>
            obtain ⟨v, r, h⟩ := hint 4 false (f4 hr)
            exact ⟨_, by simp only [Kind.parse, Kind.leaf, leafParse]; rw [h]; rfl⟩
          case f32 =>
            obtain ⟨v, r, h⟩ := hint 4 false (f4 hr)
            exact ⟨_, by simp only [Kind.parse, Kind.leaf, leafParse]; rw [h]; rfl⟩
          case u16t =>
            match data, f4 hr with
            | [a, b, c, d], _ => exact ⟨_, rfl⟩
          case color =>
            match data, f4 hr with
            | [a, b, c, d], _ => exact ⟨_, rfl⟩
          case unknown => exact ⟨_, rfl⟩
        obtain ⟨v, hv⟩ := hpar
        exact ⟨⟨id, k, v, data.length⟩, by rw [hv]; rfl, rfl, rfl, hv⟩
      · rw [if_pos hs]
        have hd : ¬ dataSizeOK id data.length := fun h => hs ((dataSizeOK_some hf).1 h)
        exact ⟨⟨(fun h => by cases h), fun h => absurd hr h⟩, ⟨fun _ => ⟨hr, hd⟩, fun _ => rfl⟩, fun _ _ h => absurd h hd⟩
    | none =>
      dsimp only
      have hd : dataSizeOK id data.length := dataSizeOK_none hf
      refine ⟨⟨fun h => (hmap _ h).elim, fun h => absurd hr h⟩, ⟨fun h => (hmap _ h).elim, fun h => absurd hd h.2⟩, ?_⟩
      intro hk _ _
      have h192 : 192 ≤ id := by
        unfold fixedSize at hf
        split at hf
        · cases hf
        · split at hf
          · cases hf
          · split at hf
            · cases hf
            · omega
      cases k <;> simp only [simpleKind] at hk <;> simp only [idInRange] at hr <;> first | omega | skip
      exact ⟨⟨id, .unknown, .bytes data, data.length⟩, rfl, rfl, rfl, rfl⟩
  · have ha : k.allowed id = false := by
      cases h : k.allowed id with
      | false => rfl
      | true => exact absurd ((allowed_iff k id).1 h) hr
    rw [if_pos ha]
    exact ⟨⟨fun _ => hr, fun _ => rfl⟩, ⟨(fun h => by cases h), fun h => absurd h.1 hr⟩, fun _ h => absurd h hr⟩

omit [FloatEnv] in
example : ¬ idInRange .u8 64 ∧ idInRange .u16 64 ∧ ¬ dataSizeOK 64 1 ∧ dataSizeOK 64 2 := by
  unfold dataSizeOK; simp [idInRange]

/-! ## C10 `Event.size` is the serialised size -/

/-- For an event whose type belongs to its id (fixed-size id with the matching
fixed-size class, or a text/data id), whatever value it holds: if it can be
serialised then `size` is the number of bytes.
Missing: raw or structured classes used with an id below 192. -/
theorem C10_size_partial (e : Event) (hr : idInRange e.kind e.id)
    (hk : e.id ≤ 191 → simpleKind e.kind ∧ e.kind ≠ .unknown) (raw : Bytes) (h : e.toBytes = .ok raw) :
    e.size = .ok raw.length := by
  obtain ⟨h1, h2, h3⟩ := toBytes_ok h
  unfold Event.size
  by_cases h192 : 192 ≤ e.id
  · rw [if_pos h192, h]; rfl
  · rw [if_neg h192]
    have hb : ∀ n, e.kind.width = some n → raw.length = n + 1 := by
      intro n hn
      have h4 := build_width hn h2
      rw [h3]
      unfold frame Event.fr
      dsimp only
      rw [if_pos (show e.id < 192 by omega)]
      simp [h4]
    obtain ⟨hs, hu⟩ := hk (by omega)
    cases hkk : e.kind <;> rw [hkk] at hr hs hu hb <;> simp only [simpleKind] at hs <;>
      simp only [idInRange] at hr
    case unknown => exact absurd rfl hu
    all_goals
      have := hb _ rfl
      rw [this]
      first
        | rw [if_pos (by omega)]
        | rw [if_neg (by omega), if_pos (by omega)]
        | rw [if_neg (by omega), if_neg (by omega)]

/-- A raw event with a byte id keeps reporting size 2 when it holds 3 bytes: the
constructor accepts it, and it serialises to 4 bytes. -/
theorem C10_size_refuted : ∃ e0 v raw, mkEvent .unknown 5 [1] = .ok e0 ∧
    ({ e0 with value := v } : Event).toBytes = .ok raw ∧ ({ e0 with value := v } : Event).size ≠ .ok raw.length :=
  ⟨⟨5, .unknown, .bytes [1], 1⟩, .bytes [1, 2, 3], [5, 1, 2, 3], rfl, rfl, by
    intro h; exact absurd (Except.ok.inj h) (by decide)⟩

example : ∃ raw, (⟨64, .u16, .lv (.int 300), 2⟩ : Event).toBytes = .ok raw ∧ raw.length = 3 :=
  ⟨[64, 44, 1], rfl, rfl⟩

/-! ## C11 Integer events never wrap -/

/-- An integer event holding `v`: if `v` is in the range of its class, it is
serialised (one id byte and the payload) and an event created from the payload
holds `v`; if not, serialising raises. -/
theorem C11_int_exact (k : Kind) (lo count : Int) (hk : intRange k = some (lo, count)) (id : Nat)
    (hid : idInRange k id) (len : Nat) (v : Int) :
    (lo ≤ v ∧ v < lo + count → ∃ payload, (⟨id, k, .lv (.int v), len⟩ : Event).toBytes
        = .ok (UInt8.ofNat id :: payload) ∧ mkEvent k id payload = .ok ⟨id, k, .lv (.int v), payload.length⟩) ∧
    (¬ (lo ≤ v ∧ v < lo + count) → ∃ x, (⟨id, k, .lv (.int v), len⟩ : Event).toBytes = .error x) := by
  obtain ⟨w, s, hw, hlf, hfit⟩ : ∃ w s, (w = 1 ∨ w = 2 ∨ w = 4) ∧ k.leaf = some (.int w s) ∧
      (intFits w s v = true ↔ lo ≤ v ∧ v < lo + count) := by
    cases k <;> simp only [intRange, reduceCtorEq, Option.some.injEq, Prod.mk.injEq] at hk
    all_goals
      obtain ⟨rfl, rfl⟩ := hk
      refine ⟨_, _, ?_, rfl, ?_⟩
      · simp
      · simp only [intFits]
        first
          | (simp only [if_true, decide_eq_true_eq]; omega)
          | (simp only [Bool.false_eq_true, if_false, decide_eq_true_eq]; omega)
  have hb : ∀ len, k.build len (.lv (.int v)) = intBuild w s v := by
    intro len
    cases k <;> simp only [Kind.leaf, reduceCtorEq, Option.some.injEq, Leaf.int.injEq] at hlf
    all_goals (obtain ⟨rfl, rfl⟩ := hlf; rfl)
  have hp : ∀ bs, k.parse bs = (leafParse (.int w s) bs).map fun x => .lv x.1 := by
    intro bs
    cases k <;> simp only [Kind.leaf, reduceCtorEq, Option.some.injEq, Leaf.int.injEq] at hlf
    all_goals (obtain ⟨rfl, rfl⟩ := hlf; rfl)
  have hwid : k.width = some w ∧ fixedSize id = some w ∧ id < 192 := by
    cases k <;> simp only [Kind.leaf, reduceCtorEq, Option.some.injEq, Leaf.int.injEq] at hlf
    all_goals
      obtain ⟨rfl, rfl⟩ := hlf
      simp only [idInRange] at hid
      refine ⟨rfl, ?_, by omega⟩
      unfold fixedSize
      first
        | rw [if_pos (by omega)]
        | rw [if_neg (by omega), if_pos (by omega)]
        | rw [if_neg (by omega), if_neg (by omega), if_pos (by omega)]
  obtain ⟨-, hfs, hlt⟩ := hwid
  constructor
  · intro hv
    obtain ⟨b, hbb⟩ := intBuild_ok_iff.2 (hfit.2 hv)
    have hlen := intBuild_length hbb
    have hpay : (⟨id, k, .lv (.int v), len⟩ : Event).payload = .ok b := (hb len).trans hbb
    refine ⟨b, ?_, ?_⟩
    · rw [toBytes_eq (e := ⟨id, k, .lv (.int v), len⟩) (show id < 256 by omega) hpay]
      unfold frame Event.fr
      rw [pay_eq hpay]
      dsimp only
      rw [if_pos hlt]
      rfl
    · refine mkEvent_eq ((allowed_iff k id).2 hid) ?_ ?_
      · intro n hn; rw [hfs] at hn; rw [hlen]; exact Option.some.inj hn
      · rw [hp]
        have := intParse_intBuild hbb []
        rw [List.append_nil] at this
        simp only [leafParse, this]; rfl
  · intro hv
    have : ∃ x, intBuild w s v = .error x := by
      cases hc : intBuild w s v with
      | ok b => exact absurd (hfit.1 (intBuild_ok_iff.1 ⟨b, hc⟩)) hv
      | error x => exact ⟨x, rfl⟩
    obtain ⟨x, hx⟩ := this
    cases hc : (⟨id, k, .lv (.int v), len⟩ : Event).toBytes with
    | error y => exact ⟨y, rfl⟩
    | ok raw =>
      obtain ⟨-, h2, -⟩ := toBytes_ok hc
      have h3 : (⟨id, k, .lv (.int v), len⟩ : Event).payload = .error x := (hb len).trans hx
      rw [h3] at h2
      cases h2

omit [FloatEnv] in
example : intRange .i16 = some (-32768, 65536) ∧ idInRange .i16 80 := by simp [intRange, idInRange]

/-! ## C16 Text values survive a save -/

/-- A text event holding `s` (a Python string as code points).
* ASCII class: serialises iff all characters are below 128;
* UTF-16 class: serialises iff all characters are Unicode scalar values;
* an event created from the serialised payload holds `s` without its trailing
  NULs, so `s` itself if it does not end in NUL. -/
theorem C16_text_roundtrip (k : Kind) (hk : k = .ascii ∨ k = .unicode) (s : PStr) (len : Nat) :
    ((∃ b, k.build len (.str s) = .ok b) ↔ ∀ c ∈ s, if k = .ascii then c < 128 else isScalar c) ∧
    (∀ b, k.build len (.str s) = .ok b → k.parse b = .ok (.str (rstripNul s))) ∧
    (s.getLast? ≠ some 0 → rstripNul s = s) := by
  have hz : ∀ c ∈ ([0] : PStr), c < 128 := by simp
  have hz' : ∀ c ∈ ([0] : PStr), isScalar c := by simp [isScalar]
  rcases hk with rfl | rfl
  · simp only [Kind.build, Kind.parse, if_true]
    refine ⟨?_, ?_, fun h => rstripNul_eq_self h⟩
    · rw [asciiEncode_ok_iff]
      constructor
      · intro h c hc; exact h c (by simp [hc])
      · intro h c hc
        rcases List.mem_append.1 hc with hc | hc
        · exact h c hc
        · exact hz c hc
    · intro b hb
      rw [asciiDecode_asciiEncode hb]
      show Except.ok (Value.str (rstripNul (s ++ [0]))) = _
      rw [rstripNul_append_nul]
  · simp only [Kind.build, Kind.parse, reduceCtorEq, if_false]
    refine ⟨?_, ?_, fun h => rstripNul_eq_self h⟩
    · rw [utf16Encode_ok_iff]
      constructor
      · intro h c hc; exact h c (by simp [hc])
      · intro h c hc
        rcases List.mem_append.1 hc with hc | hc
        · exact h c hc
        · exact hz' c hc
    · intro b hb
      rw [utf16Decode_utf16Encode hb]
      show Except.ok (Value.str (rstripNul (s ++ [0]))) = _
      rw [rstripNul_append_nul]

omit [FloatEnv] in
/-- `isScalar` is the set of Unicode scalar values. -/
theorem isScalar_spec (c : Nat) : isScalar c ↔ c < 0xD800 ∨ (0xDFFF < c ∧ c ≤ 0x10FFFF) := by
  unfold isScalar
  omega

/-- A musical note outside the Basic Multilingual Plane (U+1D11E) is one. -/
example : isScalar 0x1D11E ∧ Kind.build .unicode 0 (.str [0x1D11E]) = .ok [0x34, 0xD8, 0x1E, 0xDD, 0, 0] :=
  ⟨by unfold isScalar; omega, rfl⟩

/-! ## C17 Length prefixes are exact and minimal -/

omit [FloatEnv] in
/-- The prefix written for `n` is read back as `n` and leaves what follows; no
shorter prefix is read as `n`; every prefix is read the same way whatever
follows it. -/
theorem C17_length_prefix (n : Nat) (rest : Bytes) :
    varParse (varBuild n ++ rest) = .ok (n, rest) ∧
    (∀ pre, varParse (pre ++ rest) = .ok (n, rest) → (varBuild n).length ≤ pre.length) ∧
    (∀ k, 128 ^ k ≤ n → k < (varBuild n).length) ∧ (∀ k, n < 128 ^ (k + 1) → (varBuild n).length ≤ k + 1) := by
  refine ⟨varParse_varBuild n rest, fun pre h => varBuild_minimal h, ?_, ?_⟩
  · intro k hk
    induction k generalizing n with
    | zero => exact List.length_pos_iff.2 (varBuild_ne_nil n)
    | succ k ih =>
      have h128 : 128 ≤ n := by
        have : 128 ^ 1 ≤ 128 ^ (k + 1) := Nat.pow_le_pow_right (by omega) (by omega)
        omega
      unfold varBuild
      rw [dif_neg (by omega), List.length_cons]
      have := ih (n / 128) ((Nat.le_div_iff_mul_le (by omega)).2 (by rw [← Nat.pow_succ]; exact hk))
      omega
  · intro k hk
    induction k generalizing n with
    | zero => unfold varBuild; rw [dif_pos (by simpa using hk)]; simp
    | succ k ih =>
      unfold varBuild
      split
      · simp
      · rw [List.length_cons]
        have := ih (n / 128) (Nat.div_lt_of_lt_mul (by rw [Nat.mul_comm, ← Nat.pow_succ]; exact hk))
        omega

omit [FloatEnv] in
/-- Padded prefixes are accepted: any number of `80` bytes between the groups and
a final `00` does not change the value. -/
theorem C17_padded_prefix (k : Nat) (b : UInt8) (hb : 128 ≤ b.toNat) (rest : Bytes) :
    varParse (b :: (List.replicate k 128 ++ 0 :: rest)) = .ok (b.toNat % 128, rest) := by
  have h0 : ∀ k, varParse (List.replicate k 128 ++ 0 :: rest) = .ok (0, rest) := by
    intro k
    induction k with
    | zero => rfl
    | succ k ih =>
      rw [List.replicate_succ, List.cons_append]
      unfold varParse
      rw [if_neg (by decide), ih]
      rfl
  unfold varParse
  rw [if_neg (by omega), h0 k]
  simp

end PyFLP
