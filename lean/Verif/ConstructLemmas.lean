import Verif.Construct
/-!
# Codec lemmas for the `construct` model

Round trips for primitives, then for structs by induction on the field list.
-/

namespace PyFLP

/-! ### `Except.map` -/

theorem map_ok {α β : Type} {f : α → β} {x : Py α} {y : β} (h : x.map f = .ok y) :
    ∃ a, x = .ok a ∧ f a = y := by
  cases x with
  | error e => cases h
  | ok a => exact ⟨a, rfl, by cases h; rfl⟩

theorem int2Parse_ok {w bs a b r} (h : int2Parse w bs = .ok (a, b, r)) :
    ∃ m, intParse w false bs = .ok (a, m) ∧ intParse w false m = .ok (b, r) := by
  unfold int2Parse at h
  split at h
  · cases h
  · next h1 =>
    split at h
    · cases h
    · next h2 => cases h; exact ⟨_, h1, h2⟩

theorem int2Build_ok {w a b bs} (h : int2Build w a b = .ok bs) :
    ∃ x y, intBuild w false a = .ok x ∧ intBuild w false b = .ok y ∧ bs = x ++ y := by
  unfold int2Build at h
  split at h
  · cases h
  · next h1 =>
    split at h
    · cases h
    · next h2 => cases h; exact ⟨_, _, h1, h2, rfl⟩

theorem int2Parse_int2Build {w a b bs} (h : int2Build w a b = .ok bs) (r : Bytes) :
    int2Parse w (bs ++ r) = .ok (a, b, r) := by
  obtain ⟨x, y, hx, hy, rfl⟩ := int2Build_ok h
  unfold int2Parse
  rw [List.append_assoc, intParse_intBuild hx]
  simp only
  rw [intParse_intBuild hy]

theorem int2Build_int2Parse {w bs a b r} (h : int2Parse w bs = .ok (a, b, r)) :
    ∃ pre, bs = pre ++ r ∧ int2Build w a b = .ok pre := by
  obtain ⟨m, h1, h2⟩ := int2Parse_ok h
  obtain ⟨p1, rfl, b1⟩ := intBuild_intParse h1
  obtain ⟨p2, rfl, b2⟩ := intBuild_intParse h2
  exact ⟨p1 ++ p2, by simp, by simp [int2Build, b1, b2]⟩

/-! ### MusicalTime -/

/-- `int(5k * 0.2) == k` for the ticks a decoded time can have. -/
theorem ticks_exact : ∀ k : Fin 48, trunc (fl (((k.val * 5 : Nat) : Rat) * fl (1 / 5))) = k.val := by
  decide +kernel

theorem musicalEncode_decode (n : Int) {a b c : Int} (h : musicalDecode n = .time a b c) :
    musicalEncode a b c = n := by
  unfold musicalDecode at h
  injection h with ha hb hc
  unfold musicalEncode
  have hk := ticks_exact ⟨(n % 768 % 48).toNat, by omega⟩
  simp only at hk
  have e : ((c : Int) : Rat) = (((n % 768 % 48).toNat * 5 : Nat) : Rat) := by
    have : c = (((n % 768 % 48).toNat * 5 : Nat) : Int) := by omega
    rw [this]; rfl
  rw [e, hk]
  omega

theorem intBuild_nat {w : Nat} {n : Nat} (h : n < 256 ^ w) :
    intBuild w false (n : Int) = .ok (leBytes w n) := by
  have : intFits w false (n : Int) = true := by
    unfold intFits; rw [if_neg (by simp)]; exact decide_eq_true (by omega)
  unfold intBuild
  rw [if_pos this, Int.emod_eq_of_lt (by omega) (by omega), Int.toNat_natCast]

variable [FloatEnv]

/-- Parsing never un-reads: what is left is a suffix of the input. -/
theorem leafParse_suffix {l bs v r} (h : leafParse l bs = .ok (v, r)) : ∃ pre, bs = pre ++ r := by
  have hint : ∀ {w s v r}, intParse w s bs = .ok (v, r) → ∃ pre, bs = pre ++ r :=
    fun h => let ⟨p, hp, _⟩ := intParse_ok h; ⟨p, hp⟩
  cases l <;> simp only [leafParse] at h
  case int | flagsS | f32 | f64 | fourBool | musical =>
    obtain ⟨⟨v', r'⟩, h1, h2⟩ := map_ok h
    cases h2; exact hint h1
  case flag =>
    cases bs with
    | nil => cases h
    | cons b r' => cases h; exact ⟨[b], rfl⟩
  case raw n =>
    split at h
    · cases h
    · cases h; exact ⟨_, (List.take_append_drop n bs).symm⟩
  case rawC n => cases h; exact ⟨_, (List.take_append_drop n bs).symm⟩
  case greedy => cases h; exact ⟨bs, by simp⟩
  case height | log2 =>
    split at h
    · cases h
    · next h1 =>
      split at h
      · cases h; exact hint h1
      · cases h
  case pair32 =>
    obtain ⟨⟨a, b, r'⟩, h1, h2⟩ := map_ok h
    cases h2
    obtain ⟨pre, hp, _⟩ := int2Build_int2Parse h1
    exact ⟨pre, hp⟩
  case logNormal =>
    split at h
    · cases h
    · next h1 =>
      obtain ⟨pre, hp, _⟩ := int2Build_int2Parse h1
      split at h
      · cases h; exact ⟨pre, hp⟩
      · cases h

/-- `v` survives building and parsing as an `l`. -/
def LeafRT (l : Leaf) (v : LV) : Prop :=
  ∃ b, leafBuild l (some v) = .ok b ∧ ∀ r, (l = .greedy → r = []) → leafParse l (b ++ r) = .ok (v, r)

/-- The values of each primitive that can be stored exactly: integers in range,
byte strings of the right length, booleans, and for the lossy adapters the
values that are fixed points of the adapter. -/
def leafValid : Leaf → LV → Prop
  | .int w s, .int v => intFits w s v = true
  | .flagsS _, .int v => 0 ≤ v ∧ v < 2 ^ 31
  | .flag, .bool _ => True
  | .raw n, .bytes bs => bs.length = n
  | .rawC n, .bytes bs => bs.length = n
  | .greedy, .bytes _ => True
  | .f32, .f32 n => n < 2 ^ 32
  | .f64, .f64 n => n < 2 ^ 64
  | .fourBool, .bool _ => True
  | .height, .str s => ∃ n, heightEncode s = some n ∧ n < 2 ^ 32 ∧ heightDecode n = some s
  | .pair32, .pair a b => (0 ≤ a ∧ a < 2 ^ 32) ∧ (0 ≤ b ∧ b < 2 ^ 32)
  | .musical, .time a b c =>
      0 ≤ a ∧ (0 ≤ b ∧ b < 16) ∧ (0 ≤ c ∧ c < 240 ∧ c % 5 = 0) ∧ a * 768 + b * 48 + c / 5 < 2 ^ 32
  | .log2, .f64 x => ∃ k, FloatEnv.log2 x = some k ∧ FloatEnv.exp2 k = some x ∧ -2 ^ 31 ≤ k ∧ k < 2 ^ 31
  | .logNormal, .f64 x => ∃ a b, lnEncode x = some (a, b) ∧ lnDecode a b = some x
  | _, _ => False

theorem leafRT_of_valid {l : Leaf} {v : LV} (h : leafValid l v) : LeafRT l v := by
  unfold LeafRT
  cases l <;> cases v <;> simp only [leafValid] at h <;> try exact h.elim
  case int.int w s v =>
    obtain ⟨b, hb⟩ := intBuild_ok_iff.2 h
    exact ⟨b, hb, fun r _ => by simp [leafParse, intParse_intBuild hb, Except.map]⟩
  case flagsS.int m v =>
    have hf : intFits 4 true v = true := by
      simp only [intFits, if_true, decide_eq_true_eq]; omega
    obtain ⟨b, hb⟩ := intBuild_ok_iff.2 hf
    refine ⟨b, hb, fun r _ => ?_⟩
    simp [leafParse, intParse_intBuild hb, Except.map, intFlagValue, h.1]
  case flag.bool b =>
    cases b
    · exact ⟨[0], rfl, fun r _ => by simp [leafParse]⟩
    · exact ⟨[1], rfl, fun r _ => by simp [leafParse]⟩
  case raw.bytes n bs =>
    refine ⟨bs, by simp [leafBuild, h], fun r _ => ?_⟩
    simp only [leafParse]
    rw [if_neg (by simp; omega), List.take_left' h, List.drop_left' h]
  case rawC.bytes n bs =>
    refine ⟨bs, by simp [leafBuild], fun r _ => ?_⟩
    simp only [leafParse]
    rw [List.take_left' h, List.drop_left' h]
  case greedy.bytes bs =>
    refine ⟨bs, by simp [leafBuild], fun r hr => ?_⟩
    rw [hr rfl]; simp [leafParse]
  case f32.f32 n =>
    have hb := intBuild_nat (w := 4) (n := n) (by omega)
    exact ⟨_, hb, fun r _ => by simp [leafParse, intParse_intBuild hb, Except.map]⟩
  case f64.f64 n =>
    have hb := intBuild_nat (w := 8) (n := n) (by omega)
    exact ⟨_, hb, fun r _ => by simp [leafParse, intParse_intBuild hb, Except.map]⟩
  case fourBool.bool b =>
    cases b
    · have hb := intBuild_nat (w := 4) (n := 0) (by omega)
      exact ⟨_, hb, fun r _ => by simp [leafParse, intParse_intBuild hb, Except.map]⟩
    · have hb := intBuild_nat (w := 4) (n := 1) (by omega)
      exact ⟨_, hb, fun r _ => by simp [leafParse, intParse_intBuild hb, Except.map]⟩
  case height.str s =>
    obtain ⟨n, h1, h2, h3⟩ := h
    have hb := intBuild_nat (w := 4) (n := n) (by omega)
    exact ⟨_, by simp only [leafBuild, h1]; exact hb,
      fun r _ => by simp [leafParse, intParse_intBuild hb, h3]⟩
  case pair32.pair a b =>
    have ha : intFits 4 false a = true := by
      simp only [intFits, Bool.false_eq_true, if_false, decide_eq_true_eq]; omega
    have hb : intFits 4 false b = true := by
      simp only [intFits, Bool.false_eq_true, if_false, decide_eq_true_eq]; omega
    obtain ⟨x, hx⟩ := intBuild_ok_iff.2 ha
    obtain ⟨y, hy⟩ := intBuild_ok_iff.2 hb
    have h2 : int2Build 4 a b = .ok (x ++ y) := by simp [int2Build, hx, hy]
    exact ⟨_, h2, fun r _ => by simp only [leafParse, int2Parse_int2Build h2]; rfl⟩
  case musical.time a b c =>
    obtain ⟨ha, hb, hc, hlt⟩ := h
    have hd : musicalDecode (a * 768 + b * 48 + c / 5) = .time a b c := by
      unfold musicalDecode; congr 1 <;> omega
    have he := musicalEncode_decode _ hd
    have hf : intFits 4 false (musicalEncode a b c) = true := by
      rw [he]
      simp only [intFits, Bool.false_eq_true, if_false, decide_eq_true_eq]; omega
    obtain ⟨x, hx⟩ := intBuild_ok_iff.2 hf
    refine ⟨x, hx, fun r _ => ?_⟩
    rw [he] at hx
    simp [leafParse, intParse_intBuild hx, Except.map, hd]
  case log2.f64 x =>
    obtain ⟨k, h1, h2, h3, h4⟩ := h
    have hf : intFits 4 true k = true := by
      simp only [intFits, if_true, decide_eq_true_eq]; omega
    obtain ⟨y, hy⟩ := intBuild_ok_iff.2 hf
    exact ⟨y, by simp only [leafBuild, LV.toFloat, h1]; exact hy,
      fun r _ => by simp [leafParse, intParse_intBuild hy, h2]⟩
  case logNormal.f64 x =>
    obtain ⟨a, b, h1, h2⟩ := h
    have hr : (0 ≤ a ∧ a < 65536) ∧ (0 ≤ b ∧ b < 65536) := by
      unfold lnEncode at h1
      split at h1
      · cases h1; omega
      · split at h1
        · simp only [Option.some.injEq, Prod.mk.injEq] at h1; omega
        · cases h1
    have ha : intFits 2 false a = true := by
      simp only [intFits, Bool.false_eq_true, if_false, decide_eq_true_eq]; omega
    have hb : intFits 2 false b = true := by
      simp only [intFits, Bool.false_eq_true, if_false, decide_eq_true_eq]; omega
    obtain ⟨p, hp⟩ := intBuild_ok_iff.2 ha
    obtain ⟨q, hq⟩ := intBuild_ok_iff.2 hb
    have h3 : int2Build 2 a b = .ok (p ++ q) := by simp [int2Build, hp, hq]
    exact ⟨_, by simp only [leafBuild, LV.toFloat, h1]; exact h3,
      fun r _ => by simp only [leafParse, int2Parse_int2Build h3, h2]⟩

end PyFLP
