import Verif.Py
/-!
# Little-endian integers, variable-length integers

`construct`'s `Int8ul … Int64ul`, `Int8sl … Int32sl` (`FormatField`), `VarInt`,
and `int.from_bytes(..., "little")`.
-/

namespace PyFLP

/-- `int.from_bytes(bs, "little")`. -/
def leNat : Bytes → Nat
  | [] => 0
  | b :: bs => b.toNat + 256 * leNat bs

/-- The low `w` bytes of `n`, least significant first (`int.to_bytes(w, "little")`
without the overflow check). -/
def leBytes : Nat → Nat → Bytes
  | 0, _ => []
  | w + 1, n => UInt8.ofNat (n % 256) :: leBytes w (n / 256)

/-- Two's complement reading of an unsigned `8*w`-bit value. -/
def toSigned (w n : Nat) : Int := if 2 * n < 256 ^ w then (n : Int) else (n : Int) - (256 ^ w : Nat)

/-- Whether `v` fits a `w`-byte integer (`struct`'s range check). -/
def intFits (w : Nat) (signed : Bool) (v : Int) : Bool :=
  if signed then decide (-(256 ^ w : Nat) ≤ 2 * v ∧ 2 * v < (256 ^ w : Nat))
  else decide (0 ≤ v ∧ v < (256 ^ w : Nat))

/-- Parse of `c.Int{8*w}{s,u}l`: reads exactly `w` bytes or raises `StreamError`. -/
def intParse (w : Nat) (signed : Bool) (bs : Bytes) : Py (Int × Bytes) :=
  if bs.length < w then .error .streamError
  else
    let n := leNat (bs.take w)
    .ok (if signed then toSigned w n else (n : Int), bs.drop w)

/-- Build of `c.Int{8*w}{s,u}l`: `FormatFieldError` when out of range. -/
def intBuild (w : Nat) (signed : Bool) (v : Int) : Py Bytes :=
  if intFits w signed v then .ok (leBytes w (v % (256 ^ w : Nat)).toNat)
  else .error .formatFieldError

/-- `c.VarInt` parse: 7-bit groups, least significant first, high bit = more.
`(num << 7) | (b & 0x7f)` is written with arithmetic on `Nat`. -/
def varParse : Bytes → Py (Nat × Bytes)
  | [] => .error .streamError
  | b :: bs =>
    if b.toNat < 128 then .ok (b.toNat, bs)
    else match varParse bs with
      | .error e => .error e
      | .ok (n, rest) => .ok (b.toNat % 128 + 128 * n, rest)

/-- `c.VarInt` build: `while x > 0x7f: write 0x80 | (x & 0x7f); x >>= 7`. -/
def varBuild (n : Nat) : Bytes :=
  if h : n < 128 then [UInt8.ofNat n]
  else UInt8.ofNat (128 + n % 128) :: varBuild (n / 128)
termination_by n
decreasing_by omega

/-! ### Lemmas -/

theorem u8_ofNat_toNat {n : Nat} (h : n < 256) : (UInt8.ofNat n).toNat = n := by
  simp [UInt8.toNat_ofNat']; omega

theorem u8_toNat_lt (b : UInt8) : b.toNat < 256 := by
  have := b.toNat_lt; omega

theorem u8_eq_of_toNat {a b : UInt8} (h : a.toNat = b.toNat) : a = b := UInt8.toNat_inj.1 h

@[simp] theorem leBytes_length (w n : Nat) : (leBytes w n).length = w := by
  induction w generalizing n with
  | zero => rfl
  | succ w ih => simp [leBytes, ih]

theorem leNat_lt (bs : Bytes) : leNat bs < 256 ^ bs.length := by
  induction bs with
  | nil => simp [leNat]
  | cons b bs ih =>
    have := u8_toNat_lt b
    simp only [leNat, List.length_cons, Nat.pow_succ]
    omega

theorem leNat_leBytes {w n : Nat} (h : n < 256 ^ w) : leNat (leBytes w n) = n := by
  induction w generalizing n with
  | zero => simp at h; simp [leBytes, leNat, h]
  | succ w ih =>
    simp only [leBytes, leNat]
    rw [u8_ofNat_toNat (by omega), ih (by rw [Nat.pow_succ] at h; omega)]
    omega

theorem leBytes_leNat (bs : Bytes) : leBytes bs.length (leNat bs) = bs := by
  induction bs with
  | nil => rfl
  | cons b bs ih =>
    have hb := u8_toNat_lt b
    simp only [List.length_cons, leBytes, leNat]
    congr 1
    · apply u8_eq_of_toNat
      rw [u8_ofNat_toNat (by omega)]; omega
    · rw [show (b.toNat + 256 * leNat bs) / 256 = leNat bs by omega, ih]

theorem leBytes_leNat' {w : Nat} {bs : Bytes} (h : bs.length = w) : leBytes w (leNat bs) = bs := by
  subst h; exact leBytes_leNat bs

theorem pow256_pos (w : Nat) : 0 < 256 ^ w := Nat.pow_pos (by omega)

theorem intBuild_length {w s v bs} (h : intBuild w s v = .ok bs) : bs.length = w := by
  unfold intBuild at h
  split at h
  · cases h; simp
  · cases h

/-- Reading back a stored integer, whatever follows it. -/
theorem intParse_intBuild {w s v bs} (h : intBuild w s v = .ok bs) (rest : Bytes) :
    intParse w s (bs ++ rest) = .ok (v, rest) := by
  have hlen := intBuild_length h
  unfold intBuild at h
  split at h
  · next hf =>
    cases h
    have hp := pow256_pos w
    unfold intParse
    simp only [List.length_append, leBytes_length]
    rw [if_neg (by omega)]
    rw [List.take_left' (by simp), List.drop_left' (by simp)]
    have hlt : (v % ((256 ^ w : Nat) : Int)).toNat < 256 ^ w := by
      have := Int.emod_lt_of_pos v (b := ((256 ^ w : Nat) : Int)) (by omega)
      have := Int.emod_nonneg v (b := ((256 ^ w : Nat) : Int)) (by omega)
      omega
    rw [leNat_leBytes hlt]
    congr 2
    unfold intFits at hf
    unfold toSigned
    generalize 256 ^ w = P at *
    cases s with
    | false =>
      simp at hf
      rw [if_neg (by simp)]
      rw [Int.emod_eq_of_lt hf.1 hf.2]; omega
    | true =>
      simp at hf
      rw [if_pos rfl]
      have hmod : v % (P : Int) = if 0 ≤ v then v else v + P := by
        split
        · exact Int.emod_eq_of_lt (by omega) (by omega)
        · rw [← Int.add_emod_right, Int.emod_eq_of_lt (by omega) (by omega)]
      rw [hmod]
      split <;> split <;> omega
  · cases h

theorem intParse_ok {w s bs v rest} (h : intParse w s bs = .ok (v, rest)) :
    ∃ pre, bs = pre ++ rest ∧ pre.length = w ∧
      v = if s then toSigned w (leNat pre) else (leNat pre : Int) := by
  unfold intParse at h
  split at h
  · cases h
  · cases h
    exact ⟨bs.take w, (List.take_append_drop w bs).symm, by simp; omega, by cases s <;> rfl⟩

theorem toSigned_emod {w n : Nat} (h : n < 256 ^ w) :
    (toSigned w n % ((256 ^ w : Nat) : Int)).toNat = n := by
  unfold toSigned
  generalize 256 ^ w = P at *
  split
  · rw [Int.emod_eq_of_lt (by omega) (by omega)]; omega
  · rw [← Int.add_emod_right, Int.emod_eq_of_lt (by omega) (by omega)]; omega

/-- An integer that was read can always be written, and to the same bytes. -/
theorem intBuild_intParse {w s bs v rest} (h : intParse w s bs = .ok (v, rest)) :
    ∃ pre, bs = pre ++ rest ∧ intBuild w s v = .ok pre := by
  obtain ⟨pre, hbs, hlen, hv⟩ := intParse_ok h
  refine ⟨pre, hbs, ?_⟩
  have hlt : leNat pre < 256 ^ w := hlen ▸ leNat_lt pre
  subst hv
  cases s with
  | false =>
    have hf : intFits w false (leNat pre : Int) = true := by
      simp only [intFits, Bool.false_eq_true, if_false, decide_eq_true_eq]; omega
    simp only [intBuild, Bool.false_eq_true, if_false, hf, if_true]
    rw [Int.emod_eq_of_lt (by omega) (by omega), Int.toNat_natCast, leBytes_leNat' hlen]
  | true =>
    have hf : intFits w true (toSigned w (leNat pre)) = true := by
      simp only [intFits, if_true, decide_eq_true_eq]
      unfold toSigned
      generalize 256 ^ w = P at *
      split <;> omega
    simp only [intBuild, if_true, hf]
    rw [toSigned_emod hlt, leBytes_leNat' hlen]

theorem intParse_short {w s bs} (h : bs.length < w) : intParse w s bs = .error .streamError := by
  simp [intParse, h]

theorem intBuild_ok_iff {w s v} : (∃ bs, intBuild w s v = .ok bs) ↔ intFits w s v = true := by
  unfold intBuild
  constructor
  · intro ⟨bs, h⟩; split at h
    · assumption
    · cases h
  · intro h; exact ⟨_, by rw [if_pos h]⟩

/-! ### VarInt -/

theorem varParse_varBuild (n : Nat) (rest : Bytes) :
    varParse (varBuild n ++ rest) = .ok (n, rest) := by
  induction n using Nat.strongRecOn with
  | _ n ih =>
    unfold varBuild
    split
    · next h =>
      simp only [List.cons_append, List.nil_append, varParse]
      rw [u8_ofNat_toNat (by omega), if_pos h]
    · next h =>
      simp only [List.cons_append, varParse]
      rw [u8_ofNat_toNat (by omega), if_neg (by omega), ih (n / 128) (by omega)]
      simp only
      congr 2; omega

theorem varBuild_ne_nil (n : Nat) : varBuild n ≠ [] := by
  unfold varBuild; split <;> simp

theorem varParse_consumes {bs n rest} (h : varParse bs = .ok (n, rest)) :
    ∃ pre, pre ≠ [] ∧ bs = pre ++ rest := by
  induction bs generalizing n rest with
  | nil => cases h
  | cons b bs ih =>
    unfold varParse at h
    split at h
    · cases h; exact ⟨[b], by simp, rfl⟩
    · split at h
      · cases h
      · next heq =>
        cases h
        obtain ⟨pre, _, hpre⟩ := ih heq
        exact ⟨b :: pre, by simp, by simp [hpre]⟩

theorem varParse_length {bs n rest} (h : varParse bs = .ok (n, rest)) : rest.length < bs.length := by
  obtain ⟨pre, hne, hbs⟩ := varParse_consumes h
  have : 0 < pre.length := List.length_pos_iff.2 hne
  simp [hbs]; omega

/-- Any prefix that `varParse` reads as `n` is at least as long as `varBuild n`. -/
theorem varBuild_minimal {pre rest : Bytes} {n : Nat}
    (h : varParse (pre ++ rest) = .ok (n, rest)) : (varBuild n).length ≤ pre.length := by
  induction pre generalizing n with
  | nil => have := varParse_length h; simp at this
  | cons b pre ih =>
    simp only [List.cons_append, varParse] at h
    split at h
    · next hb =>
      simp at h
      unfold varBuild; rw [dif_pos (by omega)]; simp
    · split at h
      · cases h
      · next m r heq =>
        simp at h
        obtain ⟨hn, hr⟩ := h
        subst hr
        have := ih heq
        unfold varBuild
        split
        · simp
        · have hm : n / 128 = m := by omega
          rw [hm]; simp; omega

theorem varParse_append {bs n rest} (h : varParse bs = .ok (n, rest)) (more : Bytes) :
    varParse (bs ++ more) = .ok (n, rest ++ more) := by
  induction bs generalizing n rest with
  | nil => cases h
  | cons b bs ih =>
    simp only [List.cons_append]
    unfold varParse at h ⊢
    split at h
    · next hb => cases h; rw [if_pos hb]
    · next hb =>
      rw [if_neg hb]
      split at h
      · cases h
      · next heq => cases h; rw [ih heq]

end PyFLP
