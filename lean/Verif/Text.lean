import Verif.Bytes
/-!
# Text encodings

`str.encode` / `bytes.decode` for `ascii`, `utf-16-le` and `utf8`
(strict error handling), as used by `c.GreedyString` and the version check.
-/

namespace PyFLP

/-- `bytes.decode("ascii")`. -/
def asciiDecode : Bytes → Py PStr
  | [] => .ok []
  | b :: bs =>
    if b.toNat < 128 then
      match asciiDecode bs with
      | .ok s => .ok (b.toNat :: s)
      | .error e => .error e
    else .error .unicodeError

/-- `str.encode("ascii")`. -/
def asciiEncode : PStr → Py Bytes
  | [] => .ok []
  | c :: cs =>
    if c < 128 then
      match asciiEncode cs with
      | .ok bs => .ok (UInt8.ofNat c :: bs)
      | .error e => .error e
    else .error .unicodeError

/-- One 16-bit unit, little endian. -/
def unit16 (n : Nat) : Bytes := [UInt8.ofNat (n % 256), UInt8.ofNat (n / 256)]

/-- The code point of a surrogate pair. -/
def pairCode (u v : Nat) : Nat := 0x10000 + (u - 0xD800) * 1024 + (v - 0xDC00)

/-- `bytes.decode("utf-16-le")`: 16-bit units, surrogate pairs combined, lone
surrogates and an odd trailing byte are errors. -/
def utf16Decode : Bytes → Py PStr
  | [] => .ok []
  | [_] => .error .unicodeError
  | a :: b :: rest =>
    let u := a.toNat + 256 * b.toNat
    if u < 0xD800 ∨ 0xDFFF < u then
      match utf16Decode rest with
      | .ok s => .ok (u :: s)
      | .error e => .error e
    else if u < 0xDC00 then
      match rest with
      | c :: d :: rest' =>
        let v := c.toNat + 256 * d.toNat
        if 0xDC00 ≤ v ∧ v ≤ 0xDFFF then
          match utf16Decode rest' with
          | .ok s => .ok (pairCode u v :: s)
          | .error e => .error e
        else .error .unicodeError
      | _ => .error .unicodeError
    else .error .unicodeError

/-- The UTF-16-LE bytes of one code point (`none`: surrogate or too large). -/
def utf16Char (c : Nat) : Option Bytes :=
  if c < 0xD800 ∨ (0xDFFF < c ∧ c < 0x10000) then some (unit16 c)
  else if 0x10000 ≤ c ∧ c < 0x110000 then
    some (unit16 (0xD800 + (c - 0x10000) / 1024) ++ unit16 (0xDC00 + (c - 0x10000) % 1024))
  else none

/-- `str.encode("utf-16-le")`: surrogate code points are errors. -/
def utf16Encode : PStr → Py Bytes
  | [] => .ok []
  | c :: cs =>
    match utf16Char c with
    | none => .error .unicodeError
    | some b =>
      match utf16Encode cs with
      | .ok bs => .ok (b ++ bs)
      | .error e => .error e

/-! ### ASCII -/

theorem asciiDecode_asciiEncode {s bs} (h : asciiEncode s = .ok bs) : asciiDecode bs = .ok s := by
  induction s generalizing bs with
  | nil => cases h; rfl
  | cons c cs ih =>
    unfold asciiEncode at h
    split at h
    · next hc =>
      split at h
      · next heq =>
        cases h
        unfold asciiDecode
        rw [u8_ofNat_toNat (by omega), if_pos hc, ih heq]
      · cases h
    · cases h

theorem asciiEncode_asciiDecode {s bs} (h : asciiDecode bs = .ok s) : asciiEncode s = .ok bs := by
  induction bs generalizing s with
  | nil => cases h; rfl
  | cons b bs ih =>
    unfold asciiDecode at h
    split at h
    · next hb =>
      split at h
      · next heq =>
        cases h
        unfold asciiEncode
        rw [if_pos hb, ih heq]
        simp
      · cases h
    · cases h

theorem asciiEncode_ok_iff {s : PStr} : (∃ bs, asciiEncode s = .ok bs) ↔ ∀ c ∈ s, c < 128 := by
  induction s with
  | nil => simp [asciiEncode]
  | cons c cs ih =>
    unfold asciiEncode
    constructor
    · intro ⟨bs, h⟩
      split at h
      · next hc =>
        split at h
        · next heq =>
          intro x hx
          rcases List.mem_cons.1 hx with e | e
          · subst e; exact hc
          · exact ih.1 ⟨_, heq⟩ x e
        · cases h
      · cases h
    · intro h
      obtain ⟨bs, hbs⟩ := ih.2 (fun x hx => h x (by simp [hx]))
      rw [if_pos (h c (by simp)), hbs]; exact ⟨_, rfl⟩

/-! ### UTF-16 -/

theorem unit16_decode {n : Nat} (h : n < 65536) :
    (UInt8.ofNat (n % 256)).toNat + 256 * (UInt8.ofNat (n / 256)).toNat = n := by
  rw [u8_ofNat_toNat (by omega), u8_ofNat_toNat (by omega)]; omega

theorem utf16Decode_char {c : Nat} {b : Bytes} (h : utf16Char c = some b) (rest : Bytes) :
    utf16Decode (b ++ rest) = match utf16Decode rest with
      | .ok s => .ok (c :: s)
      | .error e => .error e := by
  unfold utf16Char at h
  split at h
  · next hc =>
    cases h
    simp only [unit16, List.cons_append, List.nil_append]
    conv => lhs; unfold utf16Decode
    simp only [unit16_decode (show c < 65536 by omega)]
    rw [if_pos (by omega)]
  · split at h
    · next hc =>
      cases h
      have h1 : 0xD800 + (c - 0x10000) / 1024 < 65536 := by omega
      have h2 : 0xDC00 + (c - 0x10000) % 1024 < 65536 := by omega
      simp only [unit16, List.cons_append, List.nil_append]
      rw [utf16Decode.eq_3]
      simp only [unit16_decode h1, unit16_decode h2]
      rw [if_neg (by omega), if_pos (by omega), if_pos (by omega)]
      have : pairCode (0xD800 + (c - 0x10000) / 1024) (0xDC00 + (c - 0x10000) % 1024) = c := by
        unfold pairCode; omega
      rw [this]
    · cases h

theorem utf16Decode_utf16Encode {s bs} (h : utf16Encode s = .ok bs) : utf16Decode bs = .ok s := by
  induction s generalizing bs with
  | nil => cases h; rfl
  | cons c cs ih =>
    unfold utf16Encode at h
    split at h
    · cases h
    · next b hb =>
      split at h
      · next bs' heq => cases h; rw [utf16Decode_char hb, ih heq]
      · cases h

theorem unit16_of_bytes (a b : UInt8) : unit16 (a.toNat + 256 * b.toNat) = [a, b] := by
  have ha := u8_toNat_lt a
  have hb := u8_toNat_lt b
  unfold unit16
  congr 1
  · apply u8_eq_of_toNat; rw [u8_ofNat_toNat (by omega)]; omega
  · congr 1; apply u8_eq_of_toNat; rw [u8_ofNat_toNat (by omega)]; omega

theorem utf16Char_pair {u v : Nat} (h1 : 0xD800 ≤ u) (h2 : u < 0xDC00) (h3 : 0xDC00 ≤ v)
    (h4 : v ≤ 0xDFFF) : utf16Char (pairCode u v) = some (unit16 u ++ unit16 v) := by
  generalize hc : pairCode u v = c
  unfold pairCode at hc
  have e1 : 0xD800 + (c - 0x10000) / 1024 = u := by omega
  have e2 : 0xDC00 + (c - 0x10000) % 1024 = v := by omega
  unfold utf16Char
  rw [if_neg (by omega), if_pos (by omega), e1, e2]

theorem utf16Encode_cons {c : Nat} {b : Bytes} {cs : PStr} {bs : Bytes}
    (hc : utf16Char c = some b) (h : utf16Encode cs = .ok bs) :
    utf16Encode (c :: cs) = .ok (b ++ bs) := by
  simp [utf16Encode, hc, h]

theorem utf16Encode_utf16Decode {s bs} (h : utf16Decode bs = .ok s) : utf16Encode s = .ok bs := by
  generalize hn : bs.length = n
  induction n using Nat.strongRecOn generalizing bs s with
  | _ n ih =>
    match bs, h with
    | [], h => cases h; rfl
    | [_], h => cases h
    | a :: b :: rest, h =>
      have hu' := unit16_of_bytes a b
      have ha := u8_toNat_lt a
      have hb := u8_toNat_lt b
      have hub : a.toNat + 256 * b.toNat < 65536 := by omega
      unfold utf16Decode at h
      dsimp only at h
      generalize a.toNat + 256 * b.toNat = u at *
      split at h
      · next hu =>
        split at h
        · next s' heq =>
          have := ih rest.length (by simp at hn; omega) heq rfl
          cases h
          simp [utf16Encode, utf16Char, show u < 55296 ∨ 57343 < u ∧ u < 65536 by omega, this, hu']
        · cases h
      · split at h
        · split at h
          · next c d rest' =>
            have hv' := unit16_of_bytes c d
            generalize c.toNat + 256 * d.toNat = v at *
            split at h
            · next hv =>
              split at h
              · next s' heq =>
                have := ih rest'.length (by simp at hn; omega) heq rfl
                have hc := utf16Char_pair (u := u) (v := v) (by omega) (by omega) hv.1 hv.2
                rw [hu', hv'] at hc
                have h := Except.ok.inj h
                rw [← h]
                exact utf16Encode_cons hc this
              · cases h
            · cases h
          · cases h
        · cases h

/-- A string UTF-16 can represent: every code point is a Unicode scalar value. -/
def isScalar (c : Nat) : Prop := c < 0xD800 ∨ (0xDFFF < c ∧ c < 0x110000)

theorem utf16Encode_ok_iff {s : PStr} : (∃ bs, utf16Encode s = .ok bs) ↔ ∀ c ∈ s, isScalar c := by
  induction s with
  | nil => simp [utf16Encode]
  | cons c cs ih =>
    unfold utf16Encode
    constructor
    · intro ⟨bs, h⟩
      split at h
      · cases h
      · next b hb =>
        split at h
        · next heq =>
          intro x hx
          rcases List.mem_cons.1 hx with e | e
          · subst e
            unfold utf16Char at hb
            unfold isScalar
            split at hb
            · omega
            · split at hb
              · omega
              · cases hb
          · exact ih.1 ⟨_, heq⟩ x e
        · cases h
    · intro h
      obtain ⟨bs, hbs⟩ := ih.2 (fun x hx => h x (by simp [hx]))
      have hc : ∃ b, utf16Char c = some b := by
        have := h c (by simp)
        unfold isScalar at this
        unfold utf16Char
        split
        · exact ⟨_, rfl⟩
        · split
          · exact ⟨_, rfl⟩
          · omega
      obtain ⟨b, hb⟩ := hc
      rw [hb, hbs]; exact ⟨_, rfl⟩

theorem asciiEncode_append {s t a b} (hs : asciiEncode s = .ok a) (ht : asciiEncode t = .ok b) :
    asciiEncode (s ++ t) = .ok (a ++ b) := by
  induction s generalizing a with
  | nil => cases hs; simpa using ht
  | cons c cs ih =>
    simp only [List.cons_append]
    unfold asciiEncode at hs ⊢
    split at hs
    · next hc =>
      split at hs
      · next heq => cases hs; rw [if_pos hc, ih heq]; rfl
      · cases hs
    · cases hs

theorem utf16Encode_append {s t a b} (hs : utf16Encode s = .ok a) (ht : utf16Encode t = .ok b) :
    utf16Encode (s ++ t) = .ok (a ++ b) := by
  induction s generalizing a with
  | nil => cases hs; simpa using ht
  | cons c cs ih =>
    simp only [List.cons_append]
    unfold utf16Encode at hs ⊢
    split at hs
    · cases hs
    · next hc =>
      split at hs
      · next heq => cases hs; rw [ih heq]; simp
      · cases hs

end PyFLP
