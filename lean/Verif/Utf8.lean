import Verif.Text
/-!
# UTF-8 (strict), used by `c.GreedyString("utf8")` in the VST plugin event.
-/

namespace PyFLP

/-- A UTF-8 continuation byte `10xxxxxx`. -/
def isCont (b : UInt8) : Prop := 128 ≤ b.toNat ∧ b.toNat < 192

instance (b : UInt8) : Decidable (isCont b) := by unfold isCont; infer_instance

/-- Code point of a two/three/four byte sequence. -/
def code2 (a b : UInt8) : Nat := (a.toNat - 192) * 64 + (b.toNat - 128)
@[inherit_doc code2]
def code3 (a b c : UInt8) : Nat := (a.toNat - 224) * 4096 + (b.toNat - 128) * 64 + (c.toNat - 128)
@[inherit_doc code2]
def code4 (a b c d : UInt8) : Nat :=
  (a.toNat - 240) * 262144 + (b.toNat - 128) * 4096 + (c.toNat - 128) * 64 + (d.toNat - 128)

/-- The first character of a UTF-8 byte string and what follows it. -/
def utf8Head : Bytes → Option (Nat × Bytes)
  | [] => none
  | a :: r1 =>
    if a.toNat < 128 then some (a.toNat, r1)
    else if 194 ≤ a.toNat ∧ a.toNat < 224 then
      match r1 with
      | b :: r2 => if isCont b then some (code2 a b, r2) else none
      | _ => none
    else if 224 ≤ a.toNat ∧ a.toNat < 240 then
      match r1 with
      | b :: c :: r3 =>
        if isCont b ∧ isCont c ∧ 2048 ≤ code3 a b c ∧ (code3 a b c < 0xD800 ∨ 0xDFFF < code3 a b c)
        then some (code3 a b c, r3) else none
      | _ => none
    else if 240 ≤ a.toNat ∧ a.toNat < 248 then
      match r1 with
      | b :: c :: d :: r4 =>
        if isCont b ∧ isCont c ∧ isCont d ∧ 65536 ≤ code4 a b c d ∧ code4 a b c d < 0x110000
        then some (code4 a b c d, r4) else none
      | _ => none
    else none

theorem utf8Head_length {bs c rest} (h : utf8Head bs = some (c, rest)) : rest.length < bs.length := by
  unfold utf8Head at h
  split at h
  · cases h
  · split at h
    · (simp only [Option.some.injEq, Prod.mk.injEq] at h; obtain ⟨-, rfl⟩ := h; simp)
    · split at h
      · split at h
        · split at h
          · (simp only [Option.some.injEq, Prod.mk.injEq] at h; obtain ⟨-, rfl⟩ := h; simp; omega)
          · cases h
        · cases h
      · split at h
        · split at h
          · split at h
            · (simp only [Option.some.injEq, Prod.mk.injEq] at h; obtain ⟨-, rfl⟩ := h; simp; omega)
            · cases h
          · cases h
        · split at h
          · split at h
            · split at h
              · (simp only [Option.some.injEq, Prod.mk.injEq] at h; obtain ⟨-, rfl⟩ := h; simp; omega)
              · cases h
            · cases h
          · cases h

/-- `bytes.decode("utf8")`. -/
def utf8Decode (bs : Bytes) : Py PStr :=
  if bs = [] then .ok []
  else match _h : utf8Head bs with
    | none => .error .unicodeError
    | some (c, rest) =>
      match utf8Decode rest with
      | .ok s => .ok (c :: s)
      | .error e => .error e
termination_by bs.length
decreasing_by exact utf8Head_length _h

/-- The UTF-8 bytes of one code point; `none`: surrogate or too large. -/
def utf8Char (c : Nat) : Option Bytes :=
  if c < 128 then some [UInt8.ofNat c]
  else if c < 2048 then some [UInt8.ofNat (192 + c / 64), UInt8.ofNat (128 + c % 64)]
  else if c < 0xD800 ∨ (0xDFFF < c ∧ c < 65536) then
    some [UInt8.ofNat (224 + c / 4096), UInt8.ofNat (128 + c / 64 % 64), UInt8.ofNat (128 + c % 64)]
  else if 65536 ≤ c ∧ c < 0x110000 then
    some [UInt8.ofNat (240 + c / 262144), UInt8.ofNat (128 + c / 4096 % 64),
      UInt8.ofNat (128 + c / 64 % 64), UInt8.ofNat (128 + c % 64)]
  else none

/-- `str.encode("utf8")`. -/
def utf8Encode : PStr → Py Bytes
  | [] => .ok []
  | c :: cs =>
    match utf8Char c with
    | none => .error .unicodeError
    | some b =>
      match utf8Encode cs with
      | .ok bs => .ok (b ++ bs)
      | .error e => .error e

theorem utf8Head_char {c : Nat} {b : Bytes} (h : utf8Char c = some b) (rest : Bytes) :
    utf8Head (b ++ rest) = some (c, rest) := by
  unfold utf8Char at h
  split at h
  · next hc =>
    have h := Option.some.inj h; subst h
    simp only [List.cons_append, List.nil_append, utf8Head, u8_ofNat_toNat (show c < 256 by omega),
      if_pos hc]
  · split at h
    · next hc1 hc2 =>
      have h := Option.some.inj h; subst h
      have e1 := u8_ofNat_toNat (show 192 + c / 64 < 256 by omega)
      have e2 := u8_ofNat_toNat (show 128 + c % 64 < 256 by omega)
      have ec : code2 (UInt8.ofNat (192 + c / 64)) (UInt8.ofNat (128 + c % 64)) = c := by
        unfold code2; rw [e1, e2]; omega
      simp only [List.cons_append, List.nil_append, utf8Head, isCont, e1, e2, ec]
      rw [if_neg (by omega), if_pos (by omega), if_pos (by omega)]
    · split at h
      · next hc1 hc2 hc3 =>
        have h := Option.some.inj h; subst h
        have e1 := u8_ofNat_toNat (show 224 + c / 4096 < 256 by omega)
        have e2 := u8_ofNat_toNat (show 128 + c / 64 % 64 < 256 by omega)
        have e3 := u8_ofNat_toNat (show 128 + c % 64 < 256 by omega)
        have ec : code3 (UInt8.ofNat (224 + c / 4096)) (UInt8.ofNat (128 + c / 64 % 64))
            (UInt8.ofNat (128 + c % 64)) = c := by
          unfold code3; rw [e1, e2, e3]; omega
        simp only [List.cons_append, List.nil_append, utf8Head, isCont, e1, e2, e3, ec]
        rw [if_neg (by omega), if_neg (by omega), if_pos (by omega), if_pos (by omega)]
      · split at h
        · next hc1 hc2 hc3 hc4 =>
          have h := Option.some.inj h; subst h
          have e1 := u8_ofNat_toNat (show 240 + c / 262144 < 256 by omega)
          have e2 := u8_ofNat_toNat (show 128 + c / 4096 % 64 < 256 by omega)
          have e3 := u8_ofNat_toNat (show 128 + c / 64 % 64 < 256 by omega)
          have e4 := u8_ofNat_toNat (show 128 + c % 64 < 256 by omega)
          have ec : code4 (UInt8.ofNat (240 + c / 262144)) (UInt8.ofNat (128 + c / 4096 % 64))
              (UInt8.ofNat (128 + c / 64 % 64)) (UInt8.ofNat (128 + c % 64)) = c := by
            unfold code4; rw [e1, e2, e3, e4]; omega
          simp only [List.cons_append, List.nil_append, utf8Head, isCont, e1, e2, e3, e4, ec]
          rw [if_neg (by omega), if_neg (by omega), if_neg (by omega), if_pos (by omega),
            if_pos (by omega)]
        · cases h

theorem utf8Char_ne_nil {c b} (h : utf8Char c = some b) : b ≠ [] := by
  unfold utf8Char at h
  repeat' split at h
  all_goals first | (have h := Option.some.inj h; subst h; simp; done) | cases h

theorem utf8Decode_cons {bs c rest} (h : utf8Head bs = some (c, rest)) :
    utf8Decode bs = match utf8Decode rest with
      | .ok s => .ok (c :: s)
      | .error e => .error e := by
  rw [utf8Decode]
  rw [if_neg (by intro e; subst e; cases h)]
  split
  · next h' => rw [h] at h'; cases h'
  · next h' =>
    rw [h] at h'
    have := Option.some.inj h'
    have e1 := congrArg Prod.fst this
    have e2 := congrArg Prod.snd this
    simp only at e1 e2
    subst e1 e2; rfl

theorem utf8Decode_utf8Encode {s bs} (h : utf8Encode s = .ok bs) : utf8Decode bs = .ok s := by
  induction s generalizing bs with
  | nil => cases h; rw [utf8Decode]; simp
  | cons c cs ih =>
    unfold utf8Encode at h
    split at h
    · cases h
    · next b hb =>
      split at h
      · next bs' heq =>
        have h := Except.ok.inj h; subst h
        rw [utf8Decode_cons (utf8Head_char hb bs'), ih heq]
      · cases h

theorem utf8Char_head {bs c rest} (h : utf8Head bs = some (c, rest)) :
    ∃ b, utf8Char c = some b ∧ bs = b ++ rest := by
  unfold utf8Head at h
  split at h
  · cases h
  · next a r1 =>
    have ha := u8_toNat_lt a
    split at h
    · next h1 =>
      simp only [Option.some.injEq, Prod.mk.injEq] at h
      obtain ⟨rfl, rfl⟩ := h
      exact ⟨[a], by unfold utf8Char; rw [if_pos h1]; simp, rfl⟩
    · split at h
      · split at h
        · next b r2 =>
          split at h
          · next hb =>
            simp only [Option.some.injEq, Prod.mk.injEq] at h
            obtain ⟨hc, rfl⟩ := h
            unfold isCont at hb
            unfold code2 at hc
            refine ⟨[a, b], ?_, rfl⟩
            unfold utf8Char
            rw [if_neg (by omega), if_pos (by omega)]
            have e0 : UInt8.ofNat (192 + c / 64) = a := u8_eq_of_toNat (by rw [u8_ofNat_toNat (by omega)]; omega)
            have e1 : UInt8.ofNat (128 + c % 64) = b := u8_eq_of_toNat (by rw [u8_ofNat_toNat (by omega)]; omega)
            rw [e0, e1]
          · cases h
        · cases h
      · split at h
        · split at h
          · next b c' r3 =>
            split at h
            · next hb =>
              simp only [Option.some.injEq, Prod.mk.injEq] at h
              obtain ⟨hc, rfl⟩ := h
              rw [hc] at hb
              unfold isCont at hb
              unfold code3 at hc
              refine ⟨[a, b, c'], ?_, rfl⟩
              unfold utf8Char
              rw [if_neg (by omega), if_neg (by omega), if_pos (by omega)]
              have e0 : UInt8.ofNat (224 + c / 4096) = a := u8_eq_of_toNat (by rw [u8_ofNat_toNat (by omega)]; omega)
              have e1 : UInt8.ofNat (128 + c / 64 % 64) = b := u8_eq_of_toNat (by rw [u8_ofNat_toNat (by omega)]; omega)
              have e2 : UInt8.ofNat (128 + c % 64) = c' := u8_eq_of_toNat (by rw [u8_ofNat_toNat (by omega)]; omega)
              rw [e0, e1, e2]
            · cases h
          · cases h
        · split at h
          · split at h
            · next b c' d r4 =>
              split at h
              · next hb =>
                simp only [Option.some.injEq, Prod.mk.injEq] at h
                obtain ⟨hc, rfl⟩ := h
                rw [hc] at hb
                unfold isCont at hb
                unfold code4 at hc
                refine ⟨[a, b, c', d], ?_, rfl⟩
                unfold utf8Char
                rw [if_neg (by omega), if_neg (by omega), if_neg (by omega), if_pos (by omega)]
                have e0 : UInt8.ofNat (240 + c / 262144) = a := u8_eq_of_toNat (by rw [u8_ofNat_toNat (by omega)]; omega)
                have e1 : UInt8.ofNat (128 + c / 4096 % 64) = b := u8_eq_of_toNat (by rw [u8_ofNat_toNat (by omega)]; omega)
                have e2 : UInt8.ofNat (128 + c / 64 % 64) = c' := u8_eq_of_toNat (by rw [u8_ofNat_toNat (by omega)]; omega)
                have e3 : UInt8.ofNat (128 + c % 64) = d := u8_eq_of_toNat (by rw [u8_ofNat_toNat (by omega)]; omega)
                rw [e0, e1, e2, e3]
              · cases h
            · cases h
          · cases h

theorem utf8Encode_cons {c : Nat} {b : Bytes} {cs : PStr} {bs : Bytes}
    (hc : utf8Char c = some b) (h : utf8Encode cs = .ok bs) :
    utf8Encode (c :: cs) = .ok (b ++ bs) := by
  simp [utf8Encode, hc, h]

theorem utf8Encode_utf8Decode {s bs} (h : utf8Decode bs = .ok s) : utf8Encode s = .ok bs := by
  generalize hn : bs.length = n
  induction n using Nat.strongRecOn generalizing bs s with
  | _ n ih =>
    rw [utf8Decode] at h
    split at h
    · next h0 => cases h; subst h0; rfl
    · split at h
      · cases h
      · next c rest hh =>
        obtain ⟨b, hb, rfl⟩ := utf8Char_head hh
        split at h
        · next s' heq =>
          have hl := utf8Head_length hh
          have := ih rest.length (by omega) heq rfl
          have h := Except.ok.inj h
          rw [← h]
          exact utf8Encode_cons hb this
        · cases h

end PyFLP
