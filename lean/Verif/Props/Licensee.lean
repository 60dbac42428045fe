import Verif.Props.ProjectValues
/-!
# Reading the licensee of any project (C106)
-/

namespace PyFLP

open Spec Heap

namespace Spec

instance (c : Nat) : Decidable (LetterOrDigit c) := by unfold LetterOrDigit; infer_instance

/-- The character that a stored character `c` at position `i` stands for: 26 is taken away, or 49 is added, whatever
gives a letter or digit; others stand for nothing. -/
def licenseChar (c i : Nat) : Option Nat :=
  if 26 ≤ c + i ∧ LetterOrDigit (c + i - 26) then some (c + i - 26)
  else if LetterOrDigit (c + i + 49) then some (c + i + 49)
  else none

/-- The text that a stored text stands for. -/
def licenseText (s : PStr) : PStr := s.zipIdx.filterMap fun x => licenseChar x.1 x.2

end Spec

section
variable [UniEnv]

/-- A stored character that can be read: its position plus its code is at least 26, and either number that is tried is
ASCII or does not matter. -/
theorem licChar_eq {c i : Nat} (h1 : 26 ≤ c + i) (h2 : c + i < 79 ∨ LetterOrDigit (c + i - 26)) :
    licChar c i = .ok (licenseChar c i) := by
  have e1 : (c : Int) - 26 + i = ((c + i - 26 : Nat) : Int) := by omega
  have e2 : (c : Int) + 49 + i = ((c + i + 49 : Nat) : Int) := by omega
  have ha : ∀ n, ¬ LetterOrDigit n → asciiAlnum n = false := by
    intro n hn
    rw [← asciiAlnum_iff] at hn
    simpa using hn
  by_cases hl : LetterOrDigit (c + i - 26)
  · have hlt : c + i - 26 < 128 := by unfold LetterOrDigit at hl; omega
    have hL : licenseChar c i = some (c + i - 26) := if_pos ⟨h1, hl⟩
    rw [hL]
    unfold licChar
    rw [e1, chrAlnum_small hlt, (asciiAlnum_iff _).2 hl]
    dsimp only
    rw [if_pos (by omega), Int.toNat_natCast]
  · have hc : c + i < 79 := by
      rcases h2 with h | h
      · exact h
      · exact absurd h hl
    have hL : licenseChar c i = if LetterOrDigit (c + i + 49) then some (c + i + 49) else none := if_neg fun g => hl g.2
    rw [hL]
    unfold licChar
    rw [e1, e2, chrAlnum_small (by omega : c + i - 26 < 128), ha _ hl]
    dsimp only
    rw [chrAlnum_small (by omega : c + i + 49 < 128)]
    by_cases hl2 : LetterOrDigit (c + i + 49)
    · rw [(asciiAlnum_iff _).2 hl2, if_pos hl2]
      dsimp only
      rw [if_pos (by omega), Int.toNat_natCast]
    · rw [ha _ hl2, if_neg hl2]

omit [UniEnv] in
theorem licenseChar_letter {c i n : Nat} (h : licenseChar c i = some n) : LetterOrDigit n := by
  unfold licenseChar at h
  split at h
  · next hh => cases h; exact hh.2
  · split at h
    · next hh => cases h; exact hh
    · cases h

theorem licDecode_eq (s : PStr) : ∀ i, (∀ j c, s[j]? = some c →
    26 ≤ c + (i + j) ∧ (c + (i + j) < 79 ∨ LetterOrDigit (c + (i + j) - 26))) →
    licDecode s i = .ok ((s.zipIdx i).filterMap fun x => licenseChar x.1 x.2) := by
  induction s with
  | nil => intro i _; rfl
  | cons c s ih =>
    intro i h
    have h0 := h 0 c (by simp)
    rw [Nat.add_zero] at h0
    have hrest := ih (i + 1) (fun j d hd => by
      have := h (j + 1) d (by simpa using hd)
      rw [show i + 1 + j = i + (j + 1) by omega]
      exact this)
    unfold licDecode
    rw [licChar_eq h0.1 h0.2]
    dsimp only
    rw [hrest, List.zipIdx_cons, List.filterMap_cons]
    dsimp only
    cases licenseChar c i <;> rfl

/-- C106, for stored texts in which each code plus position is at least 26, and below 79 unless the first number tried is
a letter or digit: the licensee is the text that the stored one stands for, and consists of letters and digits.  Without
a licensee event it is `None`. -/
theorem C106_licensee_partial {w : World} {L : Nat → Prop} (r : WReach w L) :
    ((∀ e ∈ w.project.events, e.id ≠ 200) → w.licensee = .ok none) ∧
    (∀ pre e post s, w.project.events = pre ++ e :: post → e.id = 200 → (∀ x ∈ pre, x.id ≠ 200) → e.value = .str s →
      (∀ j c, s[j]? = some c → 26 ≤ c + j ∧ (c + j < 79 ∨ LetterOrDigit (c + j - 26))) →
      w.licensee = .ok (some (licenseText s)) ∧ ∀ c ∈ licenseText s, LetterOrDigit c) := by
  constructor
  · intro hno
    rw [licensee_eq r]
    unfold valueOf
    rw [List.find?_eq_none.2 (fun x hx => by simpa using hno x hx)]
    rfl
  · intro pre e post s hev hid hpre hv hs
    have hval : valueOf w.project.events 200 = some (.str s) := by
      unfold valueOf
      rw [hev, List.find?_append, List.find?_eq_none.2 (fun x hx => by simpa using hpre x hx)]
      simp [hid, hv]
    have hletters : ∀ c ∈ licenseText s, LetterOrDigit c := by
      intro c hc
      obtain ⟨x, _, hx⟩ := List.mem_filterMap.1 hc
      exact licenseChar_letter hx
    refine ⟨?_, hletters⟩
    rw [licensee_eq r, hval]
    show (match licDecode s 0 with
      | .error e => (.error e : Py (Option PStr))
      | .ok bs => if bs.all (· < 128) then .ok (some bs) else .error .unicodeError) = _
    rw [licDecode_eq s 0 (fun j c hj => by rw [Nat.zero_add]; exact hs j c hj)]
    dsimp only
    rw [if_pos]
    · rfl
    · rw [List.all_eq_true]
      intro c hc
      have := hletters c hc
      unfold LetterOrDigit at this
      simp; omega

/-- C106 is false in general: whatever comes behind, a stored text whose first character has a code below 26 makes
reading the licensee raise `ValueError`. -/
theorem C106_licensee_refuted {w : World} {L : Nat → Prop} (r : WReach w L) {pre post : List Event} {e : Event} {c : Nat}
    {s : PStr} (hev : w.project.events = pre ++ e :: post) (hid : e.id = 200) (hpre : ∀ x ∈ pre, x.id ≠ 200)
    (hv : e.value = .str (c :: s)) (hc : c < 26) : w.licensee = .error .valueError := by
  have hval : valueOf w.project.events 200 = some (.str (c :: s)) := by
    unfold valueOf
    rw [hev, List.find?_append, List.find?_eq_none.2 (fun x hx => by simpa using hpre x hx)]
    simp [hid, hv]
  rw [licensee_eq r, hval]
  show (match licDecode (c :: s) 0 with
      | .error e => (.error e : Py (Option PStr))
      | .ok bs => if bs.all (· < 128) then .ok (some bs) else .error .unicodeError) = _
  unfold licDecode licChar chrAlnum
  rw [if_pos (by omega)]

/-- … and one that decodes to a Latin-1 letter makes it raise, too: `ÿ` (255) raises `UnicodeDecodeError`, everything
beyond `ValueError`, for a text of this one character. -/
theorem C106_latin_refuted {w : World} {L : Nat → Prop} (r : WReach w L) {pre post : List Event} {e : Event} {c : Nat}
    (hev : w.project.events = pre ++ e :: post) (hid : e.id = 200) (hpre : ∀ x ∈ pre, x.id ≠ 200)
    (hv : e.value = .str [c]) (h1 : 154 ≤ c) (h2 : c ≤ 0x10FFFF) (h3 : UniEnv.isAlnum (c - 26) = true) :
    w.licensee = .error (if c - 26 < 256 then .unicodeError else .valueError) := by
  have hval : valueOf w.project.events 200 = some (.str [c]) := by
    unfold valueOf
    rw [hev, List.find?_append, List.find?_eq_none.2 (fun x hx => by simpa using hpre x hx)]
    simp [hid, hv]
  rw [licensee_eq r, hval]
  show (match licDecode [c] 0 with
      | .error e => (.error e : Py (Option PStr))
      | .ok bs => if bs.all (· < 128) then .ok (some bs) else .error .unicodeError) = _
  have e1 : (c : Int) - 26 + (0 : Nat) = ((c - 26 : Nat) : Int) := by omega
  have ha : chrAlnum ((c - 26 : Nat) : Int) = .ok true := by
    unfold chrAlnum
    rw [if_neg (by omega), if_neg (by omega), Int.toNat_natCast, h3]
  unfold licDecode licChar
  rw [e1, ha]
  dsimp only
  by_cases h : c - 26 < 256
  · rw [if_pos h, if_pos (by omega), Int.toNat_natCast]
    have : ¬ (c - 26 < 128) := by omega
    simp [licDecode, this]
  · rw [if_neg h, if_neg (by omega)]

end

namespace Demo

/-- A project with a stored licensee. -/
def licensed (s : PStr) : Project := ⟨0, 0, 96, [⟨199, .ascii, .str (PStr.lit "20.8.3"), 7⟩, ⟨200, .ascii, .str s, s.length + 1⟩]⟩

end Demo

open Demo in
example [UniEnv] : (World.ofProject (licensed (PStr.lit "`/aa"))).licensee = .ok (some (PStr.lit "FaIJ")) ∧
    (∀ j c, (PStr.lit "`/aa")[j]? = some c → 26 ≤ c + j ∧ (c + j < 79 ∨ LetterOrDigit (c + j - 26))) ∧
    (World.ofProject (licensed [10, 97])).licensee = .error .valueError := by
  have hp : ∀ s, (World.ofProject (licensed s)).project.events =
      [⟨199, .ascii, .str (PStr.lit "20.8.3"), 7⟩] ++ ⟨200, .ascii, .str s, s.length + 1⟩ :: [] := by
    intro s
    rw [ofProject_project]
    rfl
  have hs : ∀ j c, (PStr.lit "`/aa")[j]? = some c → 26 ≤ c + j ∧ (c + j < 79 ∨ LetterOrDigit (c + j - 26)) := by
    intro j c hj
    match j, hj with
    | 0, hj => cases hj; decide
    | 1, hj => cases hj; decide
    | 2, hj => cases hj; decide
    | 3, hj => cases hj; decide
    | _ + 4, hj => cases hj
  refine ⟨?_, hs, ?_⟩
  · exact ((C106_licensee_partial (.parsed _)).2 _ _ _ _ (hp _) rfl (by simp) rfl hs).1
  · exact C106_licensee_refuted (.parsed _) (hp _) rfl (by simp) rfl (by decide)

end PyFLP
