import Verif.Props.Licensee
/-!
# What happens in every case: the licensee
-/

namespace PyFLP

open Spec Heap

section
variable [UniEnv]

namespace Spec

/-- `chr(n).isalnum()`; what Python says about characters outside ASCII is not modelled. -/
def Alnum (n : Nat) : Prop := if n < 128 then LetterOrDigit n else UniEnv.isAlnum n = true

instance (n : Nat) : Decidable (Alnum n) := by unfold Alnum; infer_instance

/-- The number that a stored character `c` at position `i` stands for, if any: 26 is taken away, or 49 is added. -/
def licenseNumber (c i : Nat) : Option Nat :=
  if Alnum (c + i - 26) then some (c + i - 26) else if Alnum (c + i + 49) then some (c + i + 49) else none

/-- The stored character `c` at position `i` cannot be read: taking 26 away gives no code point, or it stands for a letter
or digit which is not in Latin-1, or adding 49, if it comes to that, gives no code point. -/
def Unreadable (c i : Nat) : Prop :=
  c + i < 26 ∨ 0x10FFFF < c + i - 26 ∨ (¬ Alnum (c + i - 26) ∧ 0x10FFFF < c + i + 49) ∨
    ∃ n, licenseNumber c i = some n ∧ 256 ≤ n

instance (c i : Nat) : Decidable (Unreadable c i) := by
  unfold Unreadable
  cases h : licenseNumber c i with
  | none => exact decidable_of_iff (c + i < 26 ∨ 0x10FFFF < c + i - 26 ∨ (¬ Alnum (c + i - 26) ∧ 0x10FFFF < c + i + 49)) (by simp)
  | some n =>
    exact decidable_of_iff (c + i < 26 ∨ 0x10FFFF < c + i - 26 ∨ (¬ Alnum (c + i - 26) ∧ 0x10FFFF < c + i + 49) ∨ 256 ≤ n)
      (by simp)

/-- The numbers that a stored text stands for. -/
def licenseNumbers (s : PStr) : List Nat := s.zipIdx.filterMap fun x => licenseNumber x.1 x.2

end Spec

theorem chrAlnum_eq (n : Nat) : chrAlnum (n : Int) = if 0x10FFFF < n then .error .valueError else .ok (decide (Alnum n)) := by
  unfold chrAlnum Alnum
  by_cases h : 0x10FFFF < n
  · rw [if_pos (by omega), if_pos h]
  · rw [if_neg (by omega), if_neg h]
    by_cases h1 : n < 128
    · rw [if_pos (by omega), Int.toNat_natCast]
      have := asciiAlnum_iff n
      by_cases h2 : LetterOrDigit n
      · simp [h1, h2, this.2 h2]
      · simp [h1, h2]
        exact Bool.eq_false_iff.2 fun g => h2 (this.1 g)
    · rw [if_neg (by omega), Int.toNat_natCast]
      simp [h1]

theorem licChar_exact (c i : Nat) :
    licChar c i = if Unreadable c i then .error .valueError else .ok (licenseNumber c i) := by
  by_cases h0 : c + i < 26
  · rw [if_pos (show Unreadable c i from Or.inl h0)]
    unfold licChar chrAlnum
    rw [if_pos (by omega)]
  have e1 : (c : Int) - 26 + i = ((c + i - 26 : Nat) : Int) := by omega
  have e2 : (c : Int) + 49 + i = ((c + i + 49 : Nat) : Int) := by omega
  unfold licChar
  rw [e1, e2, chrAlnum_eq, chrAlnum_eq]
  by_cases h1 : 0x10FFFF < c + i - 26
  · rw [if_pos h1, if_pos (show Unreadable c i from Or.inr (Or.inl h1))]
  rw [if_neg h1]
  by_cases ha : Alnum (c + i - 26)
  · have hn : licenseNumber c i = some (c + i - 26) := if_pos ha
    rw [decide_eq_true ha]
    dsimp only
    by_cases h2 : c + i - 26 < 256
    · rw [if_pos (by omega), if_neg, hn, Int.toNat_natCast]
      rintro (g | g | ⟨g, _⟩ | ⟨n, g, hg⟩)
      · exact h0 g
      · exact h1 g
      · exact g ha
      · rw [hn] at g; cases g; omega
    · rw [if_neg (by omega), if_pos]
      exact Or.inr (Or.inr (Or.inr ⟨_, hn, by omega⟩))
  · rw [decide_eq_false ha]
    dsimp only
    by_cases h3 : 0x10FFFF < c + i + 49
    · rw [if_pos h3, if_pos (show Unreadable c i from Or.inr (Or.inr (Or.inl ⟨ha, h3⟩)))]
    rw [if_neg h3]
    have hn : licenseNumber c i = if Alnum (c + i + 49) then some (c + i + 49) else none := if_neg ha
    by_cases hb : Alnum (c + i + 49)
    · rw [if_pos hb] at hn
      rw [decide_eq_true hb]
      dsimp only
      by_cases h2 : c + i + 49 < 256
      · rw [if_pos (by omega), if_neg, hn, Int.toNat_natCast]
        rintro (g | g | ⟨_, g⟩ | ⟨n, g, hg⟩)
        · exact h0 g
        · exact h1 g
        · exact h3 g
        · rw [hn] at g; cases g; omega
      · rw [if_neg (by omega), if_pos]
        exact Or.inr (Or.inr (Or.inr ⟨_, hn, by omega⟩))
    · rw [if_neg hb] at hn
      rw [decide_eq_false hb]
      dsimp only
      rw [if_neg, hn]
      rintro (g | g | ⟨_, g⟩ | ⟨n, g, hg⟩)
      · exact h0 g
      · exact h1 g
      · exact h3 g
      · rw [hn] at g; cases g

theorem licDecode_exact (s : PStr) : ∀ i,
    ((∃ x ∈ s.zipIdx i, Unreadable x.1 x.2) → licDecode s i = .error .valueError) ∧
    ((∀ x ∈ s.zipIdx i, ¬ Unreadable x.1 x.2) →
      licDecode s i = .ok ((s.zipIdx i).filterMap fun x => licenseNumber x.1 x.2)) := by
  induction s with
  | nil => intro i; exact ⟨by rintro ⟨x, hx, _⟩; simp at hx, fun _ => rfl⟩
  | cons c s ih =>
    intro i
    rw [List.zipIdx_cons]
    constructor
    · rintro ⟨x, hx, hu⟩
      unfold licDecode
      rw [licChar_exact]
      by_cases hc : Unreadable c i
      · rw [if_pos hc]
      · rw [if_neg hc]
        dsimp only
        rcases List.mem_cons.1 hx with h | h
        · subst h; exact absurd hu hc
        · rw [(ih (i + 1)).1 ⟨x, h, hu⟩]
    · intro h
      unfold licDecode
      rw [licChar_exact, if_neg (h (c, i) (List.mem_cons_self ..))]
      dsimp only
      rw [(ih (i + 1)).2 fun x hx => h x (List.mem_cons_of_mem _ hx), List.filterMap_cons]
      dsimp only
      cases licenseNumber c i <;> rfl

/-- C106 in every case: without a licensee event the licensee is `None`; if a character of the stored text cannot be read,
`ValueError` is raised; if all can, but one stands for a character outside ASCII, `UnicodeDecodeError`; otherwise the
licensee consists of what the characters stand for. -/
theorem C106_exact {w : World} {L : Nat → Prop} (r : WReach w L) :
    ((∀ e ∈ w.project.events, e.id ≠ 200) → w.licensee = .ok none) ∧
    ∀ pre e post s, w.project.events = pre ++ e :: post → e.id = 200 → (∀ x ∈ pre, x.id ≠ 200) → e.value = .str s →
      ((∃ i c, s[i]? = some c ∧ Unreadable c i) → w.licensee = .error .valueError) ∧
      ((∀ i c, s[i]? = some c → ¬ Unreadable c i) →
        ((∃ n ∈ licenseNumbers s, 128 ≤ n) → w.licensee = .error .unicodeError) ∧
        ((∀ n ∈ licenseNumbers s, n < 128) → w.licensee = .ok (some (licenseNumbers s)))) := by
  refine ⟨(C106_licensee_partial r).1, fun pre e post s hev hid hpre hv => ?_⟩
  have hval : valueOf w.project.events 200 = some (.str s) := by
    unfold valueOf
    rw [hev, List.find?_append, List.find?_eq_none.2 (fun x hx => by simpa using hpre x hx)]
    simp [hid, hv]
  have hl : w.licensee = (match licDecode s 0 with
      | .error e => (.error e : Py (Option PStr))
      | .ok bs => if bs.all (· < 128) then .ok (some bs) else .error .unicodeError) := by
    rw [licensee_eq r, hval]
    rfl
  constructor
  · rintro ⟨i, c, hi, hu⟩
    rw [hl, (licDecode_exact s 0).1 ⟨(c, i), ?_, hu⟩]
    exact List.mem_iff_getElem?.2 ⟨i, by rw [List.getElem?_zipIdx, hi]; simp⟩
  · intro hall
    have h2 := (licDecode_exact s 0).2 (by
      intro x hx hu
      obtain ⟨i, hi⟩ := List.mem_iff_getElem?.1 hx
      rw [List.getElem?_zipIdx] at hi
      cases hc : s[i]? with
      | none => rw [hc] at hi; cases hi
      | some c =>
        rw [hc] at hi
        simp only [Option.map_some, Option.some.injEq, Nat.zero_add] at hi
        subst hi
        exact hall i c hc hu)
    rw [h2] at hl
    dsimp only at hl
    constructor
    · rintro ⟨n, hn, h128⟩
      rw [hl, if_neg]
      intro g
      have := List.all_eq_true.1 g n hn
      simp at this; omega
    · intro hn
      rw [hl, if_pos]
      · rfl
      · exact List.all_eq_true.2 fun n h => by simpa using hn n h

/-- Each case of `C106_exact` occurs. -/
example : (∀ i c, (PStr.lit "`/aa")[i]? = some c → ¬ Unreadable c i) ∧ licenseNumbers (PStr.lit "`/aa") = PStr.lit "FaIJ" ∧
    Unreadable 10 0 ∧ (UniEnv.isAlnum 0xE9 = true → licenseNumber 0x103 0 = some 0xE9 ∧ ¬ Unreadable 0x103 0) := by
  have hs : ∀ n, n < 128 → (Alnum n ↔ LetterOrDigit n) := fun n hn => by unfold Alnum; rw [if_pos hn]
  have hl : ∀ c i, c + i + 49 < 177 → LetterOrDigit (c + i - 26) → licenseNumber c i = some (c + i - 26) := by
    intro c i hc h
    unfold licenseNumber
    rw [if_pos ((hs _ (by omega)).2 h)]
  have hl2 : ∀ c i, c + i + 49 < 128 → ¬ LetterOrDigit (c + i - 26) → LetterOrDigit (c + i + 49) →
      licenseNumber c i = some (c + i + 49) := by
    intro c i hc h h'
    unfold licenseNumber
    rw [if_neg fun g => h ((hs _ (by omega)).1 g), if_pos ((hs _ (by omega)).2 h')]
  have n0 := hl 96 0 (by decide) (by decide)
  have n1 := hl2 47 1 (by decide) (by decide) (by decide)
  have n2 := hl 97 2 (by decide) (by decide)
  have n3 := hl 97 3 (by decide) (by decide)
  have ok : ∀ c i n, licenseNumber c i = some n → n < 256 → 26 ≤ c + i → c + i < 1000 → ¬ Unreadable c i := by
    intro c i n h h1 h2 h3
    rintro (g | g | ⟨_, g⟩ | ⟨m, g, hg⟩)
    · omega
    · omega
    · omega
    · rw [h] at g; cases g; omega
  refine ⟨?_, ?_, Or.inl (by decide), fun h => ?_⟩
  · intro i c hi
    match i, hi with
    | 0, hi => cases hi; exact ok _ _ _ n0 (by decide) (by decide) (by decide)
    | 1, hi => cases hi; exact ok _ _ _ n1 (by decide) (by decide) (by decide)
    | 2, hi => cases hi; exact ok _ _ _ n2 (by decide) (by decide) (by decide)
    | 3, hi => cases hi; exact ok _ _ _ n3 (by decide) (by decide) (by decide)
    | i + 4, hi => cases hi
  · show [(96, 0), (47, 1), (97, 2), (97, 3)].filterMap (fun x : Nat × Nat => licenseNumber x.1 x.2) = _
    simp only [List.filterMap_cons, n0, n1, n2, n3, List.filterMap_nil]
    decide
  · have n4 : licenseNumber 0x103 0 = some 0xE9 := by
      unfold licenseNumber
      rw [if_pos]
      unfold Alnum
      rw [if_neg (by decide)]
      exact h
    exact ⟨n4, ok _ _ _ n4 (by decide) (by decide) (by decide)⟩

end

end PyFLP
