/-!
# Python values, exceptions and small built-ins

Python `int` is `Int`/`Nat`, `bytes` is `List UInt8`, `str` is a list of code
points.  Exceptions are values of `Exc`; a Python call that may raise has type
`Py α = Except Exc α`.
-/

namespace PyFLP

/-- The exception classes that can leave the modelled functions
(`pyflp/exceptions.py:44-88`, Python built-ins, and `construct`'s own errors).
Messages are not modelled. -/
inductive Exc
  /- pyflp/exceptions.py -/
  | headerCorrupted | versionNotDetected | eventIDOutOfRange | invalidEventChunkSize
  | propertyCannotBeSet | noModelsFound | modelNotFound | channelNotFound
  /- Python built-ins -/
  | keyError | indexError | valueError | typeError | attributeError | lookupError
  | overflowError | notImplementedError | unicodeError | structError
  /- construct: StreamError, FormatFieldError, StringError/PaddingError, ... -/
  | streamError | formatFieldError | constructError
  deriving DecidableEq, Repr

/-- A Python computation that returns or raises. -/
abbrev Py (α : Type) := Except Exc α

/-- `bytes` / `bytearray`. -/
abbrev Bytes := List UInt8

/-- `str`: a list of code points (Python strings may hold surrogates). -/
abbrev PStr := List Nat

/-- A Lean string literal as a Python `str`. -/
def PStr.lit (s : String) : PStr := s.toList.map Char.toNat

instance {ε α : Type} [DecidableEq ε] [DecidableEq α] : DecidableEq (Except ε α) := fun a b =>
  match a, b with
  | .ok x, .ok y => if h : x = y then isTrue (by rw [h]) else isFalse (by intro e; cases e; exact h rfl)
  | .error x, .error y => if h : x = y then isTrue (by rw [h]) else isFalse (by intro e; cases e; exact h rfl)
  | .ok _, .error _ => isFalse (by intro e; cases e)
  | .error _, .ok _ => isFalse (by intro e; cases e)

/-- `s.rstrip("\0")`: drops all trailing NULs. -/
def rstripNul : PStr → PStr
  | [] => []
  | c :: cs =>
    match rstripNul cs with
    | [] => if c = 0 then [] else [c]
    | d :: ds => c :: d :: ds

/-- `s.split(sep)` with a one-character separator: never empty. -/
def pySplit (sep : Nat) : PStr → List PStr
  | [] => [[]]
  | c :: cs =>
    if c = sep then [] :: pySplit sep cs
    else match pySplit sep cs with
      | [] => [[c]]
      | p :: ps => (c :: p) :: ps

/-- `sep.join(parts)` with a one-character separator. -/
def pyJoin (sep : Nat) : List PStr → PStr
  | [] => []
  | [p] => p
  | p :: q :: ps => p ++ sep :: pyJoin sep (q :: ps)

/-- C `isspace`, the whitespace `int(str)` strips from an ASCII string. -/
def isSpace (c : Nat) : Bool := c = 32 || (9 ≤ c && c ≤ 13)

/-- Leading whitespace removed. -/
def lstripSpace : PStr → PStr
  | [] => []
  | c :: cs => if isSpace c then lstripSpace cs else c :: cs

/-- ASCII decimal digit. -/
def isDigit (c : Nat) : Bool := 48 ≤ c && c ≤ 57

/-- Digits with single underscores between them, as accepted by `int(str)`.
`acc` is the value so far, `prev` whether the previous character was a digit. -/
def digitsVal (acc : Nat) (prev : Bool) : PStr → Option Nat
  | [] => if prev then some acc else none
  | c :: cs =>
    if isDigit c then digitsVal (acc * 10 + (c - 48)) true cs
    else if c = 95 ∧ prev then digitsVal acc false cs
    else none

/-- `int(s)` for an ASCII string: optional surrounding whitespace, optional
sign, digits with single underscores between.  `none` = `ValueError`.
Simplifications: non-ASCII digits and the 4300-digit limit are not modelled. -/
def pyInt (s : PStr) : Option Int :=
  let t := (lstripSpace (lstripSpace s).reverse).reverse
  match t with
  | 45 :: ds => (digitsVal 0 false ds).map fun (n : Nat) => -(n : Int)
  | 43 :: ds => (digitsVal 0 false ds).map fun (n : Nat) => (n : Int)
  | ds => (digitsVal 0 false ds).map fun (n : Nat) => (n : Int)

/-- Decimal digits of a natural number, least significant last. -/
def natRepr (n : Nat) : PStr :=
  if h : n < 10 then [48 + n] else natRepr (n / 10) ++ [48 + n % 10]
termination_by n
decreasing_by omega

/-- `str(i)` for an `int`. -/
def intRepr (i : Int) : PStr :=
  if i < 0 then 45 :: natRepr i.natAbs else natRepr i.natAbs

/-- Python sequence indexing `xs[pos]` with negative positions; `none` = `IndexError`. -/
def pyIndex {α : Type} (xs : List α) (pos : Int) : Option α :=
  if 0 ≤ pos then xs[pos.toNat]?
  else if 0 ≤ pos + xs.length then xs[(pos + xs.length).toNat]? else none

/-! ### Lemmas about the built-ins -/

theorem rstripNul_eq_self {s : PStr} (h : s.getLast? ≠ some 0) : rstripNul s = s := by
  induction s with
  | nil => rfl
  | cons c cs ih =>
    unfold rstripNul
    cases cs with
    | nil =>
      have : c ≠ 0 := by intro e; subst e; simp at h
      simp [rstripNul, this]
    | cons d ds =>
      have h' : (d :: ds).getLast? ≠ some 0 := by simpa [List.getLast?_cons_cons] using h
      rw [ih h']

theorem rstripNul_last (s : PStr) : (rstripNul s).getLast? ≠ some 0 := by
  induction s with
  | nil => simp [rstripNul]
  | cons c cs ih =>
    unfold rstripNul
    split
    · split <;> simp_all
    · next d ds heq => rw [heq] at ih; rw [List.getLast?_cons_cons]; exact ih

theorem rstripNul_append_nul (s : PStr) : rstripNul (s ++ [0]) = rstripNul s := by
  induction s with
  | nil => simp [rstripNul]
  | cons c cs ih =>
    simp only [List.cons_append, rstripNul]
    rw [ih]

theorem rstripNul_idem (s : PStr) : rstripNul (rstripNul s) = rstripNul s :=
  rstripNul_eq_self (rstripNul_last s)

/-- What `rstrip` removes is a run of NULs. -/
theorem rstripNul_append (s : PStr) : ∃ k, s = rstripNul s ++ List.replicate k 0 := by
  induction s with
  | nil => exact ⟨0, by simp [rstripNul]⟩
  | cons c cs ih =>
    obtain ⟨k, hk⟩ := ih
    unfold rstripNul
    split
    · next heq =>
      rw [heq] at hk
      split
      · next h0 => exact ⟨k + 1, by subst h0; rw [hk]; simp [List.replicate_succ]⟩
      · exact ⟨k, by rw [hk]; simp⟩
    · next d ds heq => rw [heq] at hk; exact ⟨k, by rw [hk]; simp⟩

theorem pySplit_ne_nil (sep : Nat) (s : PStr) : pySplit sep s ≠ [] := by
  cases s with
  | nil => simp [pySplit]
  | cons c cs =>
    unfold pySplit
    split
    · simp
    · split <;> simp

/-- Joining what was split gives the string back. -/
theorem pyJoin_pySplit (sep : Nat) (s : PStr) : pyJoin sep (pySplit sep s) = s := by
  induction s with
  | nil => simp [pySplit, pyJoin]
  | cons c cs ih =>
    unfold pySplit
    split
    · next h =>
      cases hs : pySplit sep cs with
      | nil => exact absurd hs (pySplit_ne_nil sep cs)
      | cons p ps => rw [hs] at ih; simp [pyJoin, ih, h]
    · cases hs : pySplit sep cs with
      | nil => exact absurd hs (pySplit_ne_nil sep cs)
      | cons p ps =>
        rw [hs] at ih
        cases ps with
        | nil => simp [pyJoin] at ih ⊢; exact ih
        | cons q qs => simp [pyJoin] at ih ⊢; exact ih

theorem pySplit_no_sep {sep : Nat} {p : PStr} (h : sep ∉ p) : pySplit sep p = [p] := by
  induction p with
  | nil => rfl
  | cons c cs ih =>
    have hc : c ≠ sep := by intro e; subst e; simp at h
    have : sep ∉ cs := fun hm => h (List.mem_cons_of_mem _ hm)
    simp [pySplit, hc, ih this]

theorem pySplit_append_sep {sep : Nat} {p : PStr} (h : sep ∉ p) (rest : PStr) :
    pySplit sep (p ++ sep :: rest) = p :: pySplit sep rest := by
  induction p with
  | nil => simp [pySplit]
  | cons c cs ih =>
    have hc : c ≠ sep := by intro e; subst e; simp at h
    have : sep ∉ cs := fun hm => h (List.mem_cons_of_mem _ hm)
    simp [pySplit, hc, ih this]

/-- Splitting what was joined gives the parts back, if no part holds the separator. -/
theorem pySplit_pyJoin {sep : Nat} {ps : List PStr} (hne : ps ≠ [])
    (h : ∀ p ∈ ps, sep ∉ p) : pySplit sep (pyJoin sep ps) = ps := by
  induction ps with
  | nil => exact absurd rfl hne
  | cons p ps ih =>
    cases ps with
    | nil => simp [pyJoin, pySplit_no_sep (h p (by simp))]
    | cons q qs =>
      simp only [pyJoin]
      rw [pySplit_append_sep (h p (by simp)), ih (by simp) (fun x hx => h x (by simp_all))]

/-! ### Decimal printing and reading -/

theorem natRepr_digits (n : Nat) : ∀ c ∈ natRepr n, 48 ≤ c ∧ c ≤ 57 := by
  induction n using Nat.strongRecOn with
  | _ n ih =>
    intro c hc
    unfold natRepr at hc
    split at hc
    · simp at hc; omega
    · rcases List.mem_append.1 hc with h | h
      · exact ih (n / 10) (by omega) c h
      · simp at h; omega

theorem natRepr_ne_nil (n : Nat) : natRepr n ≠ [] := by
  unfold natRepr
  split <;> simp

theorem digitsVal_append_digits {s : PStr} (hs : ∀ c ∈ s, 48 ≤ c ∧ c ≤ 57) :
    ∀ (acc : Nat) (prev : Bool) (t : PStr),
      digitsVal acc prev (s ++ t) =
        digitsVal (s.foldl (fun a c => a * 10 + (c - 48)) acc) (prev || !s.isEmpty) t := by
  induction s with
  | nil => simp
  | cons c cs ih =>
    intro acc prev t
    have hc := hs c (by simp)
    have : isDigit c = true := by simp [isDigit]; omega
    simp only [List.cons_append, digitsVal, this, if_true, List.foldl_cons]
    rw [ih (fun x hx => hs x (by simp [hx]))]
    simp

theorem natRepr_foldl (n : Nat) : (natRepr n).foldl (fun a c => a * 10 + (c - 48)) 0 = n := by
  induction n using Nat.strongRecOn with
  | _ n ih =>
    unfold natRepr
    split
    · simp
    · rw [List.foldl_append, ih (n / 10) (by omega)]; simp; omega

theorem digitsVal_natRepr (n : Nat) : digitsVal 0 false (natRepr n) = some n := by
  have := digitsVal_append_digits (natRepr_digits n) 0 false []
  rw [List.append_nil] at this
  rw [this, natRepr_foldl]
  have hne := natRepr_ne_nil n
  cases h : natRepr n with
  | nil => exact absurd h hne
  | cons c cs => simp [digitsVal]

theorem lstripSpace_cons {c : Nat} {cs : PStr} (h : isSpace c = false) :
    lstripSpace (c :: cs) = c :: cs := by simp [lstripSpace, h]

theorem strip_of_nospace {s : PStr} (h : ∀ c ∈ s, isSpace c = false) :
    (lstripSpace (lstripSpace s).reverse).reverse = s := by
  have h1 : ∀ t : PStr, (∀ c ∈ t, isSpace c = false) → lstripSpace t = t := by
    intro t ht
    cases t with
    | nil => rfl
    | cons c cs => exact lstripSpace_cons (ht c (by simp))
  rw [h1 s h, h1 s.reverse (fun c hc => h c (by simpa using hc)), List.reverse_reverse]

theorem digit_nospace {c : Nat} (h : 48 ≤ c ∧ c ≤ 57) : isSpace c = false := by
  simp [isSpace]; omega

theorem pyInt_natRepr (n : Nat) : pyInt (natRepr n) = some (n : Int) := by
  unfold pyInt
  rw [strip_of_nospace (fun c hc => digit_nospace (natRepr_digits n c hc))]
  have hv := digitsVal_natRepr n
  have hd := natRepr_digits n
  cases h : natRepr n with
  | nil => exact absurd h (natRepr_ne_nil n)
  | cons c cs =>
    rw [h] at hv hd
    have hc := hd c (by simp)
    dsimp only
    split
    · next heq => simp at heq; omega
    · next heq => simp at heq; omega
    · rw [hv]; rfl

/-- `int(str(i)) == i` for every integer. -/
theorem pyInt_intRepr (i : Int) : pyInt (intRepr i) = some i := by
  unfold intRepr
  split
  · next hneg =>
    unfold pyInt
    rw [strip_of_nospace (by
      intro c hc
      rcases List.mem_cons.1 hc with h | h
      · subst h; rfl
      · exact digit_nospace (natRepr_digits _ c h))]
    simp only [digitsVal_natRepr, Option.map_some]
    congr 1; omega
  · rw [pyInt_natRepr]; congr 1; omega

theorem natRepr_not_mem {c : Nat} (h : c < 48 ∨ 57 < c) (n : Nat) : c ∉ natRepr n := by
  intro hm
  have := natRepr_digits n c hm
  omega

end PyFLP
