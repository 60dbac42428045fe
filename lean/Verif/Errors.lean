import Verif.RoundTrip
/-!
# The exceptions raised while decoding payloads

A decoder raises one of five exceptions.  `HeaderCorrupted` is raised by the header checks only, `VersionNotDetected` by
the choice of the text type only.
-/

namespace PyFLP

open Spec

/-- An exception that a payload decoder may raise. -/
def Exc.decoding : Exc → Prop
  | .streamError | .unicodeError | .valueError | .overflowError | .indexError => True
  | _ => False

/-- A computation that fails only with decoding errors. -/
structure Decodes {α : Type} (x : Py α) : Prop where
  out : ∀ e, x = .error e → e.decoding

theorem Decodes.ok {α : Type} (a : α) : Decodes (.ok a : Py α) := ⟨by intro e h; cases h⟩
theorem Decodes.err {α : Type} {e : Exc} (h : e.decoding) : Decodes (.error e : Py α) :=
  ⟨by intro e' h'; cases h'; exact h⟩
theorem Decodes.map {α β : Type} {x : Py α} (f : α → β) (h : Decodes x) : Decodes (x.map f) := by
  cases x with
  | ok a => exact .ok _
  | error e => exact .err (h.out e rfl)
theorem Decodes.of {α β : Type} {x : Py α} {e : Exc} (h : Decodes x) (hx : x = .error e) :
    Decodes (.error e : Py β) := .err (h.out e hx)

theorem intParse_dec (w s bs) : Decodes (intParse w s bs) := by
  unfold intParse; split
  · exact .err trivial
  · exact .ok _

theorem int2Parse_dec (w bs) : Decodes (int2Parse w bs) := by
  unfold int2Parse
  split
  · next h => exact (intParse_dec ..).of h
  · split
    · next h => exact (intParse_dec ..).of h
    · exact .ok _

theorem varParse_dec (bs) : Decodes (varParse bs) := by
  induction bs with
  | nil => exact .err trivial
  | cons b bs ih =>
    unfold varParse
    split
    · exact .ok _
    · split
      · next h => exact ih.of h
      · exact .ok _

theorem asciiDecode_dec (bs) : Decodes (asciiDecode bs) := by
  induction bs with
  | nil => exact .ok _
  | cons b bs ih =>
    unfold asciiDecode
    split
    · split
      · exact .ok _
      · next h => exact ih.of h
    · exact .err trivial

theorem utf16Decode_dec (bs) : Decodes (utf16Decode bs) := by
  fun_induction utf16Decode bs <;>
    first
      | exact .ok _
      | exact .err trivial
      | (next h ih => exact ih.of h)
      | (next ih _ => exact ih)

variable [FloatEnv]

theorem leafParse_dec (l bs) : Decodes (leafParse l bs) := by
  unfold leafParse
  split
  all_goals first
    | exact (intParse_dec ..).map _
    | exact (int2Parse_dec ..).map _
    | exact .ok _
    | skip
  · split
    · exact .err trivial
    · exact .ok _
  · split
    · exact .err trivial
    · exact .ok _
  · split
    · next h => exact (intParse_dec ..).of h
    · split
      · exact .ok _
      · exact .err trivial
  · split
    · next h => exact (intParse_dec ..).of h
    · split
      · exact .ok _
      · exact .err trivial
  · split
    · next h => exact (int2Parse_dec ..).of h
    · split
      · exact .ok _
      · exact .err trivial

theorem fldParse_dec (cx f bs) : Decodes (fldParse cx f bs) := by
  unfold fldParse
  split
  · exact (leafParse_dec ..).map _
  · split <;> exact .ok _
  · split
    · exact (leafParse_dec ..).map _
    · exact .ok _
  · split
    · exact (leafParse_dec ..).map _
    · exact .ok _

theorem structParse_dec (cx fs bs) : Decodes (structParse cx fs bs) := by
  induction fs generalizing bs with
  | nil => exact .ok _
  | cons nf fs ih =>
    obtain ⟨n, f⟩ := nf
    unfold structParse
    split
    · next h => exact (fldParse_dec ..).of h
    · split
      · next h => exact (ih _).of h
      · exact .ok _

theorem timesParse_dec (cx fs n bs) : Decodes (timesParse cx fs n bs) := by
  induction n generalizing bs with
  | zero => exact .ok _
  | succ n ih =>
    unfold timesParse
    split
    · next h => exact (structParse_dec ..).of h
    · split
      · next h => exact (ih _).of h
      · exact .ok _

theorem kindParse_dec (k : Kind) (bs) : Decodes (k.parse bs) := by
  unfold Kind.parse
  split
  · exact (int2Parse_dec ..).map _
  · split
    · exact .ok _
    · exact .err trivial
  · exact (asciiDecode_dec _).map _
  · exact (utf16Decode_dec _).map _
  · exact .ok _
  · exact (structParse_dec ..).map _
  · exact .ok _
  · exact .ok _
  · unfold autoParse
    split
    · next h => exact (structParse_dec ..).of h
    · split
      · next h => exact (intParse_dec ..).of h
      · split
        · next h => exact (timesParse_dec ..).of h
        · exact .ok _
  · unfold notebookParse
    split
    · exact .err trivial
    · split
      · next h => exact (intParse_dec ..).of h
      · split
        split
        · exact .err trivial
        · exact .ok _
  · unfold vstParse
    split
    · exact .err trivial
    · split
      · next h => exact (intParse_dec ..).of h
      · exact .ok _
  · split
    · exact (leafParse_dec ..).map _
    · next h => cases k <;> first | (cases h; done) | simp_all

omit [FloatEnv] in
theorem nextStrType_dec (st id value) : Decodes (nextStrType st id value) := by
  unfold nextStrType
  split
  · split
    · next h => exact (asciiDecode_dec _).of h
    · refine Decodes.map _ ?_
      unfold versionKind
      split
      · exact .err trivial
      · exact .ok _
  · exact .ok _

omit [FloatEnv] in
theorem readPayload_dec (id bs) : Decodes (readPayload id bs) := by
  unfold readPayload
  split
  · exact .ok _
  · split
    · exact .ok _
    · split
      · exact .ok _
      · split
        · next h => exact (varParse_dec _).of h
        · split
          · exact .err trivial
          · exact .ok _

omit [FloatEnv] in
theorem resolve_error {es st id e} (h : resolve es st id = .error e) :
    e = .versionNotDetected ∧ st.strType = none ∧ enumType es id = none ∧
      192 ≤ id ∧ (id < 208 ∨ id ∈ newTextIds) := by
  unfold resolve at h
  repeat' split at h
  all_goals first
    | (cases h; done)
    | skip
  next h1 _ _ h3 h4 _ h5 =>
    cases h
    exact ⟨rfl, h5, h1, by omega, h4⟩

theorem stepEvent_error {es st id value e} (h : stepEvent es st id value = .error e) :
    e ≠ .headerCorrupted := by
  unfold stepEvent at h
  split at h
  · next h1 =>
    cases h
    rintro rfl
    exact (nextStrType_dec _ _ _).out _ h1
  · split at h
    · next h2 =>
      cases h
      rw [(resolve_error h2).1]; simp
    · split at h
      · next h3 =>
        cases h
        unfold mkEvent at h3
        rintro rfl
        have hp : ∀ k : Kind, ∀ f : Value → Event, (k.parse value).map f ≠ .error .headerCorrupted := by
          intro k f he
          exact ((kindParse_dec k value).map f).out _ he
        split at h3
        · cases h3
        · split at h3
          · split at h3
            · cases h3
            · exact hp _ _ h3
          · exact hp _ _ h3
      · cases h

theorem parseLoop_error {es st bs e} (h : parseLoop es st bs = .error e) : e ≠ .headerCorrupted := by
  induction hn : bs.length using Nat.strongRecOn generalizing bs st with
  | ind n ih =>
    cases bs with
    | nil => rw [parseLoop_nil] at h; cases h
    | cons b rest =>
      rw [parseLoop_cons] at h
      split at h
      · next h1 =>
        cases h
        rintro rfl
        exact (readPayload_dec _ _).out _ h1
      · next v r h1 =>
        have hle := readPayload_le h1
        split at h
        · next h2 => cases h; exact stepEvent_error h2
        · split at h
          · next h3 =>
            cases h
            exact ih r.length (by rw [← hn]; simp; omega) h3 rfl
          · cases h

end PyFLP
