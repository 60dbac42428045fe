import Verif.Props.Warnings
/-!
# C152: what has to be caught when a file is opened

`pyflp.exceptions.Error` is "not guaranteed" to be the base of everything PyFLP raises (`exceptions.py:36`).  The theorems
say which exceptions `pyflp.parse` raises for some content of a file, no more and no less, and which `except` clauses are
therefore enough.
-/

namespace PyFLP

namespace Spec

/-- The exceptions a file can cause, as the model names them.  `streamError` is data that ends too early, `unicodeError` a text
that cannot be decoded; `pythonOf` has the exceptions of Python these are. -/
def openingErrors : List Exc :=
  [.headerCorrupted, .versionNotDetected, .invalidEventChunkSize, .streamError, .unicodeError, .valueError, .overflowError,
    .indexError]

/-- Classes an `except` clause can name: those of `exceptions.py:33-87`, those of construct and the built-in ones. -/
inductive PyClass
  | exception
  | error | dataCorrupted | headerCorrupted | versionNotDetected | invalidEventChunkSize | eventIDOutOfRange
  | propertyCannotBeSet | noModelsFound | modelNotFound
  | constructError | streamError | stringError
  | structError | valueError | unicodeError | unicodeDecodeError | bufferError | arithmeticError | overflowError | lookupError
  | indexError | keyError | attributeError | typeError
  deriving DecidableEq

/-- The exceptions of Python that an exception of `openingErrors` may be, each with the classes it is an instance of
(`exceptions.py:33-87`; the built-in hierarchy of Python; the errors of construct derive from `construct.ConstructError`).
Data that ends too early is a `construct.StreamError`, or a `struct.error` where a compiled struct reads a number; a text
that cannot be decoded is a `UnicodeDecodeError` (always so for the version, `__init__.py:136`), or a
`construct.StringError` where a newer construct decodes it.  Simplification: which of the two it is is not modelled, and the
exceptions that are not in the list get the class `Exception` only. -/
def pythonOf : Exc → List (List PyClass)
  | .headerCorrupted => [[.headerCorrupted, .dataCorrupted, .error, .valueError, .exception]]
  | .versionNotDetected => [[.versionNotDetected, .dataCorrupted, .error, .exception]]
  | .invalidEventChunkSize => [[.invalidEventChunkSize, .error, .bufferError, .exception]]
  | .streamError => [[.streamError, .constructError, .exception], [.structError, .exception]]
  | .unicodeError =>
    [[.unicodeDecodeError, .unicodeError, .valueError, .exception], [.stringError, .constructError, .exception]]
  | .valueError => [[.valueError, .exception]]
  | .overflowError => [[.overflowError, .arithmeticError, .exception]]
  | .indexError => [[.indexError, .lookupError, .exception]]
  | _ => [[.exception]]

/-- `except (c, ...)` catches the exception, whichever exception of Python it is. -/
def Catches (clause : List PyClass) (e : Exc) : Prop := ∀ classes ∈ pythonOf e, ∃ c ∈ clause, c ∈ classes

end Spec

open Spec

variable [FloatEnv]

omit [FloatEnv] in
theorem decoding_opening {e : Exc} (h : e.decoding) : e ∈ openingErrors := by
  cases e <;> first | exact h.elim | decide

theorem mkEvent_opening {k : Kind} {id : Nat} {value : Bytes} {e : Exc} (ha : k.allowed id = true)
    (h : mkEvent k id value = .error e) : e ∈ openingErrors := by
  have hp : ∀ f : Value → Event, (k.parse value).map f = .error e → e ∈ openingErrors :=
    fun f he => decoding_opening (((kindParse_dec k value).map f).out _ he)
  unfold mkEvent at h
  rw [if_neg (by simp [ha])] at h
  split at h
  · split at h
    · cases h; decide
    · exact hp _ h
  · exact hp _ h

theorem stepEvent_opening {st : PState} {id : Nat} {value : Bytes} (hst : okStr st.strType) (hid : id < 256) :
    (∀ e, stepEvent enums st id value = .error e → e ∈ openingErrors) ∧
      ∀ x, stepEvent enums st id value = .ok x → okStr x.2.strType := by
  unfold stepEvent
  split
  · next h1 =>
    refine ⟨?_, by intro x h; cases h⟩
    intro e h; cases h
    exact decoding_opening ((nextStrType_dec _ _ _).out _ h1)
  · next t h1 =>
    have ht := nextStr_ok hst h1
    split
    · next h2 =>
      refine ⟨?_, by intro x h; cases h⟩
      intro e h; cases h
      rw [(resolve_error h2).1]; decide
    · next k h2 =>
      have ha := (resolve_facts hid ht h2).1
      split
      · next h3 =>
        refine ⟨?_, by intro x h; cases h⟩
        intro e h; cases h
        exact mkEvent_opening ha h3
      · refine ⟨by intro e h; (cases h), ?_⟩
        intro x h; cases h
        exact ht

theorem parseLoop_opening {st : PState} {bs : Bytes} {e : Exc} (hst : okStr st.strType)
    (h : parseLoop enums st bs = .error e) : e ∈ openingErrors := by
  induction hn : bs.length using Nat.strongRecOn generalizing bs st with
  | ind n ih =>
    cases bs with
    | nil => rw [parseLoop_nil] at h; cases h
    | cons b rest =>
      rw [parseLoop_cons] at h
      split at h
      · next h1 =>
        cases h
        exact decoding_opening ((readPayload_dec _ _).out _ h1)
      · next v r h1 =>
        have hle := readPayload_le h1
        have hs := stepEvent_opening (value := v) hst b.toNat_lt
        split at h
        · next h2 => cases h; exact hs.1 _ h2
        · next h2 =>
          split at h
          · next h3 =>
            cases h
            exact ih r.length (by rw [← hn]; simp; omega) (hs.2 _ h2) h3 rfl
          · cases h

/-- **C152** (the exceptions of `pyflp.parse`): whatever the content of the file is, opening it succeeds or raises one of the
eight exceptions of the list. -/
theorem C152_opening (file : Bytes) (e : Exc) (h : parseFile file = .error e) : e ∈ openingErrors := by
  by_cases hh : HeaderOK file
  · obtain ⟨f0, f1, c0, c1, p0, p1, s0, s1, s2, s3, data, h1, h2, h3, h4, h5⟩ := hh
    have hhdr := parseHeader_layout f0 f1 c0 c1 p0 p1 s0 s1 s2 s3 data h2 h3 h4 h5
    unfold parseFile parseWith at h
    rw [h1, hhdr] at h
    dsimp only at h
    split at h
    · next he => cases h; exact parseLoop_opening (.inl rfl) he
    · cases h
  · rw [(C01_header_exact file).2 hh] at h
    cases h
    decide

/-! ### Files that raise each of them -/

/-- A file with this event data. -/
def Demo.fileOf (body : Bytes) : Bytes :=
  [70, 76, 104, 100, 6, 0, 0, 0, 0, 0, 0, 0, 96, 0, 70, 76, 100, 116, UInt8.ofNat body.length, 0, 0, 0] ++ body

theorem Demo.fileOf_raises {body : Bytes} {e : Exc} (h0 : body ≠ []) (hl : body.length < 256)
    (h : parseLoop enums ⟨none, none⟩ body = .error e) : parseFile (Demo.fileOf body) = .error e := by
  unfold parseFile parseWith Demo.fileOf
  have hn : 0 < body.length := List.length_pos_iff.2 h0
  rw [parseHeader_layout 0 0 0 0 96 0 (UInt8.ofNat body.length) 0 0 0 body (by decide) (by decide)
    h0 (by simp [dword, Nat.mod_eq_of_lt hl])]
  show (match parseLoop enums ⟨none, none⟩ body with
    | .error e => Except.error e
    | .ok evs => .ok _) = _
  rw [h]

theorem loop_read {st : PState} {b : UInt8} {rest : Bytes} {e : Exc} (h : readPayload b.toNat rest = .error e) :
    parseLoop enums st (b :: rest) = .error e := by
  rw [parseLoop_cons, h]

theorem loop_stop {st : PState} {b : UInt8} {rest v r : Bytes} {e : Exc} (h : readPayload b.toNat rest = .ok (v, r))
    (h2 : stepEvent enums st b.toNat v = .error e) : parseLoop enums st (b :: rest) = .error e := by
  rw [parseLoop_cons, h]
  simp only [h2]

theorem loop_next {st st' : PState} {b : UInt8} {rest v r : Bytes} {e : Exc} {ev : Event}
    (h : readPayload b.toNat rest = .ok (v, r)) (h2 : stepEvent enums st b.toNat v = .ok (ev, st'))
    (h3 : parseLoop enums st' r = .error e) : parseLoop enums st (b :: rest) = .error e := by
  rw [parseLoop_cons, h]
  simp only [h2, h3]

/-- A text event before any version. -/
theorem Demo.raises_version : parseFile (Demo.fileOf [194, 0]) = .error .versionNotDetected :=
  Demo.fileOf_raises (by decide) (by decide) (loop_stop (v := []) (r := []) rfl rfl)

/-- An event of four bytes of which one is left. -/
theorem Demo.raises_size : parseFile (Demo.fileOf [156, 0]) = .error .invalidEventChunkSize :=
  Demo.fileOf_raises (by decide) (by decide) (loop_stop (v := [0]) (r := []) rfl rfl)

/-- A text event whose size is missing. -/
theorem Demo.raises_stream : parseFile (Demo.fileOf [194]) = .error .streamError :=
  Demo.fileOf_raises (by decide) (by decide) (loop_read rfl)

/-- A version that is not ASCII. -/
theorem Demo.raises_unicode : parseFile (Demo.fileOf [199, 1, 128]) = .error .unicodeError :=
  Demo.fileOf_raises (by decide) (by decide) (loop_stop (v := [128]) (r := []) rfl rfl)

/-- A version that is not a number. -/
theorem Demo.raises_value : parseFile (Demo.fileOf [199, 1, 120]) = .error .valueError :=
  Demo.fileOf_raises (by decide) (by decide) (loop_stop (v := [120]) (r := []) rfl (by
    have h : nextStrType ⟨none, none⟩ 199 [120] = .error .valueError := by decide +kernel
    show stepEvent enums ⟨none, none⟩ 199 [120] = _
    unfold stepEvent
    rw [h]))

/-- An event that says it has 2^63 bytes. -/
theorem Demo.raises_overflow :
    parseFile (Demo.fileOf [199, 128, 128, 128, 128, 128, 128, 128, 128, 128, 1]) = .error .overflowError :=
  Demo.fileOf_raises (by decide) (by decide) (loop_read (by decide +kernel))

/-- A VST plugin without data. -/
theorem Demo.raises_index :
    parseFile (Demo.fileOf ([199, 1, 57] ++ [201, 14, 70, 114, 117, 105, 116, 121, 32, 87, 114, 97, 112, 112, 101, 114] ++
      [213, 0])) = .error .indexError := by
  refine Demo.fileOf_raises (by decide) (by decide) ?_
  refine loop_next (v := [57]) (st' := ⟨none, some .ascii⟩) (ev := ⟨199, .ascii, .str [57], 1⟩) rfl ?_ ?_
  · have h : nextStrType ⟨none, none⟩ 199 [57] = .ok (some .ascii) := by decide +kernel
    show stepEvent enums ⟨none, none⟩ 199 [57] = _
    unfold stepEvent
    rw [h]
    rfl
  · refine loop_next (v := [70, 114, 117, 105, 116, 121, 32, 87, 114, 97, 112, 112, 101, 114])
      (st' := ⟨some (PStr.lit "Fruity Wrapper"), some .ascii⟩)
      (ev := ⟨201, .ascii, .str (PStr.lit "Fruity Wrapper"), 14⟩) rfl rfl ?_
    exact loop_stop (v := []) (r := []) rfl rfl

/-- Nothing at all. -/
theorem Demo.raises_header : parseFile [] = .error .headerCorrupted := rfl

/-- **C152** (exact): the eight exceptions of the list are the ones some file causes. -/
theorem C152_exact (e : Exc) : (∃ file, parseFile file = .error e) ↔ e ∈ openingErrors := by
  refine ⟨fun ⟨file, h⟩ => C152_opening file e h, fun h => ?_⟩
  simp only [openingErrors, List.mem_cons, List.not_mem_nil, or_false] at h
  rcases h with rfl | rfl | rfl | rfl | rfl | rfl | rfl | rfl
  · exact ⟨_, Demo.raises_header⟩
  · exact ⟨_, Demo.raises_version⟩
  · exact ⟨_, Demo.raises_size⟩
  · exact ⟨_, Demo.raises_stream⟩
  · exact ⟨_, Demo.raises_unicode⟩
  · exact ⟨_, Demo.raises_value⟩
  · exact ⟨_, Demo.raises_overflow⟩
  · exact ⟨_, Demo.raises_index⟩

omit [FloatEnv] in
/-- A clause catches an exception through one of the classes of the exception. -/
theorem caught {clause : List PyClass} {e : Exc} (h : Catches clause e) :
    ∀ classes ∈ pythonOf e, ∃ c ∈ classes, c ∈ clause :=
  fun classes hc => (h classes hc).imp fun _ x => ⟨x.2, x.1⟩

/-- **C152** (the `except` clauses that are enough): a clause catches whatever opening a file can raise exactly when it names
`Exception`, or names `ValueError`, `struct.error` and, for each of the five other groups, a class (or both classes) of the
group. -/
theorem C152_handlers (clause : List PyClass) :
    (∀ file e, parseFile file = .error e → Catches clause e) ↔
      .exception ∈ clause ∨
        .valueError ∈ clause ∧ .structError ∈ clause ∧
        (.error ∈ clause ∨ .dataCorrupted ∈ clause ∨ .versionNotDetected ∈ clause) ∧
        (.error ∈ clause ∨ .bufferError ∈ clause ∨ .invalidEventChunkSize ∈ clause) ∧
        (.constructError ∈ clause ∨ .streamError ∈ clause ∧ .stringError ∈ clause) ∧
        (.arithmeticError ∈ clause ∨ .overflowError ∈ clause) ∧
        (.lookupError ∈ clause ∨ .indexError ∈ clause) := by
  constructor
  · intro h
    have h1 := caught (h _ _ Demo.raises_version)
    have h2 := caught (h _ _ Demo.raises_size)
    have h3 := caught (h _ _ Demo.raises_stream)
    have h4 := caught (h _ _ Demo.raises_value)
    have h5 := caught (h _ _ Demo.raises_overflow)
    have h6 := caught (h _ _ Demo.raises_index)
    have h7 := caught (h _ _ Demo.raises_unicode)
    simp only [pythonOf, List.mem_cons, List.not_mem_nil, or_false, exists_eq_or_imp, exists_eq_left,
      forall_eq_or_imp, forall_eq] at h1 h2 h3 h4 h5 h6 h7
    refine or_iff_not_imp_left.2 fun hx => ?_
    simp only [hx, or_false] at h1 h2 h3 h4 h5 h6 h7
    refine ⟨h4, h3.2, ?_, ?_, ?_, h5.symm, h6.symm⟩
    · rcases h1 with h | h | h <;> simp [h]
    · rcases h2 with h | h | h <;> simp [h]
    · rcases h3.1 with h | h
      · rcases h7.2 with g | g
        · exact .inr ⟨h, g⟩
        · exact .inl g
      · exact .inl h
  · intro h file e he
    have := C152_opening file e he
    simp only [openingErrors, List.mem_cons, List.not_mem_nil, or_false] at this
    rcases h with h | ⟨h1, h7, h2, h3, h4, h5, h6⟩
    · have all : ∀ e : Exc, ∀ classes ∈ pythonOf e, PyClass.exception ∈ classes := by
        intro e; cases e <;> decide
      exact fun classes hc => ⟨_, h, all e classes hc⟩
    · intro classes hc
      rcases this with rfl | rfl | rfl | rfl | rfl | rfl | rfl | rfl <;>
        simp only [pythonOf, List.mem_cons, List.not_mem_nil, or_false] at hc
      · subst hc; exact ⟨_, h1, by decide⟩
      · subst hc; rcases h2 with h | h | h <;> exact ⟨_, h, by decide⟩
      · subst hc; rcases h3 with h | h | h <;> exact ⟨_, h, by decide⟩
      · rcases hc with rfl | rfl
        · rcases h4 with h | ⟨h, -⟩ <;> exact ⟨_, h, by decide⟩
        · exact ⟨_, h7, by decide⟩
      · rcases hc with rfl | rfl
        · exact ⟨_, h1, by decide⟩
        · rcases h4 with h | ⟨-, h⟩ <;> exact ⟨_, h, by decide⟩
      · subst hc; exact ⟨_, h1, by decide⟩
      · subst hc; rcases h5 with h | h <;> exact ⟨_, h, by decide⟩
      · subst hc; rcases h6 with h | h <;> exact ⟨_, h, by decide⟩

/-- The base class of the exceptions of PyFLP alone is not enough. -/
example : ¬ ∀ file e, parseFile file = .error e → Catches [.error] e := by
  rw [C152_handlers]; decide

/-- With five classes of the standard library and of construct it is. -/
example (file : Bytes) (e : Exc) (h : parseFile file = .error e) :
    Catches [.error, .valueError, .structError, .constructError, .overflowError, .indexError] e :=
  (C152_handlers _).2 (by decide) file e h

/-- **C152** (warnings turned into exceptions): opening any file, whether it can be opened or not, raises the first warning
that would have been shown; without warnings it returns or raises what it does otherwise, and so one of the eight
exceptions if it raises. -/
theorem C152_strict (file : Bytes) :
    (∀ w ws, (openW false file).1 = w :: ws → openW true file = ([], .error (.warning w))) ∧
    ((openW false file).1 = [] → openW true file = openW false file) ∧
    ∀ e, (openW true file).2 = .error (.exc e) → e ∈ openingErrors ∧ parseFile file = .error e ∧ (openW false file).1 = [] := by
  obtain ⟨⟨h1, h2, h3⟩, -⟩ := openW_modes file
  refine ⟨?_, ?_, ?_⟩
  · intro w ws h
    rcases h3 with ⟨a, -⟩ | ⟨w', ws', a, b⟩
    · rw [h] at a; cases a
    · rw [h] at a; cases a
      exact Prod.ext h2 b
  · intro h
    rcases h3 with ⟨a, b⟩ | ⟨w', ws', a, -⟩
    · exact Prod.ext (h2.trans h.symm) b
    · rw [h] at a; cases a
  · intro e h
    rcases h3 with ⟨a, b⟩ | ⟨w', ws', -, b⟩
    · rw [b] at h
      have := (C133_opening_fails file e).1 h
      exact ⟨C152_opening file e this, this, a⟩
    · rw [b] at h; cases h

/-- A playlist of one byte is warned about; then the file ends in the middle of an event. -/
theorem Demo.warns_and_fails :
    openW false (Demo.fileOf [233, 1, 0, 194]) = ([.size 233 1], .error (.exc .streamError)) := by
  unfold openW
  have hh : parseHeader (Demo.fileOf [233, 1, 0, 194]) = .ok ⟨0, 0, 96⟩ := by decide +kernel
  rw [hh]
  show Noisy.andThen (quiet (.ok _)) (fun _ => Noisy.andThen (parseLoopW false enums ⟨none, none⟩ [233, 1, 0, 194]) _) = _
  have h1 : parseLoopW false enums ⟨none, none⟩ [194] = ([], .error (.exc .streamError)) := by
    rw [parseLoopW]; rfl
  have h0 : parseLoopW false enums ⟨none, none⟩ [233, 1, 0, 194] = ([.size 233 1], .error (.exc .streamError)) := by
    rw [parseLoopW]
    show Noisy.andThen (stepEventW false enums ⟨none, none⟩ 233 [0]) (fun x : Event × PState =>
      Noisy.andThen (parseLoopW false enums x.2 [194]) fun evs => quiet (.ok (x.1 :: evs))) = _
    have hs : stepEventW false enums ⟨none, none⟩ 233 [0] =
        ([.size 233 1], .ok (⟨233, .list .playlist, .items (greedyParse ⟨1⟩ LName.playlist.fields [0]).1, 1⟩, ⟨none, none⟩)) := rfl
    rw [hs]
    show ([Warn.size 233 1] ++ (Noisy.andThen (parseLoopW false enums ⟨none, none⟩ [194]) _).1,
      (Noisy.andThen (parseLoopW false enums ⟨none, none⟩ [194]) _).2) = _
    rw [h1]
    rfl
  rw [h0]
  rfl

/-- With warnings as exceptions, the warning hides the damage. -/
example : openW true (Demo.fileOf [233, 1, 0, 194]) = ([], .error (.warning (.size 233 1))) :=
  (C152_strict _).1 _ [] (by rw [Demo.warns_and_fails])

end PyFLP
