import Verif.File
/-!
# Specifications used in the property statements

These definitions say what the file format and the API promise, without
referring to the functions that implement parsing and saving.
-/

namespace PyFLP.Spec

open PyFLP

/-! ### Files -/

/-- Little-endian 16-bit and 32-bit numbers. -/
def word (a b : UInt8) : Nat := a.toNat + 256 * b.toNat
@[inherit_doc word]
def dword (a b c d : UInt8) : Nat :=
  a.toNat + 256 * b.toNat + 65536 * c.toNat + 16777216 * d.toNat

/-- A 16-bit number read as two's complement. -/
def sword (a b : UInt8) : Int :=
  if word a b < 32768 then (word a b : Int) else (word a b : Int) - 65536

/-- The file formats FL Studio knows (project, score, automation, channel
state, ...). -/
def formats : List Int := [-1, 0, 16, 24, 32, 48, 49, 50, 64, 80]

/-- The resolutions (pulses per quarter note) FL Studio offers. -/
def ppqs : List Nat := [24, 48, 72, 96, 120, 144, 168, 192, 384, 768, 960]

/-- A well-formed FLP header followed by a non-empty event chunk of exactly the
declared size: `FLhd 06000000 format channels ppq FLdt size data`. -/
def HeaderOK (file : Bytes) : Prop :=
  ∃ f0 f1 c0 c1 p0 p1 s0 s1 s2 s3 data,
    file = [70, 76, 104, 100, 6, 0, 0, 0, f0, f1, c0, c1, p0, p1, 70, 76, 100, 116, s0, s1, s2, s3]
        ++ data ∧
    sword f0 f1 ∈ formats ∧ word p0 p1 ∈ ppqs ∧
    data ≠ [] ∧ dword s0 s1 s2 s3 = data.length

/-- Payload sizes that fit an event id. -/
def sizeOK (id : Nat) (payload : Bytes) : Prop :=
  (id < 64 → payload.length = 1) ∧ (64 ≤ id ∧ id < 128 → payload.length = 2) ∧
  (128 ≤ id ∧ id < 192 → payload.length = 4) ∧ (192 ≤ id → payload.length < 2 ^ 63)

/-- An (id, payload) pair that can be framed. -/
def FrameOK (f : Nat × Bytes) : Prop := f.1 < 256 ∧ sizeOK f.1 f.2

/-- One event in a file: id, for text and data the size as a VarInt, payload. -/
def frame (f : Nat × Bytes) : Bytes :=
  UInt8.ofNat f.1 :: (if f.1 < 192 then [] else varBuild f.2.length) ++ f.2

/-- A sequence of framed events. -/
def frames (fs : List (Nat × Bytes)) : Bytes := fs.flatMap frame

/-- The bytes `pre` announce a payload of `n` bytes for an event with this id. -/
def Announces (id : Nat) (pre : Bytes) (n : Nat) : Prop :=
  (id < 64 ∧ pre = [] ∧ n = 1) ∨ (64 ≤ id ∧ id < 128 ∧ pre = [] ∧ n = 2) ∨
  (128 ≤ id ∧ id < 192 ∧ pre = [] ∧ n = 4) ∨ (192 ≤ id ∧ varParse pre = .ok (n, []) ∧ n < 2 ^ 63)

/-- `bytes` consists of events with these ids and payloads, one after the other.
Only the last payload may be shorter than announced (the file ends there). -/
inductive Splits : Bytes → List (Nat × Bytes) → Prop
  | nil : Splits [] []
  | cons {id : UInt8} {pre payload rest : Bytes} {n : Nat} {fs : List (Nat × Bytes)}
      (ha : Announces id.toNat pre n)
      (hn : payload.length = n ∨ (payload.length < n ∧ rest = []))
      (t : Splits rest fs) :
      Splits (id :: (pre ++ (payload ++ rest))) ((id.toNat, payload) :: fs)

/-! ### Event types -/

/-- The text of a text event. -/
def strOf : Value → Option PStr
  | .str s => some s
  | _ => none

/-- The text of the closest event with this id. -/
def lastStr (id : Nat) (before : List Event) : Option PStr :=
  (before.filter fun e => e.id = id).getLast?.bind fun e => strOf e.value

/-- Version 11.5 or newer. -/
def AtLeast11_5 : List Int → Prop
  | [] => False
  | major :: rest => 11 < major ∨ (major = 11 ∧ ∃ minor, rest.head? = some minor ∧ 5 ≤ minor)

instance : (l : List Int) → Decidable (AtLeast11_5 l)
  | [] => isFalse id
  | major :: [] =>
    if h : 11 < major then isTrue (.inl h)
    else isFalse (by rintro (h' | ⟨_, m, hm, _⟩); exact h h'; cases hm)
  | major :: minor :: _ =>
    if h : 11 < major ∨ (major = 11 ∧ 5 ≤ minor) then
      isTrue (by rcases h with h | ⟨h1, h2⟩; exact .inl h; exact .inr ⟨h1, minor, rfl, h2⟩)
    else isFalse (by
      rintro (h' | ⟨h1, m, hm, h2⟩)
      · exact h (.inl h')
      · cases hm; exact h (.inr ⟨h1, h2⟩))

/-- Encoding of the untyped text events that follow `before`: decided by the
closest version event (id 199). -/
def textKind (before : List Event) : Option Kind :=
  match lastStr 199 before with
  | none => none
  | some s =>
    match intParts (pySplit 46 s) with
    | none => none
    | some parts => some (if AtLeast11_5 parts then .unicode else .ascii)

/-- Type of the plugin data events that follow `before`: decided by the closest
plugin internal name (id 201). -/
def pluginKind (before : List Event) : Kind :=
  match lastStr 201 before with
  | none => .unknown
  | some n => kindByName n

/-- The event type of an event with this id that follows the events `before`;
`none` if it cannot be determined (text without a version). -/
def kindOf (before : List Event) (id : Nat) : Option Kind :=
  match enumType enums id with
  | some k => some k
  | none =>
    if id < 64 then some .u8
    else if id < 128 then some .u16
    else if id < 192 then some .u32
    else if id < 208 ∨ id = 231 ∨ id = 239 ∨ id = 241 then textKind before
    else if id = 213 then some (pluginKind before)
    else some .unknown

/-- Every event has the type that belongs to its place, and version events hold
dotted numbers. -/
def WellTyped (evs : List Event) : Prop :=
  ∀ before e after, evs = before ++ e :: after →
    e.id < 256 ∧ kindOf before e.id = some e.kind ∧
    (e.id = 199 → ∃ s, e.value = .str s ∧ ∃ parts, intParts (pySplit 46 s) = some parts)

/-- An untyped text event. -/
def untypedText (id : Nat) : Prop :=
  enumType enums id = none ∧ ((192 ≤ id ∧ id < 208) ∨ id = 231 ∨ id = 239 ∨ id = 241)

/-- `e` is what the bytes `f.2` mean for an event with id `f.1` that follows `before`. -/
structure DecodesTo [FloatEnv] (before : List Event) (f : Nat × Bytes) (e : Event) : Prop where
  id : e.id = f.1
  len : e.len = f.2.length
  kind : kindOf before f.1 = some e.kind
  value : e.kind.parse f.2 = .ok e.value
  size1 : f.1 < 64 → f.2.length = 1
  size2 : 64 ≤ f.1 → f.1 < 128 → f.2.length = 2
  size4 : 128 ≤ f.1 → f.1 < 192 → f.2.length = 4
  version : f.1 = 199 → ∃ s, e.value = .str s ∧ ∃ parts, intParts (pySplit 46 s) = some parts

/-- The ids and payloads `fs`, following the events `before`, mean the events `evs`. -/
inductive Decoded [FloatEnv] : List Event → List (Nat × Bytes) → List Event → Prop
  | nil {before} : Decoded before [] []
  | cons {before f e fs evs} (h : DecodesTo before f e) (t : Decoded (before ++ [e]) fs evs) :
      Decoded before (f :: fs) (e :: evs)

/-- What users see of an event: id, type and value. -/
def observe (e : Event) : Nat × Kind × Value := (e.id, e.kind, e.value)

/-- Number of channels: one per channel-start event (id 64). -/
def channelStarts (evs : List Event) : Nat := (evs.filter fun e => e.id = 64).length

end PyFLP.Spec
