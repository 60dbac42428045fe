import Verif.KindCanon
/-!
# Project files: `pyflp.parse` and `pyflp.save` (`__init__.py:63-199`)
-/

namespace PyFLP

/-- `FLP_HEADER` fields that end up in the project. -/
structure Header where
  format : Int
  channelCount : Nat
  ppq : Nat
  deriving DecidableEq, Repr

/-- A parsed project: the header values kept by `Project.__init__`
(`__init__.py:168-173`) and the events of the root tree in order. -/
structure Project where
  format : Int
  channelCount : Nat
  ppq : Nat
  events : List Event
  deriving DecidableEq, Repr

/-- Values of `FileFormat` (`project.py:78-111`). -/
def fileFormats : List Int := [-1, 0, 16, 24, 32, 48, 49, 50, 64, 80]

/-- `VALID_PPQS` (`project.py:61`). -/
def validPPQs : List Nat := [24, 48, 72, 96, 120, 144, 168, 192, 384, 768, 960]

/-- `b"FLhd"` -/
def magicHd : Bytes := [70, 76, 104, 100]
/-- `b"FLdt"` -/
def magicDt : Bytes := [70, 76, 100, 116]

/-- The header checks, in order (`__init__.py:85-116`).  `struct.Struct("4sIh2H")`
uses native layout: 14 bytes, little endian on the reference platform.
`int.from_bytes` of fewer than four bytes reads what is there. -/
def parseHeader (bs : Bytes) : Py Header :=
  if bs.length < 14 then .error .headerCorrupted
  else if bs.take 4 ≠ magicHd then .error .headerCorrupted
  else if leNat ((bs.drop 4).take 4) ≠ 6 then .error .headerCorrupted
  else
    let fmt := toSigned 2 (leNat ((bs.drop 8).take 2))
    let count := leNat ((bs.drop 10).take 2)
    let ppq := leNat ((bs.drop 12).take 2)
    if fmt ∉ fileFormats then .error .headerCorrupted
    else if ppq ∉ validPPQs then .error .headerCorrupted
    else if (bs.drop 14).take 4 ≠ magicDt then .error .headerCorrupted
    else
      let eventsSize := leNat ((bs.drop 18).take 4)
      if eventsSize = 0 then .error .headerCorrupted
      else if bs.length ≠ eventsSize + 22 then .error .headerCorrupted
      else .ok ⟨fmt, count, ppq⟩

/-- Reading the payload of an event with this id (`__init__.py:125-133`).
`stream.read(n)` returns fewer bytes at the end of the file; a size beyond
`sys.maxsize` raises `OverflowError`. -/
def readPayload (id : Nat) (bs : Bytes) : Py (Bytes × Bytes) :=
  if id < 64 then .ok (bs.take 1, bs.drop 1)
  else if id < 128 then .ok (bs.take 2, bs.drop 2)
  else if id < 192 then .ok (bs.take 4, bs.drop 4)
  else
    match varParse bs with
    | .error e => .error e
    | .ok (n, r) => if 2 ^ 63 ≤ n then .error .overflowError else .ok (r.take n, r.drop n)

/-- Python's `>=` on lists of integers. -/
def listGe : List Int → List Int → Bool
  | _, [] => true
  | [], _ :: _ => false
  | a :: as, b :: bs => if a = b then listGe as bs else b < a

/-- `[int(part) for part in parts]`; `none` = `ValueError`.  (CPython's limit of
4300 digits per number is not modelled.) -/
def intParts : List PStr → Option (List Int)
  | [] => some []
  | p :: ps =>
    match pyInt p, intParts ps with
    | some i, some is => some (i :: is)
    | _, _ => none

/-- Text type chosen from the version string (`__init__.py:136-140`). -/
def versionKind (s : PStr) : Py Kind :=
  match intParts (pySplit 46 s) with
  | none => .error .valueError
  | some parts => .ok (if listGe (parts.take 2) [11, 5] then .unicode else .ascii)

/-- The variables of the parsing loop (`__init__.py:118-119`). -/
structure PState where
  plugName : Option PStr
  strType : Option Kind
  deriving DecidableEq, Repr

/-- Whether an id belongs to an enumeration. -/
def IdEnum.has (e : IdEnum) (id : Nat) : Bool := e.any fun m => m.1 == id

/-- The events of `project.channels` (`project.py:208-222`). -/
def rackEvents (evs : List Event) : List Event :=
  evs.filter fun e => e.id ≠ 236 &&
    (channelID.has e.id || displayGroupID.has e.id || pluginID.has e.id || rackID.has e.id)

/-- `len(project.channels)` (`channel.py:1589-1597`). -/
def channelLen (evs : List Event) : Py Nat :=
  let n := ((rackEvents evs).filter fun e => e.id = 64).length
  if n = 0 then .error .noModelsFound else .ok n

/-- `FLP_HEADER.pack(b"FLhd", 6, format, num_channels, ppq)`; out-of-range
arguments raise `struct.error`. -/
def packHeader (format : Int) (n ppq : Nat) : Py Bytes :=
  match intBuild 2 true format, intBuild 2 false n, intBuild 2 false ppq with
  | .ok f, .ok c, .ok p => .ok (magicHd ++ [6, 0, 0, 0] ++ f ++ c ++ p)
  | _, _, _ => .error .structError

/-- Header, event bytes and the patched size (`__init__.py:186-196`):
`total_size.to_bytes(4)` raises `OverflowError` from 4 GiB on. -/
def assemble (hdr body : Bytes) : Py Bytes :=
  if body.length < 2 ^ 32 then .ok (hdr ++ magicDt ++ leBytes 4 body.length ++ body)
  else .error .overflowError

/-- Choice of the event type (`__init__.py:142-164`); `es` are the registered
enumerations in order. -/
def resolve (es : List IdEnum) (st : PState) (id : Nat) : Py Kind :=
  match enumType es id with
  | some k => .ok k
  | none =>
    if id < 64 then .ok .u8
    else if id < 128 then .ok .u16
    else if id < 192 then .ok .u32
    else if id < 208 ∨ id ∈ newTextIds then
      match st.strType with
      | none => .error .versionNotDetected
      | some k => .ok k
    else if id = 213 then
      match st.plugName with
      | some n => .ok (kindByName n)
      | none => .ok .unknown
    else .ok .unknown

/-- Text type after an event: only `FLVersion` (199) changes it (`__init__.py:135-140`). -/
def nextStrType (st : PState) (id : Nat) (value : Bytes) : Py (Option Kind) :=
  if id = 199 then
    match asciiDecode value with
    | .error e => .error e
    | .ok s => (versionKind (rstripNul s)).map some
  else .ok st.strType

/-- Plugin name after an event (`__init__.py:159-160`): only an untyped
`PluginID.InternalName` (201) changes it. -/
def nextPlugName (es : List IdEnum) (st : PState) (ev : Event) : Option PStr :=
  if ev.id = 201 ∧ enumType es 201 = none then
    match ev.value with
    | .str s => some s
    | _ => st.plugName
  else st.plugName

variable [FloatEnv]

/-- One iteration of the loop after reading id and payload (`__init__.py:135-166`). -/
def stepEvent (es : List IdEnum) (st : PState) (id : Nat) (value : Bytes) : Py (Event × PState) :=
  match nextStrType st id value with
  | .error e => .error e
  | .ok strType =>
    match resolve es ⟨st.plugName, strType⟩ id with
    | .error e => .error e
    | .ok k =>
      match mkEvent k id value with
      | .error e => .error e
      | .ok ev => .ok (ev, ⟨nextPlugName es ⟨st.plugName, strType⟩ ev, strType⟩)

omit [FloatEnv] in
theorem readPayload_le {id : Nat} {bs v r : Bytes} (h : readPayload id bs = .ok (v, r)) :
    r.length ≤ bs.length := by
  unfold readPayload at h
  split at h
  · cases h; simp
  · split at h
    · cases h; simp
    · split at h
      · cases h; simp
      · split at h
        · cases h
        · next hv =>
          have := varParse_length hv
          split at h
          · cases h
          · cases h; simp; omega

/-- The loop (`__init__.py:121-166`). -/
def parseLoop (es : List IdEnum) (st : PState) (bs : Bytes) : Py (List Event) :=
  match bs with
  | [] => .ok []
  | b :: rest =>
    match _h : readPayload b.toNat rest with
    | .error e => .error e
    | .ok (value, r) =>
      match stepEvent es st b.toNat value with
      | .error e => .error e
      | .ok (ev, st') =>
        match parseLoop es st' r with
        | .error e => .error e
        | .ok evs => .ok (ev :: evs)
termination_by bs.length
decreasing_by
  have := readPayload_le _h
  simp; omega

/-- `parse` with the enumerations registered in the order `es`. -/
def parseWith (es : List IdEnum) (bs : Bytes) : Py Project :=
  match parseHeader bs with
  | .error e => .error e
  | .ok h =>
    match parseLoop es ⟨none, none⟩ (bs.drop 22) with
    | .error e => .error e
    | .ok evs => .ok ⟨h.format, h.channelCount, h.ppq, evs⟩

/-- `pyflp.parse` applied to the content of a file. -/
def parseFile (bs : Bytes) : Py Project := parseWith enums bs

/-- `bytes(event)` of every event, in order; the first exception wins. -/
def eventsBytes : List Event → Py Bytes
  | [] => .ok []
  | e :: es => seqBuild e.toBytes (eventsBytes es)

/-- The bytes `pyflp.save` writes (`__init__.py:186-196`). -/
def saveBytes (p : Project) : Py Bytes :=
  match channelLen p.events with
  | .error e => .error e
  | .ok n =>
    match packHeader p.format n p.ppq with
    | .error e => .error e
    | .ok hdr =>
      match eventsBytes p.events with
      | .error e => .error e
      | .ok body => assemble hdr body

end PyFLP
