import Verif.File
/-!
# Warnings while opening and saving

The library calls `warnings.warn` in three places.  What such a call does depends on the filters of the process: by default the
warning is shown and the program goes on; with `python -W error` (or `warnings.simplefilter("error")`) it is raised as an
exception.  Both are modelled.  Simplification: the default filter shows a repeated warning from the same line once only; the
model records every call of `warnings.warn`.
-/

namespace PyFLP

/-- The calls of `warnings.warn`. -/
inductive Warn
  /-- "Cannot parse event … as event size … is not a multiple of struct size(s) …" (`_events.py:372-376`): id and size -/
  | size (id len : Nat)
  /-- "VSTPluginEvent: Unknown marker … detected" (`plugin.py:316-323`): the first byte of the data -/
  | marker (b : Nat)
  /-- "Ticks must be a multiple of 5" (`_adapters.py:45-46`) -/
  | ticks
  deriving DecidableEq, Repr

/-- What can be raised when warnings can be exceptions. -/
inductive Raised
  | exc (e : Exc)
  | warning (w : Warn)
  deriving DecidableEq, Repr

/-- A computation that shows warnings, and returns or raises. -/
abbrev Noisy (α : Type) := List Warn × Except Raised α

/-- A computation without calls of `warnings.warn`. -/
def quiet {α : Type} : Py α → Noisy α
  | .ok x => ([], .ok x)
  | .error e => ([], .error (.exc e))

/-- `warnings.warn(…)`; `strict`: warnings are exceptions. -/
def warn (strict : Bool) (w : Warn) : Noisy Unit :=
  if strict then ([], .error (.warning w)) else ([w], .ok ())

/-- One computation after another. -/
def Noisy.andThen {α β : Type} (a : Noisy α) (f : α → Noisy β) : Noisy β :=
  match a.2 with
  | .error e => (a.1, .error e)
  | .ok x => (a.1 ++ (f x).1, (f x).2)

/-- `ListEventBase.SIZES` (`_events.py:357`, `arrangement.py:87`). -/
def LName.sizes : LName → List Nat
  | .playlist => [32, 60]
  | .controller | .notes | .mixerParams => []

/-- `STRUCT.subcon.sizeof()` of the list classes without `SIZES` (`_events.py:365`; `pattern.py:49-59` and `67-85`,
`mixer.py:125-134`; lists of flags, `mixer.py:113-114`, have the size 1 and cannot warn either). -/
def LName.sizeof : LName → Nat
  | .controller => 12
  | .notes => 24
  | .mixerParams => 12
  | .playlist => 32

/-- `_struct_size` (`_events.py:362-370`). -/
def LName.structSize (l : LName) (len : Nat) : Option Nat :=
  if l.sizes = [] then some l.sizeof else l.sizes.find? fun n => len % n = 0

variable [FloatEnv]

/-- `EventClass(id, data)` with the calls of `warnings.warn`: `VSTPluginEvent` looks at the first byte before anything else
(`plugin.py:315-324`), list events look at the size after the data has been parsed (`_events.py:360-378`). -/
def mkEventW (strict : Bool) (k : Kind) (id : Nat) (data : Bytes) : Noisy Event :=
  match k with
  | .vst =>
    match data with
    | [] => quiet (.error .indexError)
    | b :: bs =>
      Noisy.andThen (if b ∈ ([8, 10] : List UInt8) then quiet (.ok ()) else warn strict (.marker b.toNat))
        fun _ => quiet (mkEvent .vst id (b :: bs))
  | .list l =>
    Noisy.andThen (quiet (mkEvent (.list l) id data)) fun e =>
      match l.structSize data.length with
      | none => Noisy.andThen (warn strict (.size id data.length)) fun _ => quiet (.ok e)
      | some _ => quiet (.ok e)
  | k => quiet (mkEvent k id data)

/-- One iteration of the loop (`__init__.py:135-166`), see `stepEvent`. -/
def stepEventW (strict : Bool) (es : List IdEnum) (st : PState) (id : Nat) (value : Bytes) : Noisy (Event × PState) :=
  Noisy.andThen (quiet (nextStrType st id value)) fun strType =>
    Noisy.andThen (quiet (resolve es ⟨st.plugName, strType⟩ id)) fun k =>
      Noisy.andThen (mkEventW strict k id value) fun ev =>
        quiet (.ok (ev, ⟨nextPlugName es ⟨st.plugName, strType⟩ ev, strType⟩))

/-- The loop (`__init__.py:121-166`), see `parseLoop`. -/
def parseLoopW (strict : Bool) (es : List IdEnum) (st : PState) (bs : Bytes) : Noisy (List Event) :=
  match bs with
  | [] => quiet (.ok [])
  | b :: rest =>
    match _h : readPayload b.toNat rest with
    | .error e => quiet (.error e)
    | .ok (value, r) =>
      Noisy.andThen (stepEventW strict es st b.toNat value) fun x =>
        Noisy.andThen (parseLoopW strict es x.2 r) fun evs => quiet (.ok (x.1 :: evs))
termination_by bs.length
decreasing_by
  have := readPayload_le _h
  simp; omega

/-- `pyflp.parse` applied to the content of a file (`__init__.py:63-173`), see `parseFile`. -/
def openW (strict : Bool) (bs : Bytes) : Noisy Project :=
  Noisy.andThen (quiet (parseHeader bs)) fun h =>
    Noisy.andThen (parseLoopW strict enums ⟨none, none⟩ (bs.drop 22)) fun evs =>
      quiet (.ok ⟨h.format, h.channelCount, h.ppq, evs⟩)

/-- Building a primitive: `LinearMusical._encode` looks at the ticks first (`_adapters.py:44-48`). -/
def leafBuildW (strict : Bool) (l : Leaf) (v : Option LV) : Noisy Bytes :=
  match l, v with
  | .musical, some (.time a b c) =>
    Noisy.andThen (if c % 5 ≠ 0 then warn strict .ticks else quiet (.ok ())) fun _ =>
      quiet (leafBuild .musical (some (.time a b c)))
  | l, v => quiet (leafBuild l v)

/-- Building one field: `c.Optional` (`c.Select` with `c.Pass`) turns every exception, a warning too, into no bytes. -/
def fldBuildW (strict : Bool) (cx : Ctx) (f : Fld) (v : Option LV) : Noisy Bytes :=
  match f with
  | .req l => leafBuildW strict l v
  | .opt l =>
    match (leafBuildW strict l v).2 with
    | .ok bs => ((leafBuildW strict l v).1, .ok bs)
    | .error _ => ((leafBuildW strict l v).1, .ok [])
  | .ifLen n l => if cx.len = n then leafBuildW strict l v else quiet (.ok [])
  | .ifNew l => if cx.len % 60 = 0 then leafBuildW strict l v else quiet (.ok [])

/-- `c.Struct(...).build`, see `structBuild`. -/
def structBuildW (strict : Bool) (cx : Ctx) : Fields → Rec → Noisy Bytes
  | [], [] => quiet (.ok [])
  | (n, f) :: fs, (n', v) :: rec =>
    if n = n' then
      Noisy.andThen (fldBuildW strict cx f v) fun b =>
        Noisy.andThen (structBuildW strict cx fs rec) fun bs => quiet (.ok (b ++ bs))
    else quiet (.error .keyError)
  | _, _ => quiet (.error .keyError)

/-- The serialised value (`_events.py:139`).  `LinearMusical` occurs in one struct only (`channel.py:274`) and in no list and no
nested struct: the other classes cannot warn. -/
def Event.payloadW (strict : Bool) (e : Event) : Noisy Bytes :=
  match e.kind, e.value with
  | .struct s, .fields r => structBuildW strict ⟨e.len⟩ s.fields r
  | _, _ => quiet e.payload

/-- `bytes(event)` (`_events.py:137-145`), see `Event.toBytes`. -/
def Event.toBytesW (strict : Bool) (e : Event) : Noisy Bytes :=
  Noisy.andThen (quiet (intBuild 1 false (e.id : Int))) fun i =>
    Noisy.andThen (e.payloadW strict) fun data =>
      if e.id < 192 then quiet (.ok (i ++ data)) else quiet (.ok (i ++ varBuild data.length ++ data))

/-- `bytes(event)` of every event, in order (`__init__.py:192-195`). -/
def eventsBytesW (strict : Bool) : List Event → Noisy Bytes
  | [] => quiet (.ok [])
  | e :: es =>
    Noisy.andThen (e.toBytesW strict) fun a => Noisy.andThen (eventsBytesW strict es) fun b => quiet (.ok (a ++ b))

/-- The bytes `pyflp.save` writes (`__init__.py:186-196`), see `saveBytes`. -/
def saveW (strict : Bool) (p : Project) : Noisy Bytes :=
  Noisy.andThen (quiet (channelLen p.events)) fun n =>
    Noisy.andThen (quiet (packHeader p.format n p.ppq)) fun hdr =>
      Noisy.andThen (eventsBytesW strict p.events) fun body => quiet (assemble hdr body)

end PyFLP
