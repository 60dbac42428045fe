import Verif.EventIds
/-!
# Events: construction, value, serialisation (`_events.py:102-384`)
-/

namespace PyFLP

/-- `EventBase.value` for each event class. -/
inductive Value
  /-- `bool`, `int`, `float` and the two-tuples of `U16TupleEvent` -/
  | lv (x : LV)
  /-- `RGBA` (`types.py:57-68`), four binary64 numbers -/
  | color (r g b a : Rat)
  | str (s : PStr)
  | bytes (bs : Bytes)
  /-- a `construct.Container` -/
  | fields (r : Rec)
  /-- a `construct.ListContainer` of containers -/
  | items (l : List Rec)
  /-- a list of booleans (`InsertRoutingEvent`) -/
  | flags (l : List Bool)
  /-- `AutomationEvent`: fields before the points, points, trailing bytes -/
  | auto (head : Rec) (points : List Rec) (tail : Bytes)
  /-- `FruityNotebook2Event` -/
  | notebook (u1 : Bytes) (activePage : Int) (pages : List Page) (editable : Bool)
  /-- `VSTPluginEvent` -/
  | vst (type : Int) (events : List (Int × VstData))
  deriving DecidableEq, Repr

/-- `c / 255` in binary64 (`types.py:65`). -/
def colDecode (b : UInt8) : Rat := fl ((b.toNat : Rat) / 255)

/-- `round(c * 255)` (`types.py:68`); `bytes()` raises outside 0-255. -/
def colEncode (x : Rat) : Py Bytes :=
  let n := roundHE (fl (x * 255))
  if 0 ≤ n ∧ n < 256 then .ok [UInt8.ofNat n.toNat] else .error .valueError

/-- The primitive behind the fixed-size integer, boolean and float events
(`_events.py:184-267`). -/
def Kind.leaf : Kind → Option Leaf
  | .bool => some .flag
  | .i8 => some (.int 1 true)
  | .u8 => some (.int 1 false)
  | .i16 => some (.int 2 true)
  | .u16 => some (.int 2 false)
  | .f32 => some .f32
  | .i32 => some (.int 4 true)
  | .u32 => some (.int 4 false)
  | _ => none

variable [FloatEnv]

/-- `AutomationEvent.STRUCT.parse` (`channel.py:95-119`). -/
def autoParse (bs : Bytes) : Py Value :=
  match structParse ⟨0⟩ autoHead bs with
  | .error e => .error e
  | .ok (head, r) =>
    match intParse 4 false r with
    | .error e => .error e
    | .ok (n, r') =>
      match timesParse ⟨0⟩ autoPoint n.toNat r' with
      | .error e => .error e
      | .ok (pts, tail) => .ok (.auto head pts tail)

/-- Two consecutive fields of a `Struct` build: the first failure wins. -/
def seqBuild (a b : Py Bytes) : Py Bytes :=
  match a with
  | .error e => .error e
  | .ok x =>
    match b with
    | .error e => .error e
    | .ok y => .ok (x ++ y)

omit [FloatEnv] in
theorem seqBuild_ok {a b : Py Bytes} {x y : Bytes} (ha : a = .ok x) (hb : b = .ok y) :
    seqBuild a b = .ok (x ++ y) := by subst ha hb; rfl

/-- `AutomationEvent.STRUCT.build` (`channel.py:95-119`): the count is rebuilt
from the list (`c.PrefixedArray`). -/
def autoBuild (head : Rec) (pts : List Rec) (tail : Bytes) : Py Bytes :=
  seqBuild (seqBuild (seqBuild (structBuild ⟨0⟩ autoHead head)
    (intBuild 4 false (pts.length : Int))) (greedyBuild ⟨0⟩ autoPoint pts)) (.ok tail)

/-- `FruityNotebook2Event.STRUCT.parse` (`plugin.py:132-147`). -/
def notebookParse (bs : Bytes) : Py Value :=
  if bs.length < 4 then .error .streamError
  else
    match intParse 4 false (bs.drop 4) with
    | .error e => .error e
    | .ok (page, r) =>
      match (manyParse pageParse r) with
      | (pages, r') =>
        match r' with
        | [] => .error .streamError
        | b :: _ => .ok (.notebook (bs.take 4) page pages (b ≠ 0))

@[inherit_doc notebookParse]
def notebookBuild (u1 : Bytes) (page : Int) (pages : List Page) (editable : Bool) : Py Bytes :=
  if u1.length ≠ 4 then .error .streamError
  else
    match intBuild 4 false page with
    | .error e => .error e
    | .ok p =>
      match manyBuild pageBuild pages with
      | .error e => .error e
      | .ok ps => .ok (u1 ++ p ++ ps ++ [if editable then 1 else 0])

/-- `VSTPluginEvent.STRUCT.parse` (`plugin.py:287-313`); the constructor looks
at `data[0]` first (`plugin.py:315-324`), which raises for empty data. -/
def vstParse (bs : Bytes) : Py Value :=
  match bs with
  | [] => .error .indexError
  | _ =>
    match intParse 4 false bs with
    | .error e => .error e
    | .ok (t, r) => .ok (.vst t (manyParse vstItemParse r).1)

@[inherit_doc vstParse]
def vstBuild (t : Int) (items : List (Int × VstData)) : Py Bytes :=
  match intBuild 4 false t with
  | .error e => .error e
  | .ok a =>
    match manyBuild vstItemBuild items with
    | .error e => .error e
    | .ok b => .ok (a ++ b)

/-- One `c.Flag` of a routing list; the value is always a `bool`. -/
def flagByte (b : Bool) : UInt8 := if b then 1 else 0

/-- `STRUCT.parse(data, **kwds)` of each event class, with the constructor
extras.  `len=len(data)` / `new=not len(data) % 60` come from `data` itself. -/
def Kind.parse (k : Kind) (bs : Bytes) : Py Value :=
  match k with
  | .u16t => (int2Parse 2 bs).map fun x => .lv (.pair x.1 x.2.1)
  | .color =>
    match bs with
    | [r, g, b, a] => .ok (.color (colDecode r) (colDecode g) (colDecode b) (colDecode a))
    | _ => .error .streamError
  | .ascii => (asciiDecode bs).map fun s => .str (rstripNul s)
  | .unicode => (utf16Decode bs).map fun s => .str (rstripNul s)
  | .unknown => .ok (.bytes bs)
  | .struct s => (structParse ⟨bs.length⟩ s.fields bs).map fun x => .fields x.1
  | .list l => .ok (.items (greedyParse ⟨bs.length⟩ l.fields bs).1)
  | .routing => .ok (.flags (bs.map (· ≠ 0)))
  | .automation => autoParse bs
  | .notebook => notebookParse bs
  | .vst => vstParse bs
  | k =>
    match k.leaf with
    | some l => (leafParse l bs).map fun x => .lv x.1
    | none => .error .typeError

/-- `STRUCT.build(value, **kwds)`; `len` is the length of the data the event was
created from (`_kwds`, `_events.py:124, 140`). -/
def Kind.build (k : Kind) (len : Nat) (v : Value) : Py Bytes :=
  match k, v with
  | .u16t, .lv (.pair a b) => int2Build 2 a b
  | .color, .color r g b a =>
    match colEncode r, colEncode g, colEncode b, colEncode a with
    | .ok r, .ok g, .ok b, .ok a => .ok (r ++ g ++ b ++ a)
    | _, _, _, _ => .error .valueError
  | .ascii, .str s => asciiEncode (s ++ [0])
  | .unicode, .str s => utf16Encode (s ++ [0])
  | .unknown, .bytes bs => .ok bs
  | .struct s, .fields r => structBuild ⟨len⟩ s.fields r
  | .list l, .items rs => greedyBuild ⟨len⟩ l.fields rs
  | .routing, .flags fs => .ok (fs.map flagByte)
  | .automation, .auto h p t => autoBuild h p t
  | .notebook, .notebook u p ps e => notebookBuild u p ps e
  | .vst, .vst t items => vstBuild t items
  | k, .lv x =>
    match k.leaf with
    | some l => leafBuild l (some x)
    | none => .error .typeError
  | _, _ => .error .typeError

/-- An event object. -/
structure Event where
  id : Nat
  kind : Kind
  value : Value
  /-- length of the data given to the constructor (`_kwds`) -/
  len : Nat
  deriving DecidableEq, Repr

/-- Payload size of fixed-size ids (`_events.py:112-118`). -/
def fixedSize (id : Nat) : Option Nat :=
  if id < 64 then some 1 else if id < 128 then some 2 else if id < 192 then some 4 else none

/-- `EventClass(id, data)`: `EventBase.__init__` (`_events.py:108-125`) and the
subclass constructors.  (`VSTPluginEvent.__init__` inspects `data[0]` before
calling the base constructor; ids of data events have no other check, so the
order does not matter.) -/
def mkEvent (k : Kind) (id : Nat) (data : Bytes) : Py Event :=
  if k.allowed id = false then .error .eventIDOutOfRange
  else
    match fixedSize id with
    | some n =>
      if data.length ≠ n then .error .invalidEventChunkSize
      else (k.parse data).map fun v => ⟨id, k, v, data.length⟩
    | none => (k.parse data).map fun v => ⟨id, k, v, data.length⟩

/-- The serialised value (`_events.py:139`). -/
def Event.payload (e : Event) : Py Bytes := e.kind.build e.len e.value

/-- `bytes(event)` (`_events.py:137-145`). -/
def Event.toBytes (e : Event) : Py Bytes :=
  match intBuild 1 false (e.id : Int) with
  | .error x => .error x
  | .ok i =>
    match e.payload with
    | .error x => .error x
    | .ok data =>
      if e.id < 192 then .ok (i ++ data)
      else .ok (i ++ varBuild data.length ++ data)

/-- `event.size` (`_events.py:150-161`). -/
def Event.size (e : Event) : Py Nat :=
  if 192 ≤ e.id then e.toBytes.map List.length
  else if 128 ≤ e.id then .ok 5
  else if 64 ≤ e.id then .ok 3
  else .ok 2

end PyFLP
