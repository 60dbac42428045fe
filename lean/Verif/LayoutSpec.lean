import Verif.Props.Exact9
/-!
# What the bytes of a file mean, as a specification

Which value some bytes stand for, written as relations between bytes and values, without the functions of the model that
read and write them: sizes, numbers, texts, fields of records, lists of records, automation clips, notebooks and the data of
VST plugins.  `Props/Layout.lean` proves that the model reads exactly these values.
-/

namespace PyFLP.Spec

open PyFLP

/-! ### Sizes and texts -/

/-- The size in front of texts and data: groups of seven bits, least significant group first; every byte but the last one has
its highest bit set. -/
inductive SizeBytes : Bytes → Nat → Prop
  | last {b : UInt8} (h : b.toNat < 128) : SizeBytes [b] b.toNat
  | more {b : UInt8} {bs : Bytes} {n : Nat} (h : 128 ≤ b.toNat) (t : SizeBytes bs n) :
      SizeBytes (b :: bs) (b.toNat - 128 + 128 * n)

/-- ASCII: one byte below 128 per character. -/
def Ascii (s : PStr) (bs : Bytes) : Prop := (∀ b ∈ bs, b.toNat < 128) ∧ s = bs.map UInt8.toNat

/-- The 16-bit units of a character: itself, or two surrogates. -/
def utf16Units (c : Nat) : List Nat :=
  if c < 0x10000 then [c] else [0xD800 + (c - 0x10000) / 0x400, 0xDC00 + (c - 0x10000) % 0x400]

/-- A number below 65536 as two bytes, the lower one first. -/
def lowHigh (u : Nat) : Bytes := [UInt8.ofNat (u % 256), UInt8.ofNat (u / 256)]

/-- A character: a code point that is not a surrogate. -/
def Character (c : Nat) : Prop := c < 0x110000 ∧ ¬ (0xD800 ≤ c ∧ c ≤ 0xDFFF)

/-- UTF-16, little-endian, without a mark at the start. -/
def Utf16 (s : PStr) (bs : Bytes) : Prop :=
  (∀ c ∈ s, Character c) ∧ bs = s.flatMap fun c => (utf16Units c).flatMap lowHigh

/-- The bytes of a character in UTF-8. -/
def utf8Bytes (c : Nat) : List Nat :=
  if c < 0x80 then [c]
  else if c < 0x800 then [0xC0 + c / 0x40, 0x80 + c % 0x40]
  else if c < 0x10000 then [0xE0 + c / 0x1000, 0x80 + c / 0x40 % 0x40, 0x80 + c % 0x40]
  else [0xF0 + c / 0x40000, 0x80 + c / 0x1000 % 0x40, 0x80 + c / 0x40 % 0x40, 0x80 + c % 0x40]

/-- UTF-8. -/
def Utf8 (s : PStr) (bs : Bytes) : Prop :=
  (∀ c ∈ s, Character c) ∧ bs = s.flatMap fun c => (utf8Bytes c).map UInt8.ofNat

/-- `s` is the text `t` without the NULs at its end. -/
def Stripped (s t : PStr) : Prop := (∃ k, t = s ++ List.replicate k 0) ∧ s.getLast? ≠ some 0

/-! ### Fields and records -/

/-- The bytes `chunk`, followed by `rest`, are a field of this type with this value. -/
def FieldMeans [FloatEnv] (l : Leaf) (chunk rest : Bytes) (x : LV) : Prop :=
  match l with
  | .int w sg => chunk.length = w ∧ ∃ v, x = .int v ∧ InRange w sg v ∧ Encodes sg chunk v
  | .flagsS mask => chunk.length = 4 ∧ ∃ v, InRange 4 true v ∧ Encodes true chunk v ∧ (0 ≤ v → x = .int v) ∧
      (v < 0 → x = .int (intFlagValue mask v))
  | .flag => chunk.length = 1 ∧ x = .bool (chunk ≠ [0])
  | .raw n => chunk.length = n ∧ x = .bytes chunk
  | .rawC n => (chunk.length = n ∨ chunk.length < n ∧ rest = []) ∧ x = .bytes chunk
  | .greedy => rest = [] ∧ x = .bytes chunk
  | .f32 => chunk.length = 4 ∧ x = .f32 (littleEndian chunk)
  | .f64 => chunk.length = 8 ∧ x = .f64 (littleEndian chunk)
  | .fourBool => chunk.length = 4 ∧ x = .bool (chunk ≠ [0, 0, 0, 0])
  | .height => chunk.length = 4 ∧ ∃ s, x = .str s ∧ heightDecode (littleEndian chunk) = some s
  | .pair32 => chunk.length = 8 ∧ x = .pair (littleEndian (chunk.take 4)) (littleEndian (chunk.drop 4))
  | .musical => chunk.length = 4 ∧ ∃ bars beats steps : Nat, beats < 16 ∧ steps < 48 ∧
      littleEndian chunk = 768 * bars + 48 * beats + steps ∧ x = .time bars beats (5 * steps : Nat)
  | .log2 => chunk.length = 4 ∧ ∃ v n, InRange 4 true v ∧ Encodes true chunk v ∧ FloatEnv.exp2 v = some n ∧ x = .f64 n
  | .logNormal => chunk.length = 4 ∧ ∃ n,
      lnDecode (littleEndian (chunk.take 2)) (littleEndian (chunk.drop 2)) = some n ∧ x = .f64 n

/-- The bytes `bs` start with a record of these fields, one right after the other, which has these values; `left` is what
follows it.  `len` is the size of the whole data, on which some fields depend.  An optional field has no value if no front
part of the remaining bytes means one; the next field then starts at the same place. -/
inductive Record [FloatEnv] (len : Nat) : Fields → Bytes → Rec → Bytes → Prop
  | done {bs} : Record len [] bs [] bs
  | field {n f l fs chunk more x rec left} (hp : present len f = some l) (hx : FieldMeans l chunk more x)
      (t : Record len fs more rec left) : Record len ((n, f) :: fs) (chunk ++ more) ((n, some x) :: rec) left
  | absent {n f fs bs rec left} (hp : present len f = none) (t : Record len fs bs rec left) :
      Record len ((n, f) :: fs) bs ((n, none) :: rec) left
  | missing {n l fs bs rec left} (hm : ∀ chunk more x, bs = chunk ++ more → ¬ FieldMeans l chunk more x)
      (t : Record len fs bs rec left) : Record len ((n, .opt l) :: fs) bs ((n, none) :: rec) left

/-- `count` records in a row. -/
inductive RecordsIn [FloatEnv] (fs : Fields) : Bytes → List Rec → Bytes → Prop
  | done {bs} : RecordsIn fs bs [] bs
  | next {bs rec more recs left} (h : Record 0 fs bs rec more) (t : RecordsIn fs more recs left) :
      RecordsIn fs bs (rec :: recs) left

/-- As many items in a row as there are. -/
inductive AsManyAs {α : Type} (item : Bytes → α → Bytes → Prop) : Bytes → List α → Bytes → Prop
  | stop {bs} (h : ∀ a more, ¬ item bs a more) : AsManyAs item bs [] bs
  | next {bs a more as left} (h : item bs a more) (t : AsManyAs item more as left) : AsManyAs item bs (a :: as) left

/-- A page of a notebook: its index, the number of 16-bit units, the text with NULs at its end.  A page with index -1 has
nothing else. -/
inductive PageMeans : Bytes → Page → Bytes → Prop
  | stop {rest} : PageMeans ([255, 255, 255, 255] ++ rest) .stop rest
  | text {a b c d : UInt8} {i : Int} {pre core rest : Bytes} {n k : Nat} {s : PStr}
      (hi : InRange 4 true i ∧ Encodes true [a, b, c, d] i) (h1 : i ≠ -1) (hn : SizeBytes pre n) (hs : Utf16 s core)
      (hl : s.getLast? ≠ some 0) (hk : core.length + 2 * k = 2 * n) :
      PageMeans (([a, b, c, d] ++ pre ++ core ++ List.replicate (2 * k) 0) ++ rest) (.text i n s) rest

/-- The data of a VST plugin for one of its ids: 1 and 2 are records, 51, 54, 55 and 56 are texts. -/
def VstMeans [FloatEnv] (id : Nat) (data : Bytes) (d : VstData) : Prop :=
  if id = 1 then ∃ rec left, d = .fields rec ∧ Record 0 vstMidi data rec left
  else if id = 2 then ∃ rec left, d = .fields rec ∧ Record 0 vstFlags data rec left
  else if id ∈ [51, 54, 55, 56] then ∃ s, d = .str s ∧ Utf8 s data
  else d = .raw data

/-- One item of the data of a VST plugin: an id of four bytes, a size of eight bytes, that many bytes of data. -/
inductive VstItem [FloatEnv] : Bytes → Int × VstData → Bytes → Prop
  | item {i size data rest : Bytes} {d : VstData} (hi : i.length = 4) (hs : size.length = 8)
      (hd : littleEndian size = data.length) (hm : VstMeans (littleEndian i) data d) :
      VstItem (i ++ size ++ data ++ rest) ((littleEndian i : Nat), d) rest

/-! ### Events -/

/-- The bytes start with a number, boolean or float of this type. -/
def Front [FloatEnv] (l : Leaf) (bs : Bytes) (v : Value) : Prop :=
  ∃ chunk rest x, bs = chunk ++ rest ∧ FieldMeans l chunk rest x ∧ v = .lv x

/-- The value that the bytes of an event of this type mean. -/
def Means [FloatEnv] (k : Kind) (bs : Bytes) (v : Value) : Prop :=
  match k with
  | .bool => Front .flag bs v
  | .i8 => Front (.int 1 true) bs v
  | .u8 => Front (.int 1 false) bs v
  | .i16 => Front (.int 2 true) bs v
  | .u16 => Front (.int 2 false) bs v
  | .i32 => Front (.int 4 true) bs v
  | .u32 => Front (.int 4 false) bs v
  | .f32 => Front .f32 bs v
  | .u16t => ∃ a b c d rest, bs = [a, b, c, d] ++ rest ∧ v = .lv (.pair (littleEndian [a, b]) (littleEndian [c, d]))
  | .color => ∃ r g b a : UInt8, bs = [r, g, b, a] ∧
      v = .color (fl (r.toNat / 255)) (fl (g.toNat / 255)) (fl (b.toNat / 255)) (fl (a.toNat / 255))
  | .ascii => ∃ s t, v = .str s ∧ Stripped s t ∧ Ascii t bs
  | .unicode => ∃ s t, v = .str s ∧ Stripped s t ∧ Utf16 t bs
  | .unknown => v = .bytes bs
  | .struct s => ∃ rec left, v = .fields rec ∧ Record bs.length s.fields bs rec left
  | .list l => ∃ items, v = .items items ∧ items.length = bs.length / recordSize l bs.length ∧
      ∀ (i : Nat) (rec : Rec), items[i]? = some rec →
        Record bs.length l.fields ((bs.drop (recordSize l bs.length * i)).take (recordSize l bs.length)) rec []
  | .routing => v = .flags (bs.map (· ≠ 0))
  | .automation => ∃ head n points tail rest more, v = .auto head points tail ∧ Record 0 autoHead bs head (n ++ rest) ∧
      n.length = 4 ∧ littleEndian n = points.length ∧ RecordsIn autoPoint rest points more ∧ tail = more
  | .notebook => ∃ (u1 page more : Bytes) (pages : List Page) (editable : UInt8) (rest : Bytes),
      v = .notebook u1 (littleEndian page) pages (editable ≠ 0) ∧ bs = u1 ++ page ++ more ∧ u1.length = 4 ∧
      page.length = 4 ∧ AsManyAs PageMeans more pages (editable :: rest)
  | .vst => ∃ (type more : Bytes) (items : List (Int × VstData)) (left : Bytes),
      v = .vst (littleEndian type) items ∧ bs = type ++ more ∧ type.length = 4 ∧ AsManyAs VstItem more items left

/-! ### Files -/

/-- The bytes `pre` say that an event with this id has `n` bytes of data.  Only texts and data (ids from 192 on) have a size in
front. -/
def SizeFor (id : Nat) (pre : Bytes) (n : Nat) : Prop :=
  if id < 64 then pre = [] ∧ n = 1
  else if id < 128 then pre = [] ∧ n = 2
  else if id < 192 then pre = [] ∧ n = 4
  else SizeBytes pre n ∧ n < 2 ^ 63

/-- The bytes are events with these ids and data, one after the other: the id, the size where there is one, the data.  Only
the data of the last event may be shorter than its size says. -/
inductive Framed : Bytes → List (Nat × Bytes) → Prop
  | done : Framed [] []
  | event {id : UInt8} {pre data rest : Bytes} {n : Nat} {fs : List (Nat × Bytes)} (hs : SizeFor id.toNat pre n)
      (hn : data.length = n ∨ (data.length < n ∧ rest = [])) (t : Framed rest fs) :
      Framed ([id] ++ pre ++ data ++ rest) ((id.toNat, data) :: fs)

/-- The event `e`, which follows the events `before`, is what the id and the data mean: it has the id, the type that belongs
to the id at this place, and the value that the data means. -/
structure EventMeans [FloatEnv] (before : List Event) (f : Nat × Bytes) (e : Event) : Prop where
  id : e.id = f.1
  len : e.len = f.2.length
  kind : kindOf before f.1 = some e.kind
  value : Means e.kind f.2 e.value
  size : ∀ pre n, f.1 < 192 → SizeFor f.1 pre n → f.2.length = n
  version : f.1 = 199 → ∃ s, e.value = .str s ∧ ∃ parts, intParts (pySplit 46 s) = some parts

/-- The ids and data, following the events `before`, mean these events. -/
inductive EventsMean [FloatEnv] : List Event → List (Nat × Bytes) → List Event → Prop
  | done {before} : EventsMean before [] []
  | next {before f e fs evs} (h : EventMeans before f e) (t : EventsMean (before ++ [e]) fs evs) :
      EventsMean before (f :: fs) (e :: evs)

end PyFLP.Spec
