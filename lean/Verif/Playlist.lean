import Verif.Collections
import Verif.MixerParams
/-!
# Playlist items (`arrangement.py:176-229, 374-399, 510-540`)
-/

namespace PyFLP

/-- What a playlist item stands for; channels and patterns are numbered as in the rack and in
`project.patterns`. -/
inductive PLTarget
  | channel (c : Nat)
  | pattern (p : Nat)
  deriving DecidableEq, Repr

/-- A `ChannelPLItem` or `PatternPLItem`. -/
structure PLItem where
  item : Item
  target : PLTarget
  deriving DecidableEq

/-- `{channel.iid: channel for channel in channels}` (`arrangement.py:378-379`): later ones replace
earlier ones with the same `iid`. -/
def byIid (iids : List Int) : List (Int × Nat) := iids.zipIdx.foldl (fun d x => dictPut x.1 x.2 d) []

/-- `max_idx` (`arrangement.py:377`). -/
def maxTrackIdx (v : FLVersion) : Py Int :=
  match (⟨12, 9, 1, none⟩ : FLVersion).le v with
  | .error e => .error e
  | .ok b => .ok (if b then 499 else 198)

/-- `Arrangements.max_tracks` (`arrangement.py:539-540`). -/
def maxTracks (v : FLVersion) : Py Int :=
  match (⟨12, 9, 1, none⟩ : FLVersion).le v with
  | .error e => .error e
  | .ok b => .ok (if b then 500 else 199)

namespace ListObj

/-- `item[key]` of an integer field of a container of the list. -/
def field (s : ListObj) (it : Item) (key : String) : Int := (s.objs.getD it.ref []).int key

/-- The channel or pattern of an item (`arrangement.py:393-398`). -/
def plTarget (s : ListObj) (it : Item) (channels patterns : List (Int × Nat)) : Py PLTarget :=
  if s.field it "item_index" ≤ s.field it "pattern_base" then
    match dictGet (s.field it "item_index") channels with
    | some c => .ok (.channel c)
    | none => .error .keyError
  else
    match dictGet (s.field it "item_index" - s.field it "pattern_base") patterns with
    | some p => .ok (.pattern p)
    | none => .error .keyError

/-- The items of one track (`arrangement.py:389-398`). -/
def trackItems (s : ListObj) (maxIdx : Int) (channels patterns : List (Int × Nat)) (track : Nat) :
    List Item → Py (List PLItem)
  | [] => .ok []
  | it :: its =>
    if maxIdx - s.field it "track_rvidx" ≠ track then s.trackItems maxIdx channels patterns track its
    else
      match s.plTarget it channels patterns with
      | .error e => .error e
      | .ok tgt => (s.trackItems maxIdx channels patterns track its).map (⟨it, tgt⟩ :: ·)

/-- The items of the tracks from number `k` on, `n` tracks (`arrangement.py:384-399`). -/
def tracksFrom (s : ListObj) (maxIdx : Int) (channels patterns : List (Int × Nat)) : Nat → Nat → Py (List (List PLItem))
  | _, 0 => .ok []
  | k, n + 1 =>
    match s.trackItems maxIdx channels patterns k s.items with
    | .error e => .error e
    | .ok l => (s.tracksFrom maxIdx channels patterns (k + 1) n).map (l :: ·)

/-- `[list(track) for track in arrangement.tracks]` (`arrangement.py:374-399`) of an arrangement with `n` tracks
and a playlist event; `v` is the version, `channels` and `patterns` are the `iid`s of the channels and patterns. -/
def tracks (s : ListObj) (v : FLVersion) (channels patterns : List Int) (n : Nat) : Py (List (List PLItem)) :=
  match maxTrackIdx v with
  | .error e => .error e
  | .ok maxIdx => s.tracksFrom maxIdx (byIid channels) (byIid patterns) 0 n

/-- `item.channel = channel` (`arrangement.py:211-213`) of a `ChannelPLItem`; `iid` is that of the channel. -/
def setChannel (s : ListObj) (it : Item) (iid : Int) : ListObj × Py Unit :=
  s.set it "item_index" (some (.int iid))

/-- `item.pattern = pattern` (`arrangement.py:227-229`) of a `PatternPLItem`; `iid` is that of the pattern. -/
def setPattern (s : ListObj) (it : Item) (iid : Int) : ListObj × Py Unit :=
  s.set it "item_index" (some (.int (iid + s.field it "pattern_base")))

/-- `item.offsets` (`arrangement.py:186-192`). -/
def offsets (s : ListObj) (it : Item) : Py (Option LV × Option LV) :=
  match s.get it "start_offset" with
  | .error e => .error e
  | .ok a =>
    match s.get it "end_offset" with
    | .error e => .error e
    | .ok b => .ok (a, b)

/-- `item.offsets = value` (`arrangement.py:194-196`). -/
def setOffsets (s : ListObj) (it : Item) (a b : Option LV) : ListObj × Py Unit :=
  match s.set it "start_offset" a with
  | (s', .error e) => (s', .error e)
  | (s', .ok ()) => s'.set it "end_offset" b

end ListObj

/-- The fields of a container that `c.Struct.build` looks up (construct 2.10: `obj[name]` for the name of
every field); other keys of the container are ignored. -/
def Rec.project (fs : Fields) (r : Rec) : Py Rec :=
  match fs with
  | [] => .ok []
  | (n, _) :: fs =>
    match Rec.lookup r n with
    | none => .error .keyError
    | some v => (Rec.project fs r).map ((n, v) :: ·)

/-- Building the bytes of a list event from containers that may have further keys. -/
def listBuild [FloatEnv] (cx : Ctx) (fs : Fields) : List Rec → Py Bytes
  | [] => .ok []
  | r :: rs =>
    match Rec.project fs r with
    | .error e => .error e
    | .ok r' =>
      match structBuild cx fs r' with
      | .error e => .error e
      | .ok b => (listBuild cx fs rs).map (b ++ ·)

namespace World

/-- `arrangements.loop_pos` (`arrangement.py:510-526`): a pair, or the value of the old event. -/
def loopPos (w : World) (t : Nat) : Py (Option (Option LV × Option LV)) :=
  if w.contains t 217 then
    match w.heap.first t 217 with
    | .error e => .error e
    | .ok ref =>
      match structGet (w.ev ref) "start" with
      | .error e => .error e
      | .ok a =>
        match structGet (w.ev ref) "end" with
        | .error e => .error e
        | .ok b => .ok (some (a, b))
  else if w.contains t 152 then
    match w.heap.first t 152 with
    | .error e => .error e
    | .ok ref =>
      match (w.ev ref).value with
      | .lv (.pair a b) => .ok (some (some (.int a), some (.int b)))
      | _ => .error .typeError
  else .ok none

/-- `arrangements.loop_pos = (a, b)` (`arrangement.py:528-537`). -/
def setLoopPos (w : World) (t : Nat) (a b : Int) : World × Py Unit :=
  if w.contains t 217 then
    match w.heap.first t 217 with
    | .error e => (w, .error e)
    | .ok ref =>
      match structSet (w.ev ref) "start" (some (.int a)) with
      | .error e => (w, .error e)
      | .ok e1 =>
        let w1 := w.setEv ref e1
        match structSet (w1.ev ref) "end" (some (.int b)) with
        | .error e => (w1, .error e)
        | .ok e2 => (w1.setEv ref e2, .ok ())
  else if w.contains t 152 then
    match w.heap.first t 152 with
    | .error e => (w, .error e)
    | .ok ref => (w.setEv ref { w.ev ref with value := .lv (.pair a b) }, .ok ())
  else (w, .error .propertyCannotBeSet)

end World

end PyFLP
