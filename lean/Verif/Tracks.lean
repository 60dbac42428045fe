import Verif.Playlist
import Verif.Rack
/-!
# Iterating over the tracks of an arrangement (`arrangement.py:374-399`)

`Verif.Playlist` has the items of a playlist whose records and whose channels and patterns are given; this module has the
property itself: the rack and the patterns that are iterated first, the playlist event and its size, the trees of the tracks.
-/

namespace PyFLP

/-- A `Track`: its tree and its items (`Track(ed, items=items)`). -/
structure TrackObj where
  tree : Nat
  items : List PLItem
  deriving DecidableEq

/-- `{model.iid: model for model in models}` (`arrangement.py:378-379`); the models are numbered. -/
def iidDict (iids : List (Option Value)) : List (Option Value × Nat) :=
  iids.zipIdx.foldl (fun d x => dictPut x.1 x.2 d) []

/-- The channel or pattern of a record (`arrangement.py:393-398`).  Simplification: a key of the dictionaries is equal to a number
only if it is this number (`True == 1` in Python). -/
def recTarget (channels patterns : List (Option Value × Nat)) (r : Rec) : Py PLTarget :=
  if r.int "item_index" ≤ r.int "pattern_base" then
    match dictGet (some (.lv (.int (r.int "item_index")))) channels with
    | some c => .ok (.channel c)
    | none => .error .keyError
  else
    match dictGet (some (.lv (.int (r.int "item_index" - r.int "pattern_base")))) patterns with
    | some p => .ok (.pattern p)
    | none => .error .keyError

/-- The loop over the records for one track, the first record having number `i` (`arrangement.py:388-398`). -/
def recItems (maxIdx : Int) (channels patterns : List (Option Value × Nat)) (track : Nat) : Nat → List Rec → Py (List PLItem)
  | _, [] => .ok []
  | i, r :: rs =>
    if maxIdx - r.int "track_rvidx" ≠ track then recItems maxIdx channels patterns track (i + 1) rs
    else
      match recTarget channels patterns r with
      | .error e => .error e
      | .ok tgt => (recItems maxIdx channels patterns track (i + 1) rs).map (⟨⟨i, i⟩, tgt⟩ :: ·)

/-- Iterating over a playlist event (`_events.py:360-378`, `arrangement.py:87-90`): `data` is only set if the size of the event's
data is a multiple of 32 or 60, and `UserList` needs it.  Simplification: another value than a list of records (which only an
assignment can put there) raises `TypeError`. -/
def playlistRecs (e : Event) : Py (List Rec) :=
  if e.len % 32 = 0 ∨ e.len % 60 = 0 then
    match e.value with
    | .items l => .ok l
    | _ => .error .typeError
  else .error .attributeError

/-- The tracks that are yielded before the first exception, and this exception, for the trees from number `k` on
(`arrangement.py:384-399`). -/
def trackLoop (playlist : Option Event) (maxIdx : Int) (channels patterns : List (Option Value × Nat)) : Nat → List Nat →
    List TrackObj × Option Exc
  | _, [] => ([], none)
  | k, u :: us =>
    match playlist with
    | none =>
      let (ts, e) := trackLoop none maxIdx channels patterns (k + 1) us
      (⟨u, []⟩ :: ts, e)
    | some pl =>
      match playlistRecs pl with
      | .error e => ([], some e)
      | .ok recs =>
        match recItems maxIdx channels patterns k 0 recs with
        | .error e => ([], some e)
        | .ok items =>
          let (ts, e) := trackLoop (some pl) maxIdx channels patterns (k + 1) us
          (⟨u, items⟩ :: ts, e)

namespace World

/-- `pattern.iid` of all patterns (`arrangement.py:379`). -/
def patternIids (w : World) : List Nat → Py (List Value)
  | [] => .ok []
  | u :: us =>
    match w.patternIid u with
    | .error e => .error e
    | .ok v => (w.patternIids us).map (v :: ·)

/-- `arrangement.tracks` (`arrangement.py:374-399`) of an arrangement with the tree `u`; `ct` and `pt` are the trees of the rack and of
the patterns the arrangement got and `v` is its version.  Simplification: all trees are created before the first track is
yielded. -/
def iterTracks (w : World) (u ct pt : Nat) (v : FLVersion) : World × List TrackObj × Option Exc :=
  match maxTrackIdx v with
  | .error e => (w, [], some e)
  | .ok maxIdx =>
    let (w1, cs, err) := w.iterRack ct
    match err with
    | some e => (w1, [], some e)
    | none =>
      let channels := iidDict (cs.map fun c => w1.prop c.tree 64)
      let (w2, ps) := w1.iterPatterns pt
      match w2.patternIids ps with
      | .error e => (w2, [], some e)
      | .ok iids =>
        let patterns := iidDict (iids.map some)
        if w2.contains u 233 then
          match w2.heap.first u 233 with
          | .error e => (w2, [], some e)
          | .ok ref =>
            let (w3, us) := w2.trackViews u
            (w3, trackLoop (some (w2.ev ref)) maxIdx channels patterns 0 us)
        else
          let (w3, us) := w2.trackViews u
          (w3, trackLoop none maxIdx channels patterns 0 us)

end World

end PyFLP
