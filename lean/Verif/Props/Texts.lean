import Verif.Texts
import Verif.Props.Tracks
import Verif.Props.Exact2
import Verif.Props.Repr
import Verif.Props.Notes
import Verif.Props.ProjectValues
/-!
# The texts of models (C119)
-/

namespace PyFLP

open Spec Heap

namespace Spec

/-- What a pattern with these events says about itself, if it has so many notes and controllers; without a `New` event there is
no text. -/
def patternText (evs : List Event) (notes ctrls : Nat) : Except Exc Txt :=
  match valueOf evs 65 with
  | none => .error .keyError
  | some n => .ok [.text "Pattern(iid=", .str (some n), .text ", name=", .repr (valueOf evs 193), .text ",", .num notes,
      .text " notes, ", .num ctrls, .text " controllers)"]

/-- The name of a marker with these events, unless it is empty. -/
def markerName (evs : List Event) : Option Value :=
  match valueOf evs 205 with
  | some (.str (c :: s)) => some (.str (c :: s))
  | _ => none

/-- What a time marker with these events says about itself: it is a marker if its position is less than 2^27; otherwise, also
if it has no position, it is a signature. -/
def markerText (evs : List Event) : Txt :=
  let num := valueOf evs 33
  let den := valueOf evs 34
  match numberOf evs 148, markerName evs with
  | some n, some name =>
    if n < 2 ^ 27 then [.text "Marker ", .repr (some name), .text " @ ", .repr (some (.lv (.int n)))]
    else [.text "Signature ", .repr (some name), .text " (", .str num, .text "/", .str den, .text ") @ ",
      .repr (some (.lv (.int (n - 2 ^ 27))))]
  | some n, none =>
    if n < 2 ^ 27 then [.text "Unnamed marker @ ", .repr (some (.lv (.int n)))]
    else [.text "Unnamed ", .str num, .text "/", .str den, .text " signature @ ", .repr (some (.lv (.int (n - 2 ^ 27))))]
  | none, some name => [.text "Signature ", .repr (some name), .text " (", .str num, .text "/", .str den, .text ") @ ", .repr none]
  | none, none => [.text "Unnamed ", .str num, .text "/", .str den, .text " signature @ ", .repr none]

/-- What a channel with these events says about itself. -/
def channelText (cls : ChClass) (evs : List Event) : Txt :=
  let start : Txt := [.repr (shownName evs), .text ", iid=", .str (valueOf evs 64)]
  match cls with
  | .channel => [.text "Channel", .text " (name="] ++ start ++ [.text ")"]
  | .automation => [.text "Automation", .text " (name="] ++ start ++ [.text ")"]
  | .instrument => [.text "Instrument", .text " (name="] ++ start ++ [.text ")"]
  | .layer => [.text "Layer", .text " (name="] ++ start ++
      [.text ", ", .num (evs.filter fun e => decide (e.id = 94)).length, .text " children", .text ")"]
  | .sampler => [.text "Sampler", .text " (name="] ++ start ++
      [.text ", sample_path=", .path (match valueOf evs 196 with
        | some (.str s) => some (.of s)
        | _ => none), .text ")"]

end Spec

theorem recordCount_eq {w : World} {L : Nat → Prop} (r : WReach w L) {u : Nat} (hu : L u) (id : Nat) :
    w.recordCount u id = (w.listRecords u id).map List.length := by
  unfold World.recordCount World.listRecords
  rw [World.contains_eq r hu]
  rcases World.first_value r hu id with ⟨ref, h1, _, h3, _⟩ | ⟨h1, h2⟩
  · rw [h1, h3]
    dsimp only [Option.isSome]
    rw [if_pos rfl]
    cases (w.ev ref).value <;> rfl
  · rw [h1, h2]
    rfl

theorem patternIid_shown {w : World} {L : Nat → Prop} (r : WReach w L) {u : Nat} (hu : L u) :
    w.patternIid u = match valueOf (w.events u) 65 with
      | some v => .ok v
      | none => .error .keyError := by
  unfold World.patternIid
  rcases World.first_value r hu 65 with ⟨ref, h1, _, h3, _⟩ | ⟨h1, h2⟩
  · rw [h1, h3]
  · rw [h1, h2]

theorem patternName_value {w : World} {L : Nat → Prop} (r : WReach w L) {u : Nat} (hu : L u) :
    w.patternName u = valueOf (w.events u) 193 := by
  rw [← prop_spec r hu]
  rfl

/-- C119: `repr(pattern)` says how many notes and controllers iterating over `pattern.notes` and `pattern.controllers` yields, the
number and the name of the pattern; a pattern without a `New` event cannot be printed. -/
theorem C119_pattern {w : World} {L : Nat → Prop} (r : WReach w L) {u : Nat} (hu : L u) :
    (∀ notes ctrls, w.listRecords u 224 = .ok notes → w.listRecords u 223 = .ok ctrls →
      w.reprPattern u = patternText (w.events u) notes.length ctrls.length) ∧
    (∀ e, w.listRecords u 224 = .error e → w.reprPattern u = .error e) ∧
    (∀ notes e, w.listRecords u 224 = .ok notes → w.listRecords u 223 = .error e → w.reprPattern u = .error e) := by
  unfold World.reprPattern
  rw [recordCount_eq r hu, recordCount_eq r hu]
  refine ⟨?_, ?_, ?_⟩
  · intro notes ctrls h1 h2
    rw [h1, h2, patternIid_shown r hu, patternName_value r hu]
    unfold patternText
    dsimp only [Except.map]
    cases valueOf (w.events u) 65 <;> rfl
  · intro e h1
    rw [h1]
    rfl
  · intro notes e h1 h2
    rw [h1, h2]
    rfl

/-- C119: `str(project.patterns)` says how many patterns iterating yields and lists their numbers, in every state where each of them
has one, and raises `KeyError` in the others. -/
theorem C119_patterns {w : World} {L : Nat → Prop} (r : WReach w L) {t : Nat} (ht : L t) (hne : shown w.heap 0 ≠ []) :
    (w.strPatterns t).2 = (patternIids (w.entries t)).map (fun iids => [.num iids.length, .text " Patterns ", .list iids]) ∧
    (∀ iids, patternIids (w.entries t) = .ok iids → iids.length = (w.iterPatterns t).2.length) ∧
    (w.strPatterns t).1.project = w.project := by
  obtain ⟨h1, h2, h3, _⟩ := iterPatterns_spec r ht hne
  have h4 := patternIids_eq h1 _ _ h2 fun u hu => .inr hu
  have h5 : (w.iterPatterns t).1.patternIids (w.iterPatterns t).2 = patternIids (w.entries t) := by
    rw [h4]
    unfold Spec.patternIids
    rw [List.map_map]
    rfl
  refine ⟨?_, ?_, h3⟩
  · show ((w.iterPatterns t).1.patternIids (w.iterPatterns t).2).map _ = _
    rw [h5]
  · intro iids h
    have hlen := congrArg List.length h2
    rw [List.length_map, List.length_map] at hlen
    rw [hlen]
    have hall : ∀ {α : Type} (l : List (Except Exc α)) (xs : List α), allOf l = .ok xs → xs.length = l.length := by
      intro α l
      induction l with
      | nil => intro xs h; cases h; rfl
      | cons a l ih =>
        intro xs h
        cases a with
        | error e => cases h
        | ok a =>
          unfold allOf at h
          cases hl : allOf l with
          | error e => rw [hl] at h; cases h
          | ok ys => rw [hl] at h; cases h; simp [ih ys hl]
    have := hall _ _ h
    rw [this, List.length_map]

/-- C119: `str(timemarker)` in every state, for every marker with a text for a name and a number for a position (as they are when parsed
and as long as values of the right types are assigned, see C75). -/
theorem C119_marker {w : World} {L : Nat → Prop} (r : WReach w L) {u : Nat} (hu : L u)
    (htx : ∀ v, valueOf (w.events u) 205 = some v → ∃ s, v = .str s)
    (hnum : ∀ v, valueOf (w.events u) 148 = some v → ∃ n, v = .lv (.int n)) :
    w.strMarker u = .ok (markerText (w.events u)) := by
  obtain ⟨c1, c2⟩ := C52_marker r hu
  have hnamed : truthyProp (w.prop u 205) = (markerName (w.events u)).isSome ∧
      (∀ x, markerName (w.events u) = some x → w.prop u 205 = some x) := by
    rw [prop_spec r hu]
    unfold markerName
    cases h : valueOf (w.events u) 205 with
    | none => exact ⟨rfl, by simp⟩
    | some v =>
      obtain ⟨s, rfl⟩ := htx v h
      cases s with
      | nil => exact ⟨rfl, by simp⟩
      | cons c s => exact ⟨rfl, by simp⟩
  obtain ⟨hn1, hn2⟩ := hnamed
  have key : ∀ (typ : Option Bool) (pos : Option Int), w.markerIsSignature u = .ok typ → w.markerPosition u = .ok pos →
      w.strMarker u = .ok (match typ, markerName (w.events u) with
        | some false, some name => [.text "Marker ", .repr (some name), .text " @ ", .repr (pos.map fun n => .lv (.int n))]
        | some false, none => [.text "Unnamed marker @ ", .repr (pos.map fun n => .lv (.int n))]
        | _, some name => [.text "Signature ", .repr (some name), .text " (", .str (valueOf (w.events u) 33), .text "/",
            .str (valueOf (w.events u) 34), .text ") @ ", .repr (pos.map fun n => .lv (.int n))]
        | _, none => [.text "Unnamed ", .str (valueOf (w.events u) 33), .text "/", .str (valueOf (w.events u) 34),
            .text " signature @ ", .repr (pos.map fun n => .lv (.int n))]) := by
    intro typ pos h1 h2
    unfold World.strMarker
    rw [h1, h2, prop_spec r hu 33, prop_spec r hu 34]
    dsimp only
    rw [hn1]
    cases hm : markerName (w.events u) with
    | none =>
      rcases typ with _ | _ | _ <;> rfl
    | some name =>
      rw [hn2 name hm]
      rcases typ with _ | _ | _ <;> rfl
  cases h : valueOf (w.events u) 148 with
  | none =>
    obtain ⟨h1, h2⟩ := c1 h
    rw [key _ _ h2 h1]
    unfold markerText numberOf
    rw [h]
    cases markerName (w.events u) <;> rfl
  | some v =>
    obtain ⟨n, rfl⟩ := hnum v h
    · obtain ⟨p, sig, h1, h2, h3, h4⟩ := c2 n h
      rw [key _ _ h2 h1]
      unfold markerText numberOf
      rw [h]
      cases sig with
      | true =>
        have hge := h4.1 rfl
        have hp : p = n - 2 ^ 27 := by rw [h3]; simp
        subst hp
        cases markerName (w.events u) with
        | none => dsimp only; rw [if_neg (by omega)]; rfl
        | some name => dsimp only; rw [if_neg (by omega)]; rfl
      | false =>
        have hlt : n < 2 ^ 27 := by
          apply Int.not_le.1
          intro hle
          exact Bool.noConfusion (h4.2 hle)
        have hp : p = n := by rw [h3]; simp
        subst hp
        cases markerName (w.events u) with
        | none => dsimp only; rw [if_pos hlt]; rfl
        | some name => dsimp only; rw [if_pos hlt]; rfl

/-- C119: `str(group)` is the name of the display group. -/
theorem C119_group {w : World} {L : Nat → Prop} (r : WReach w L) {u : Nat} (hu : L u) :
    w.strGroup u = match valueOf (w.events u) 231 with
      | none => [.text "Unnamed display group"]
      | some v => [.text "Display group ", .str (some v)] := by
  unfold World.strGroup
  rw [prop_spec r hu]
  cases valueOf (w.events u) 231 <;> rfl

theorem path_value {w : World} {L : Nat → Prop} (r : WReach w L) {u id : Nat} (hu : L u)
    (htx : ∀ v, valueOf (w.events u) id = some v → ∃ s, v = .str s) :
    w.path u id = .ok (match valueOf (w.events u) id with
      | some (.str s) => some (.of s)
      | _ => none) := by
  unfold World.path
  rw [World.contains_eq r hu]
  cases h : valueOf (w.events u) id with
  | none => rfl
  | some v =>
    obtain ⟨s, rfl⟩ := htx v h
    dsimp only [Option.isSome]
    rw [if_pos rfl]
    unfold World.firstVal
    rcases World.first_value r hu id with ⟨ref, h1, _, h3, _⟩ | ⟨_, h2⟩
    · rw [h1]
      dsimp only
      rw [h] at h3
      rw [← Option.some.inj h3]
    · rw [h] at h2; cases h2

/-- C119: `repr(channel)`, for channels of every class. -/
theorem C119_channel {w : World} {L : Nat → Prop} (r : WReach w L) {c : Chan} (hc : L c.tree) (htx : NamesAreText w.project.events)
    (hpath : ∀ v, valueOf (w.events c.tree) 196 = some v → ∃ s, v = .str s) :
    w.reprChannel c = .ok (channelText c.cls (w.events c.tree)) := by
  have hlen : w.lenLayer c.tree = ((w.events c.tree).filter fun e => decide (e.id = 94)).length := by
    unfold World.lenLayer
    rw [count_entries r hc, ← World.entries_events, List.filter_map, List.length_map]
    rfl
  unfold World.reprChannel World.reprChannelBase
  rw [displayName_spec r hc htx, prop_spec r hc, path_value r hc hpath, hlen]
  unfold channelText
  cases c.cls <;> rfl

/-- C119: the texts of the rack, of the arrangements and of the mixer say how many channels, arrangements and inserts begin in the
project; without any, `NoModelsFound` is raised. -/
theorem C119_counts {w : World} {L : Nat → Prop} (r : WReach w L) {t : Nat} (ht : L t) :
    let n : Nat → Nat := fun id => ((w.events t).filter fun e => decide (e.id = id)).length
    w.reprRack t = (if n 64 = 0 then .error .noModelsFound else .ok [.text "ChannelRack - ", .num (n 64), .text " channels"]) ∧
    w.reprArrangements t = (if n 99 = 0 then .error .noModelsFound else .ok [.num (n 99), .text " arrangements"]) ∧
    w.strMixer t = (if n 236 = 0 then .error .noModelsFound else .ok [.text "Mixer: ", .num (n 236), .text " inserts"]) := by
  have hcount : ∀ id, w.count t id = ((w.events t).filter fun e => decide (e.id = id)).length := by
    intro id
    rw [count_entries r ht, ← World.entries_events, List.filter_map, List.length_map]
    rfl
  have hcont : ∀ id, w.contains t id = !decide (((w.events t).filter fun e => decide (e.id = id)).length = 0) := by
    intro id
    rw [Bool.eq_iff_iff, contains_entries r ht, Bool.not_eq_true', decide_eq_false_iff_not, List.length_eq_zero_iff,
      List.filter_eq_nil_iff, ← World.entries_events]
    constructor
    · rintro ⟨e, he, hid⟩ hn
      exact hn e.2 (List.mem_map.2 ⟨e, he, rfl⟩) (by simpa using hid)
    · intro hn
      apply Classical.byContradiction
      intro hx
      apply hn
      intro e he hid
      obtain ⟨x, hx1, rfl⟩ := List.mem_map.1 he
      exact hx ⟨x, hx1, by simpa using hid⟩
  unfold World.reprRack World.reprArrangements World.strMixer World.lenRack World.lenArrangements World.lenMixer
  rw [hcont, hcont, hcont, hcount, hcount, hcount]
  refine ⟨?_, ?_, ?_⟩
  all_goals
    dsimp only
    split <;> rename_i h
    · rw [if_neg (by simpa using h)]; rfl
    · rw [if_pos (by simpa using h)]; rfl

/-- C119: `repr(arrangement)` says its number and its name and how many time markers and tracks iterating over them yields; it raises
what iterating over the tracks raises. -/
theorem C119_arrangement {w : World} {L : Nat → Prop} (r : WReach w L) {u ct pt : Nat} (hu : L u) (hct : L ct) (hpt : L pt)
    (hne : shown w.heap 0 ≠ []) (htext : ∀ e ∈ w.entries ct, e.2.id = 201 → ∃ s, e.2.value = .str s) (v : FLVersion) :
    let n := (cutBefore beginsTrack [] (w.entries u)).length
    let kind : Nat → Nat := fun id => ((w.events u).filter fun e => decide (e.id = id)).length
    let tracks := tracksOf v (rackIids (w.entries ct)) (patternIids (w.entries pt)) ((w.events u).find? fun e => e.id == 233) n
    (w.reprArrangement u ct pt v).1.project = w.project ∧
    (w.reprArrangement u ct pt v).2 = match tracks.2 with
      | some e => .error e
      | none => .ok [.text "Arrangement(iid=", .str (valueOf (w.events u) 99), .text ", name=", .repr (valueOf (w.events u) 241),
          .text ", ", .num (max (max (kind 33) (kind 34)) (max (kind 148) (kind 205)) : Nat), .text " timemarkers, ",
          .num tracks.1.length, .text " tracks)"] := by
  obtain ⟨m1, m2, _, m4, m5⟩ := C53_exact r hu hne
  dsimp only at m1 m2 m4 m5 ⊢
  obtain ⟨g, _⟩ := reach_good (wreach_inv r).1
  have hen : ∀ x, L x → (w.timeMarkers u).1.entries x = w.entries x := by
    intro x hx
    rw [World.entries_eq, World.entries_eq]
    have := shown_view (h := w.heap) (g.lt u hu) (.group [33, 34, 148, 205] (by decide)) (g.lt x hx)
    rw [← this]
    rfl
  have hev : (w.timeMarkers u).1.events u = w.events u := by
    rw [← World.entries_events, ← World.entries_events, hen u hu]
  have hlen : ∀ id, ((w.entries u).filter fun e => decide (e.2.id = id)).length =
      ((w.events u).filter fun e => decide (e.id = id)).length := by
    intro id
    rw [← World.entries_events, List.filter_map, List.length_map]
    rfl
  have hmarks : (w.timeMarkers u).2.length = max (max ((w.events u).filter fun e => decide (e.id = 33)).length
      ((w.events u).filter fun e => decide (e.id = 34)).length) (max ((w.events u).filter fun e => decide (e.id = 148)).length
      ((w.events u).filter fun e => decide (e.id = 205)).length) := by
    have a1 := m1 33 (by simp)
    have a2 := m1 34 (by simp)
    have a3 := m1 148 (by simp)
    have a4 := m1 205 (by simp)
    rw [hlen] at a1 a2 a3 a4
    rcases m2 with m2 | ⟨id, hid, m2⟩
    · rw [m2] at a1 a2 a3 a4 ⊢
      simp only [List.length_nil] at a1 a2 a3 a4 ⊢
      omega
    · rw [hlen] at m2
      simp only [List.mem_cons, List.not_mem_nil, or_false] at hid
      rcases hid with rfl | rfl | rfl | rfl <;> omega
  obtain ⟨w', ts, err, h1, h2, h3, _⟩ := C116_tracks_exact m4 (.inl hu) (.inl hct) (.inl hpt)
    (shown_ne_of_entries m5 hne) (by rw [hen ct hct]; exact htext) v rfl
  rw [hen ct hct, hen pt hpt, hen u hu, hev] at h3
  have hl := congrArg (fun x => x.1.length) h3
  dsimp only at hl
  rw [List.length_map] at hl
  have he := congrArg Prod.snd h3
  dsimp only at he
  rw [← he, ← hl]
  cases err with
  | some e =>
    have key : w.reprArrangement u ct pt v = (w', .error e) := by
      unfold World.reprArrangement
      dsimp only
      rw [h1]
    rw [key]
    exact ⟨h2.trans m5, rfl⟩
  | none =>
    have key : w.reprArrangement u ct pt v = (w', .ok [.text "Arrangement(iid=", .str (w.prop u 99), .text ", name=",
        .repr (w.prop u 241), .text ", ", .num (w.timeMarkers u).2.length, .text " timemarkers, ", .num ts.length,
        .text " tracks)"]) := by
      unfold World.reprArrangement
      dsimp only
      rw [h1]
      rfl
    rw [key, hmarks, prop_spec r hu, prop_spec r hu]
    exact ⟨h2.trans m5, rfl⟩

/-- C119: `repr(insert)` and `str(timesignature)`. -/
theorem C119_insert {w : World} {L : Nat → Prop} (r : WReach w L) {u : Nat} (hu : L u) (iid : Int) :
    w.reprInsert u iid = [.text "Insert(name=", .repr (valueOf (w.events u) 204), .text ", iid=", .num iid, .text ")"] ∧
    w.strTimeSignature u = [.text "Global time signature: ", .str (valueOf (w.events u) 17), .text "/",
      .str (valueOf (w.events u) 18)] := by
  unfold World.reprInsert World.strTimeSignature World.insertName
  rw [prop_spec r hu, prop_spec r hu, prop_spec r hu]
  exact ⟨rfl, rfl⟩

/-- C119: `repr(track)`, for every track whose data event, if it has one, has a field for the number (as parsed ones have): the number is
that of the data event, `None` without one. -/
theorem C119_track {w : World} {L : Nat → Prop} (r : WReach w L) {t : TrackObj} (ht : L t.tree)
    (hdata : ∀ v, valueOf (w.events t.tree) 238 = some v → ∃ rec x, v = .fields rec ∧ Rec.lookup rec "iid" = some x) :
    w.reprTrack t = .ok [.text "Track(name=", .str (valueOf (w.events t.tree) 239), .text ", iid=",
      .field (match valueOf (w.events t.tree) 238 with
        | some (.fields rec) => (Rec.lookup rec "iid").getD none
        | _ => none), .text ", ", .num t.items.length, .text " items)"] := by
  unfold World.reprTrack
  rw [prop_spec r ht]
  have hr : (structProp [238] "iid").read w t.tree = .ok (match valueOf (w.events t.tree) 238 with
        | some (.fields rec) => (Rec.lookup rec "iid").getD none
        | _ => none) := by
    unfold Descr.read
    rw [show (structProp [238] "iid").ids = [238] from rfl]
    rcases single_event r ht 238 with ⟨ref, f1, f4, f2, f3⟩ | ⟨f1, f2⟩
    · rw [f1, f2]
      obtain ⟨rec, x, h1, h2⟩ := hdata _ f2
      rw [h1]
      show structGet (w.ev ref) "iid" = _
      unfold structGet
      rw [h1]
      dsimp only
      rw [h2]
      rfl
    · rw [f1, f2]
      rfl
  rw [hr]

/-- C119: the texts of a note and of a controller of a list show the name of the key and the numbers the record has now. -/
theorem C119_items {l : List Rec} {s : ListObj} {hs : List Item} {es : List Edit} (r : IReach l s hs es) {it : Item} (hm : it ∈ hs)
    {rec : Rec} (hrec : s.value[it.index]? = some rec) {pos len ch : Option LV} (hpos : Rec.lookup rec "position" = some pos) :
    (∀ k, Rec.lookup rec "key" = some (some (.int k)) → Rec.lookup rec "length" = some len →
      ∃ name, IsKeyName k name ∧ s.strNote it = .ok [.chars name, .text " note @ ", .field pos, .text " of ", .field len] ∧
        (Rec.lookup rec "rack_channel" = some ch → s.reprNote it = .ok [.text "Note(key=", .chars name, .text ", position=", .field pos,
          .text ", length=", .field len, .text ", channel=", .field ch, .text ")"])) ∧
    (Rec.lookup rec "channel" = some ch →
      s.strController it = .ok [.text "Controller @ ", .field pos, .text " of channel #", .field ch]) := by
  obtain ⟨h1, h2, h3⟩ := ireach_inv r
  obtain ⟨g1, g2⟩ := h3 it hm
  have hget : ∀ key v, Rec.lookup rec key = some v → s.get it key = .ok v := by
    intro key v hv
    have hobj : s.objs.getD it.ref [] = rec := by
      unfold ListObj.value at hrec
      rw [h2, List.getElem?_map, List.getElem?_range g2] at hrec
      rw [g1]
      exact Option.some.inj hrec
    unfold ListObj.get
    rw [hobj, hv]
  constructor
  · intro k hk hlen
    refine ⟨noteName k, noteName_spec k, ?_, ?_⟩
    · unfold ListObj.strNote ListObj.noteKey
      rw [hget _ _ hk]
      dsimp only
      rw [hget _ _ hpos, hget _ _ hlen]
      rfl
    · intro hch
      unfold ListObj.reprNote ListObj.noteKey
      rw [hget _ _ hk]
      dsimp only
      rw [hget _ _ hpos, hget _ _ hlen, hget _ _ hch]
      rfl
  · intro hch
    unfold ListObj.strController
    rw [hget _ _ hpos, hget _ _ hch]
    rfl

namespace Spec

/-- The names of the formats. -/
def formatName : List (Int × String) := [(-1, "None_"), (0, "Project"), (0x10, "Score"), (24, "Automation"), (0x20, "ChannelState"),
  (0x30, "PluginState"), (0x31, "GeneratorState"), (0x32, "FXState"), (0x40, "InsertState"), (0x50, "_ProbablyPatcher")]

end Spec

/-- C119: `str(project)` names the version and the format, for every format a file can have; it raises what reading the version
raises. -/
theorem C119_project (w : World) :
    (∀ e, w.version = .error e → w.strProject = .error e) ∧
    (∀ v f name, w.version = .ok v → w.format = f → (f, name) ∈ formatName →
      w.strProject = .ok [.text "FL Studio v", .chars v.repr, .text " ", .text name]) ∧
    (∀ f ∈ formats, f ∈ formatName.map Prod.fst) := by
  refine ⟨?_, ?_, by decide⟩
  · intro e h
    unfold World.strProject
    rw [h]
  · intro v f name h hf hn
    unfold World.strProject
    rw [h, hf]
    simp only [formatName, List.mem_cons, Prod.mk.injEq, List.not_mem_nil, or_false] at hn
    rcases hn with ⟨rfl, rfl⟩ | ⟨rfl, rfl⟩ | ⟨rfl, rfl⟩ | ⟨rfl, rfl⟩ | ⟨rfl, rfl⟩ | ⟨rfl, rfl⟩ | ⟨rfl, rfl⟩ | ⟨rfl, rfl⟩ | ⟨rfl, rfl⟩ |
      ⟨rfl, rfl⟩ <;> rfl

/-! ### Where the texts fail or are wrong -/

/-- C119 is false of patterns without a `New` event: iterating over the patterns can yield one, and then neither it nor
`project.patterns` can be printed. -/
theorem C119_pattern_refuted : ∃ (w : World) (t : Nat) (L : Nat → Prop), WReach w L ∧ L t ∧ shown w.heap 0 ≠ [] ∧
    (w.iterPatterns t).2.map (fun u => ((w.iterPatterns t).1.reprPattern u).isOk) = [false, true] ∧
    (w.strPatterns t).2 = .error .keyError :=
  ⟨Demo.earlyWorld.1, Demo.earlyWorld.2, _,
    pickView_reach (.parsed Demo.early) rfl (by decide +kernel) patternsStep false, .inr rfl,
    by decide +kernel, by decide +kernel, by decide +kernel⟩

namespace Demo

/-- Two names, one position. -/
def nowhere : Project := ⟨0, 1, 96, [⟨65, .u16, .lv (.int 1), 2⟩, ⟨148, .u32, .lv (.int 96), 4⟩,
  ⟨205, .unicode, .str (PStr.lit "a"), 4⟩, ⟨205, .unicode, .str (PStr.lit "b"), 4⟩]⟩

end Demo

open Demo in
/-- C119 is false of a marker without a position: its type is `None`, but its text says that it is a signature. -/
theorem C119_marker_refuted : ∃ (w : World) (u : Nat) (L : Nat → Prop), WReach w L ∧ L u ∧
    w.markerIsSignature u = .ok none ∧ w.strMarker u = .ok [.text "Signature ", .repr (some (.str (PStr.lit "b"))), .text " (",
      .str none, .text "/", .str none, .text ") @ ", .repr none] :=
  ⟨((World.ofProject nowhere).timeMarkers 0).1, 2, _,
    .view (.parsed nowhere) rfl (by decide +kernel) (.group [33, 34, 148, 205] (by decide)), .inr (by decide +kernel),
    by decide +kernel, by decide +kernel⟩

/-- C119 is false of the arrangements when no `Current` event (100) is among their events: the text counts one arrangement more than
iterating yields. -/
theorem C119_arrangements_refuted {w : World} {L : Nat → Prop} (r : WReach w L) {t : Nat} (ht : L t) (hne : shown w.heap 0 ≠ [])
    (h : ∀ e ∈ w.entries t, e.2.id ≠ 100) {n : Nat} (hn : w.reprArrangements t = .ok [.num (n + 1), .text " arrangements"]) :
    ∃ us, (w.iterArrangements t).2 = .ok us ∧ us.length = n := by
  have hc := (C119_counts r ht).2.1
  have hx := C56_exact r ht hne
  dsimp only at hc hx
  rw [hn] at hc
  have hlen : ((w.entries t).filter fun e => decide (e.2.id = 99)).length = ((w.events t).filter fun e => decide (e.id = 99)).length := by
    rw [← World.entries_events, List.filter_map, List.length_map]
    rfl
  rw [hlen] at hx
  by_cases h0 : ((w.events t).filter fun e => decide (e.id = 99)).length = 0
  · rw [if_pos h0] at hc; cases hc
  · rw [if_neg h0] at hc hx
    obtain ⟨w', us, h1, _, h3, _⟩ := hx
    refine ⟨us, by rw [h1], ?_⟩
    rw [if_neg (by rintro ⟨e, he, hid⟩; exact h e he hid)] at h3
    have : (n : Int) + 1 = (((w.events t).filter fun e => decide (e.id = 99)).length : Nat) := by
      injection hc with hc
      injection hc with hc
      injection hc
    omega

/-! ### Witnesses -/

open Demo in
example : ∃ L, WReach ((World.ofProject markers).timeMarkers 0).1 L ∧ L 1 ∧
    markerText (((World.ofProject markers).timeMarkers 0).1.events 1) =
      [.text "Marker ", .repr (some (.str (PStr.lit "a"))), .text " @ ", .repr (some (.lv (.int 96)))] :=
  ⟨_, .view (.parsed markers) rfl (by decide +kernel) (.group [33, 34, 148, 205] (by decide)), .inr (by decide +kernel),
    by decide +kernel⟩

open Demo in
example : (tuneWorld.1.strPatterns tuneWorld.2).2 = .ok [.num 2, .text " Patterns ", .list [.lv (.int 1), .lv (.int 2)]] ∧
    (tuneWorld.1.iterPatterns tuneWorld.2).2.map (tuneWorld.1.iterPatterns tuneWorld.2).1.reprPattern =
      [.ok [.text "Pattern(iid=", .str (some (.lv (.int 1))), .text ", name=", .repr (some (.str (PStr.lit "A"))), .text ",", .num 0,
        .text " notes, ", .num 0, .text " controllers)"],
      .ok [.text "Pattern(iid=", .str (some (.lv (.int 2))), .text ", name=", .repr (some (.str (PStr.lit "B"))), .text ",", .num 0,
        .text " notes, ", .num 0, .text " controllers)"]] := by
  refine ⟨by decide +kernel, by decide +kernel⟩

open Demo in
example : let r := (rackOf band).1.iterRack (rackOf band).2
    r.2.1.map r.1.reprChannel =
      [.ok [.text "Sampler", .text " (name=", .repr (some (.str (PStr.lit "Kick"))), .text ", iid=", .str (some (.lv (.int 0))),
        .text ", sample_path=", .path none, .text ")"],
      .ok [.text "Layer", .text " (name=", .repr (some (.str (PStr.lit "Both"))), .text ", iid=", .str (some (.lv (.int 1))),
        .text ", ", .num 2, .text " children", .text ")"],
      .ok [.text "Instrument", .text " (name=", .repr (some (.str (PStr.lit "Reverb"))), .text ", iid=", .str (some (.lv (.int 2))),
        .text ")"]] := by
  decide +kernel

open Demo in
example : ((tapePats (mixtape 96)).1.reprArrangement (tapeArr (mixtape 96)).2 (tapeRack (mixtape 96)).2 (tapePats (mixtape 96)).2
      ⟨20, 8, 4, none⟩).2.toOption.map (fun t => t.drop 5) = some [.num 0, .text " timemarkers, ", .num 3, .text " tracks)"] ∧
    ((tapePats (mixtape 97)).1.reprArrangement (tapeArr (mixtape 97)).2 (tapeRack (mixtape 97)).2 (tapePats (mixtape 97)).2
      ⟨20, 8, 4, none⟩).2 = .error .attributeError := by
  refine ⟨by decide +kernel, by decide +kernel⟩

open Demo in
example : (albumWorld.1.reprArrangements albumWorld.2) = .ok [.num 2, .text " arrangements"] ∧
    (World.ofProject album).strProject = .ok [.text "FL Studio v", .chars (PStr.lit "20.8.4"), .text " ", .text "Project"] := by
  refine ⟨by decide +kernel, by decide +kernel⟩

open Demo in
example : IReach twoNotes (.parse twoNotes) ([] ++ (ListObj.parse twoNotes).items) [] ∧
    ⟨1, 1⟩ ∈ [] ++ (ListObj.parse twoNotes).items ∧ (ListObj.parse twoNotes).noteKey ⟨1, 1⟩ = .ok (PStr.lit "C#5") :=
  ⟨.fetch .parsed, by decide, by decide +kernel⟩

end PyFLP
