import Verif.Tracks
import Verif.Props.Exact
import Verif.Props.Playlist
/-!
# C116: the tracks of an arrangement, for every arrangement, rack and set of patterns
-/

namespace PyFLP

open Spec Heap

namespace Spec

/-- All results, or the first exception. -/
def allOf {α : Type} : List (Except Exc α) → Except Exc (List α)
  | [] => .ok []
  | .error e :: _ => .error e
  | .ok a :: l => (allOf l).map (a :: ·)

/-- The results up to the first exception, and this exception. -/
def upToError {α : Type} : List (Except Exc α) → List α × Option Exc
  | [] => ([], none)
  | .error e :: _ => ([], some e)
  | .ok a :: l => (a :: (upToError l).1, (upToError l).2)

/-- The position of the last occurrence. -/
def lastPos {α : Type} [DecidableEq α] (l : List α) (x : α) : Option Nat :=
  ((List.range l.length).filter fun k => decide (l[k]? = some x)).getLast?

/-- The `iid`s of the channels of a rack with these events, or the exception that iterating over it raises. -/
def rackIids (l : List Entry) : Except Exc (List Value) :=
  allOf ((cutBefore beginsChannel [] l).map fun part =>
    (channelResult (l.filter fun e => decide (e.2.id = 231)) part).map fun x => x.1)

/-- The `iid`s of the patterns with these events; a pattern without a `New` event has none. -/
def patternIids (l : List Entry) : Except Exc (List Value) :=
  allOf ((patternNumbers l).map fun n =>
    match valueOf ((patternOf l n).map Prod.snd) 65 with
    | some v => .ok v
    | none => .error .keyError)

/-- What a record stands for: the last channel whose `iid` is its `item_index`, if this is at most its `pattern_base`, else the
last pattern whose `iid` is the difference. -/
def standsFor (channels patterns : List Value) (r : Rec) : Except Exc PLTarget :=
  if r.int "item_index" ≤ r.int "pattern_base" then
    match lastPos channels (.lv (.int (r.int "item_index"))) with
    | some c => .ok (.channel c)
    | none => .error .keyError
  else
    match lastPos patterns (.lv (.int (r.int "item_index" - r.int "pattern_base"))) with
    | some p => .ok (.pattern p)
    | none => .error .keyError

/-- The number of tracks FL Studio shows. -/
def trackCount (v : FLVersion) : Int := if From1291 v then 500 else 199

/-- The positions of the records on track `k`, counted from the last track, and what they stand for. -/
def clipsOn (v : FLVersion) (channels patterns : List Value) (recs : List Rec) (k : Nat) :
    Except Exc (List (Nat × PLTarget)) :=
  allOf ((recs.zipIdx.filter fun x => decide (x.1.int "track_rvidx" = trackCount v - 1 - k)).map fun x =>
    (standsFor channels patterns x.1).map fun t => (x.2, t))

/-- What iterating over the `n` tracks of an arrangement gives in a version that can be compared with 12.9.1. -/
def tracksFound (v : FLVersion) (channels patterns : Except Exc (List Value)) (playlist : Option Event) (n : Nat) :
    List (List (Nat × PLTarget)) × Option Exc :=
  match channels, patterns, playlist with
  | .error e, _, _ => ([], some e)
  | .ok _, .error e, _ => ([], some e)
  | .ok _, .ok _, none => (List.replicate n [], none)
  | .ok cs, .ok ps, some pl =>
    if 32 ∣ pl.len ∨ 60 ∣ pl.len then
      match pl.value with
      | .items recs => upToError ((List.range n).map fun k => clipsOn v cs ps recs k)
      | _ => ([], some .typeError)
    else ([], some .attributeError)

/-- What iterating over the `n` tracks of an arrangement gives. -/
def tracksOf (v : FLVersion) (channels patterns : Except Exc (List Value)) (playlist : Option Event) (n : Nat) :
    List (List (Nat × PLTarget)) × Option Exc :=
  if v.major = 12 ∧ v.minor = 9 ∧ v.patch = 1 ∧ v.build ≠ none then ([], some .typeError)
  else tracksFound v channels patterns playlist n

/-- What begins another track: the data events of tracks but the first one. -/
def beginsTrack (before : List Entry) (e : Entry) : Bool := e.2.id == 238 && before.any fun x => x.2.id == 238

end Spec

/-! ### Lemmas -/

theorem allOf_prefix {α β : Type} (f : α → Except Exc β) : ∀ (parts : List α) (cs : List β) (err : Option Exc),
    (∀ (k : Nat) (c : β), cs[k]? = some c → ∃ b, parts[k]? = some b ∧ f b = .ok c) →
    (match err with
      | none => cs.length = parts.length
      | some x => ∃ b, parts[cs.length]? = some b ∧ f b = .error x) →
    allOf (parts.map f) = match err with
      | none => .ok cs
      | some x => .error x := by
  intro parts
  induction parts with
  | nil =>
    intro cs err h1 h2
    cases err with
    | none =>
      cases cs with
      | nil => rfl
      | cons c cs => simp at h2
    | some x =>
      obtain ⟨b, h3, _⟩ := h2
      simp at h3
  | cons p parts ih =>
    intro cs err h1 h2
    cases cs with
    | nil =>
      cases err with
      | none => simp at h2
      | some x =>
        obtain ⟨b, h3, h4⟩ := h2
        cases h3
        rw [List.map_cons, h4]
        rfl
    | cons c cs =>
      obtain ⟨b, h3, h4⟩ := h1 0 c rfl
      cases h3
      rw [List.map_cons, h4, allOf, ih cs err]
      · cases err <;> rfl
      · intro k c hk
        exact h1 (k + 1) c (by simpa using hk)
      · cases err with
        | none => simpa using h2
        | some x => simpa using h2

theorem lastPos_snoc {α : Type} [DecidableEq α] (l : List α) (a x : α) :
    lastPos (l ++ [a]) x = if a = x then some l.length else lastPos l x := by
  unfold lastPos
  rw [List.length_append, List.length_singleton, List.range_succ, List.filter_append]
  have h1 : ((List.range l.length).filter fun k => decide ((l ++ [a])[k]? = some x)) =
      (List.range l.length).filter fun k => decide (l[k]? = some x) := by
    apply List.filter_congr
    intro k hk
    rw [List.mem_range] at hk
    rw [List.getElem?_append_left hk]
  rw [h1]
  by_cases h : a = x
  · rw [if_pos h]
    simp [h]
  · rw [if_neg h]
    simp [h]

theorem dict_last {α : Type} [DecidableEq α] (l : List α) (x : α) :
    dictGet x (l.zipIdx.foldl (fun d x => dictPut x.1 x.2 d) []) = lastPos l x := by
  have key : ∀ (n : Nat) (l : List α), l.length = n →
      dictGet x (l.zipIdx.foldl (fun d x => dictPut x.1 x.2 d) []) = lastPos l x := by
    intro n
    induction n with
    | zero =>
      intro l hl
      rw [List.length_eq_zero_iff.1 hl]
      rfl
    | succ n ih =>
      intro l hl
      have hne : l ≠ [] := by intro c; rw [c] at hl; simp at hl
      obtain ⟨l', a, rfl⟩ : ∃ l' a, l = l' ++ [a] := ⟨_, _, (List.dropLast_concat_getLast hne).symm⟩
      rw [List.zipIdx_append, List.foldl_append]
      simp only [List.zipIdx_cons, List.zipIdx_nil, List.foldl_cons, List.foldl_nil, Nat.zero_add]
      rw [dictGet_put, lastPos_snoc, ih l' (by simpa using hl)]
  exact key _ l rfl

theorem lastPos_some {α : Type} [DecidableEq α] (l : List α) (x : α) : lastPos (l.map some) (some x) = lastPos l x := by
  unfold lastPos
  rw [List.length_map]
  congr 1
  apply List.filter_congr
  intro k _
  rw [List.getElem?_map]
  cases l[k]? <;> simp

theorem iidDict_get (l : List Value) (x : Value) : dictGet (some x) (iidDict (l.map some)) = lastPos l x := by
  unfold iidDict
  rw [dict_last, lastPos_some]

theorem recTarget_spec (cs ps : List Value) (r : Rec) :
    recTarget (iidDict (cs.map some)) (iidDict (ps.map some)) r = standsFor cs ps r := by
  unfold recTarget standsFor
  rw [iidDict_get, iidDict_get]
  rfl

theorem recItems_spec {v : FLVersion} (cs ps : List Value) (k : Nat) (rs : List Rec) : ∀ i,
    (recItems (trackCount v - 1) (iidDict (cs.map some)) (iidDict (ps.map some)) k i rs).map
      (List.map fun x => (x.item.index, x.target)) =
    allOf (((rs.zipIdx i).filter fun x => decide (x.1.int "track_rvidx" = trackCount v - 1 - k)).map fun x =>
      (standsFor cs ps x.1).map fun t => (x.2, t)) := by
  induction rs with
  | nil => intro i; rfl
  | cons r rs ih =>
    intro i
    rw [recItems, List.zipIdx_cons, List.filter_cons]
    by_cases h : r.int "track_rvidx" = trackCount v - 1 - k
    · rw [if_neg (by omega), if_pos (by simpa using h), recTarget_spec, List.map_cons]
      cases standsFor cs ps r with
      | error e => rfl
      | ok t =>
        rw [show (Except.map (fun t => ((r, i).2, t)) (Except.ok t : Except Exc PLTarget)) = .ok (i, t) from rfl, allOf, ← ih]
        dsimp only
        cases recItems (trackCount v - 1) (iidDict (cs.map some)) (iidDict (ps.map some)) k (i + 1) rs <;> rfl
    · rw [if_pos (by omega), if_neg (by simpa using h)]
      exact ih (i + 1)

theorem trackLoop_none (m : Int) (ch pat : List (Option Value × Nat)) (us : List Nat) : ∀ k,
    trackLoop none m ch pat k us = (us.map fun u => ⟨u, []⟩, none) := by
  induction us with
  | nil => intro k; rfl
  | cons u us ih =>
    intro k
    rw [trackLoop, ih]
    rfl

/-- What the tracks of the loop have. -/
def trackClips (ts : List TrackObj) : List (List (Nat × PLTarget)) :=
  ts.map fun t => t.items.map fun x => (x.item.index, x.target)

theorem trackLoop_some {v : FLVersion} {pl : Event} {recs : List Rec} (h : playlistRecs pl = .ok recs) (cs ps : List Value)
    (us : List Nat) : ∀ k,
    let q := trackLoop (some pl) (trackCount v - 1) (iidDict (cs.map some)) (iidDict (ps.map some)) k us
    (trackClips q.1, q.2) = upToError ((List.range' k us.length).map fun k => clipsOn v cs ps recs k) ∧
      q.1.map TrackObj.tree = us.take q.1.length := by
  induction us with
  | nil => intro k; exact ⟨rfl, rfl⟩
  | cons u us ih =>
    intro k
    dsimp only
    obtain ⟨i1, i2⟩ := ih (k + 1)
    have hr := recItems_spec (v := v) cs ps k recs 0
    rw [trackLoop, h, List.length_cons, List.range'_succ, List.map_cons]
    dsimp only
    change _ = clipsOn v cs ps recs k at hr
    rw [← hr]
    cases recItems (trackCount v - 1) (iidDict (cs.map some)) (iidDict (ps.map some)) k 0 recs with
    | error e => exact ⟨rfl, rfl⟩
    | ok items =>
      dsimp only [Except.map]
      rw [upToError, ← i1]
      exact ⟨rfl, by rw [List.map_cons, List.length_cons, List.take_succ_cons, i2]⟩

theorem div_tracks (ids : List Nat) (l : List Entry) : ∀ (before el : List Entry) (s : List Entry) (ss : List (List Entry)),
    cutBefore beginsTrack before l = s :: ss →
    divBy (fun e : Entry => e.2.id) 238 ids l el (!before.any fun x => x.2.id == 238) =
      (el ++ s.filter fun e => decide (e.2.id ∈ ids)) :: ss.map fun p => p.filter fun e => decide (e.2.id ∈ ids) := by
  induction l with
  | nil =>
    intro before el s ss h
    cases h
    simp [divBy]
  | cons e l ih =>
    intro before el s ss h
    obtain ⟨s', ss', h'⟩ := cutBefore_cons beginsTrack l (before ++ [e])
    rw [cutBefore, h'] at h
    dsimp only at h
    rw [divBy]
    cases he : beginsTrack before e with
    | true =>
      rw [he, if_pos rfl] at h
      cases h
      unfold beginsTrack at he
      rw [Bool.and_eq_true] at he
      have h1 : e.2.id = 238 := by simpa using he.1
      have h3 := ih (before ++ [e]) (if e.2.id ∈ ids then [e] else []) s' ss' h'
      rw [List.any_append, he.2] at h3
      rw [if_pos ⟨h1, by rw [he.2]; rfl⟩, List.filter_nil, List.append_nil, List.map_cons]
      simp only [Bool.true_or, Bool.not_true] at h3
      rw [h3, List.filter_cons]
      by_cases hm : e.2.id ∈ ids <;> simp [hm]
    | false =>
      rw [he, if_neg (by decide)] at h
      cases h
      have hn : ¬ (e.2.id = 238 ∧ (!before.any fun x => x.2.id == 238) = false) := by
        rintro ⟨h1, h2⟩
        unfold beginsTrack at he
        rw [h1] at he
        simp only [Bool.not_eq_false'] at h2
        rw [h2] at he
        simp at he
      have h3 := ih (before ++ [e]) (if e.2.id ∈ ids then el ++ [e] else el) s' ss h'
      rw [if_neg hn]
      have h4 : ((!before.any fun x => x.2.id == 238) && e.2.id != 238) = !(before ++ [e]).any fun x => x.2.id == 238 := by
        rw [List.any_append]
        simp [bne]
      rw [h4, h3, List.filter_cons]
      by_cases hm : e.2.id ∈ ids <;> simp [hm]

theorem rack_keeps {w : World} {L : Nat → Prop} (r : WReach w L) {t : Nat} (ht : L t) (hne : shown w.heap 0 ≠ []) {u : Nat}
    (hu : L u) : (w.iterRack t).1.entries u = w.entries u := by
  obtain ⟨a1, _, a3, _, a5⟩ := sepViews_spec r ht hne 231
  obtain ⟨_, _, _, _, b5⟩ := divViews_spec a1 (.inl ht) (shown_ne_of_entries a3 hne) 64 World.rackIds
  obtain ⟨g, _⟩ := reach_good (wreach_inv r).1
  obtain ⟨g', _⟩ := reach_good (wreach_inv a1).1
  exact (b5 u (g'.lt u (.inl hu))).trans (a5 u (g.lt u hu))

theorem patterns_keep {w : World} {L : Nat → Prop} (r : WReach w L) {t : Nat} (ht : L t) (hne : shown w.heap 0 ≠ []) {u : Nat}
    (hu : L u) : (w.iterPatterns t).1.entries u = w.entries u := by
  obtain ⟨_, _, _, h4, _, h6⟩ := iterPatterns_spec r ht hne
  obtain ⟨g, _⟩ := reach_good (wreach_inv r).1
  have h := h6 u (g.lt u hu)
  have hr : (w.iterPatterns t).1.refs u = w.refs u := by rw [World.refs_eq, World.refs_eq, h]
  have he : ∀ w : World, w.entries u = (w.refs u).map fun r => (r, w.ev r) := by
    intro w
    simp [World.entries, World.entry, World.refs]
  rw [he, he, hr]
  apply List.map_congr_left
  intro x _
  unfold World.ev
  rw [h4]

theorem patternIids_eq {w : World} {L : Nat → Prop} (r : WReach w L) (f : List (List Entry)) : ∀ (us : List Nat),
    us.map w.entries = f → (∀ u ∈ us, L u) → w.patternIids us = allOf (f.map fun b =>
      match valueOf (b.map Prod.snd) 65 with
      | some v => .ok v
      | none => .error .keyError) := by
  intro us h hL
  subst h
  induction us with
  | nil => rfl
  | cons u us ih =>
    have e : w.patternIid u = w.firstVal u 65 := rfl
    rw [World.patternIids, List.map_cons, List.map_cons, e, firstVal_spec r (hL u (by simp)), World.entries_events,
      ih fun u hu => hL u (by simp [hu])]
    cases valueOf (w.events u) 65 <;> rfl

theorem first_event {w : World} {L : Nat → Prop} (r : WReach w L) {u : Nat} (hu : L u) (id : Nat) :
    match (w.events u).find? fun e => e.id == id with
    | some e => w.contains u id = true ∧ ∃ ref, w.heap.first u id = .ok ref ∧ w.ev ref = e
    | none => w.contains u id = false := by
  rw [← World.entries_events]
  rcases first_entry r hu id with ⟨pre, ref, post, h1, h2, h3, h4⟩ | ⟨h1, h2⟩
  · have hf : ((w.entries u).map Prod.snd).find? (fun e => e.id == id) = some (w.ev ref) := by
      rw [List.find?_eq_some_iff_append]
      refine ⟨by simpa using h3, pre.map Prod.snd, post.map Prod.snd, by rw [h2]; simp, ?_⟩
      intro e he
      obtain ⟨y, hy, rfl⟩ := List.mem_map.1 he
      simpa using h4 y hy
    rw [hf]
    exact ⟨(contains_entries r hu id).2 ⟨(ref, w.ev ref), by rw [h2]; simp, h3⟩, ref, h1, rfl⟩
  · have hf : ((w.entries u).map Prod.snd).find? (fun e => e.id == id) = none := by
      rw [List.find?_eq_none]
      intro e he
      obtain ⟨y, hy, rfl⟩ := List.mem_map.1 he
      simpa using h2 y hy
    rw [hf]
    dsimp only
    rw [Bool.eq_false_iff]
    intro c
    obtain ⟨e, he, he'⟩ := (contains_entries r hu id).1 c
    exact h2 e he he'

theorem maxTrackIdx_spec {v : FLVersion} (h : ¬ Is1291Build v) : maxTrackIdx v = .ok (trackCount v - 1) := by
  unfold maxTrackIdx trackCount
  rw [le1291 h]
  by_cases hd : From1291 v <;> simp [hd]

theorem maxTrackIdx_build {v : FLVersion} (h : Is1291Build v) : maxTrackIdx v = .error .typeError := by
  obtain ⟨a, b, c, d⟩ := v
  obtain ⟨h1, h2, h3, h4⟩ := h
  dsimp only at h1 h2 h3 h4
  subst h1 h2 h3
  cases d with
  | none => exact absurd rfl h4
  | some d => rfl

/-- The rack of an arrangement: its channels have the `iid`s of the rack's parts. -/
theorem rack_iids {w : World} {L : Nat → Prop} (r : WReach w L) {t : Nat} (ht : L t) (hne : shown w.heap 0 ≠ [])
    (htext : ∀ e ∈ w.entries t, e.2.id = 201 → ∃ s, e.2.value = .str s) :
    ∃ w' cs err, w.iterRack t = (w', cs, err) ∧ w'.project = w.project ∧
      (∃ L', (∀ u, L u → L' u) ∧ WReach w' L') ∧ (∀ u, L u → w'.entries u = w.entries u) ∧
      match err with
      | some e => rackIids (w.entries t) = .error e
      | none => ∃ iids : List Value, (cs.map fun c => w'.prop c.tree 64) = iids.map some ∧ rackIids (w.entries t) = .ok iids := by
  obtain ⟨_, w', cs, err, h1, h2, ⟨L', h3, h4, h5⟩, h6, h7, h8⟩ := C72_exact r ht hne htext rfl rfl
  have hp : ∀ c ∈ cs, w'.prop c.tree 64 = some c.iid := by
    intro c hc
    obtain ⟨k, hk⟩ := List.mem_iff_getElem?.1 hc
    obtain ⟨b, g, g1, g2, _, g4⟩ := h7 k c hk
    rw [prop_spec h5 (h4 c hc), ← World.entries_events, g4, valueOf_filter (by decide)]
    unfold channelResult at g2
    split at g2
    · next e1 e2 e3 =>
      split at g2
      · injection g2 with g2
        rw [e1]
        exact congrArg (fun x => some x.1) g2
      · cases g2
    · cases g2
    · cases g2
  have hall := allOf_prefix (fun part => (channelResult ((w.entries t).filter fun e => decide (e.2.id = 231)) part).map fun x => x.1)
    (cutBefore beginsChannel [] (w.entries t)) (cs.map Chan.iid) err (by
      intro k c hk
      rw [List.getElem?_map, Option.map_eq_some_iff] at hk
      obtain ⟨c', hk, rfl⟩ := hk
      obtain ⟨b, g, g1, g2, _⟩ := h7 k c' hk
      exact ⟨b, g1, by rw [g2]; rfl⟩) (by
      cases err with
      | none => simpa using h8
      | some x =>
        obtain ⟨b, g1, g2⟩ := h8
        exact ⟨b, by simpa using g1, by rw [g2]; rfl⟩)
  have hk : ∀ u, L u → w'.entries u = w.entries u := by
    intro u hu
    have := rack_keeps r ht hne hu
    rw [h1] at this
    exact this
  refine ⟨w', cs, err, h1, h2, ⟨L', h3, h5⟩, hk, ?_⟩
  cases err with
  | some e => exact hall
  | none => exact ⟨cs.map Chan.iid, by rw [List.map_map]; exact List.map_congr_left fun c hc => hp c hc, hall⟩

/-- C116: iterating over the tracks of an arrangement gives, for every arrangement, rack and set of patterns, one track for each data
event, with the clips on it and what they stand for, up to the first exception; nothing else is changed. -/
theorem C116_tracks_exact {w : World} {L : Nat → Prop} (r : WReach w L) {u ct pt : Nat} (hu : L u) (hct : L ct) (hpt : L pt)
    (hne : shown w.heap 0 ≠ []) (htext : ∀ e ∈ w.entries ct, e.2.id = 201 → ∃ s, e.2.value = .str s) (v : FLVersion)
    {parts : List (List Entry)} (hparts : parts = cutBefore beginsTrack [] (w.entries u)) :
    ∃ w' ts err, w.iterTracks u ct pt v = (w', ts, err) ∧ w'.project = w.project ∧
      (ts.map fun t => t.items.map fun x => (x.item.index, x.target), err) =
        tracksOf v (rackIids (w.entries ct)) (patternIids (w.entries pt)) ((w.events u).find? fun e => e.id == 233) parts.length ∧
      ts.map (fun t => w'.entries t.tree) = (parts.take ts.length).map (fun p => p.filter isTrackEvent) ∧
      ∃ L', (∀ u, L u → L' u) ∧ (∀ t ∈ ts, L' t.tree) ∧ WReach w' L' := by
  unfold World.iterTracks
  by_cases hv : Is1291Build v
  · rw [maxTrackIdx_build hv]
    refine ⟨w, [], some .typeError, rfl, rfl, ?_, rfl, L, fun _ h => h, fun _ h => (by cases h), r⟩
    unfold tracksOf
    unfold Is1291Build at hv
    rw [if_pos hv]
    rfl
  have htr : ∀ c p q n, tracksOf v c p q n = tracksFound v c p q n := by
    intro c p q n
    unfold tracksOf
    unfold Is1291Build at hv
    rw [if_neg hv]
  rw [maxTrackIdx_spec hv, htr]
  obtain ⟨w1, cs, err, a1, a2, ⟨L1, a3, a4⟩, a5, a6⟩ := rack_iids r hct hne htext
  rw [a1]
  dsimp only
  cases err with
  | some e =>
    dsimp only at a6 ⊢
    rw [a6]
    unfold tracksFound
    exact ⟨w1, [], some e, rfl, a2, rfl, rfl, L1, a3, fun _ h => (by cases h), a4⟩
  | none =>
  obtain ⟨iids, a6, a7⟩ := a6
  dsimp only
  rw [a7, a6]
  have hne1 := shown_ne_of_entries a2 hne
  obtain ⟨b1, b2, b3, b4, b5, b6⟩ := iterPatterns_spec a4 (a3 pt hpt) hne1
  have b7 : (w1.iterPatterns pt).1.entries u = w.entries u := (patterns_keep a4 (a3 pt hpt) hne1 (a3 u hu)).trans (a5 u hu)
  rw [a5 pt hpt] at b2
  have b8 := patternIids_eq b1 _ (w1.iterPatterns pt).2 b2 fun u hu => .inr hu
  rw [List.map_map] at b8
  change _ = patternIids (w.entries pt) at b8
  have hL2 : ∀ u, L u → (L1 u ∨ u ∈ (w1.iterPatterns pt).2) := fun u h => .inl (a3 u h)
  generalize hw2 : (w1.iterPatterns pt).1 = w2 at b1 b3 b4 b6 b7 b8 ⊢
  generalize (w1.iterPatterns pt).2 = ps at b1 b8 hL2 ⊢
  have hp2 : w2.project = w.project := b3.trans a2
  rw [← b8]
  cases w2.patternIids ps with
  | error e => unfold tracksFound; exact ⟨w2, [], some e, rfl, hp2, rfl, rfl, _, hL2, fun _ h => (by cases h), b1⟩
  | ok piids =>
  dsimp only
  unfold tracksFound
  have hne2 := shown_ne_of_entries hp2 hne
  obtain ⟨c1, c2, c3, c4, c5⟩ := divViews_spec b1 (hL2 u hu) hne2 238 [239, 238]
  have hus : (w2.trackViews u).2.map (w2.trackViews u).1.entries = parts.map fun p => p.filter isTrackEvent := by
    obtain ⟨s, ss, hs⟩ := cutBefore_cons beginsTrack (w.entries u) []
    rw [hparts, hs]
    have := div_tracks [239, 238] (w.entries u) [] [] s ss hs
    rw [b7] at c2
    exact c2.trans this
  have hnp : parts ≠ [] := by
    obtain ⟨s, ss, hs⟩ := cutBefore_cons beginsTrack (w.entries u) []
    rw [hparts, hs]
    simp
  have hlen : (w2.trackViews u).2.length = parts.length := by
    have := congrArg List.length hus
    simpa using this
  have hev : w2.events u = w.events u := by rw [← World.entries_events, ← World.entries_events, b7]
  have hL3 : ∀ u', L u' → ((L1 u' ∨ u' ∈ ps) ∨ u' ∈ (w2.trackViews u).2) := fun u h => .inl (hL2 u h)
  change WReach (w2.trackViews u).1 (fun u' => (L1 u' ∨ u' ∈ ps) ∨ u' ∈ (w2.trackViews u).2) at c1
  change (w2.trackViews u).1.project = w2.project at c3
  have hfe := first_event b1 (hL2 u hu) 233
  rw [hev] at hfe
  -- the trees of the tracks
  have trees : ∀ ts : List TrackObj, ts.map TrackObj.tree = (w2.trackViews u).2.take ts.length →
      ts.map (fun t => (w2.trackViews u).1.entries t.tree) = (parts.take ts.length).map (fun p => p.filter isTrackEvent) ∧
      ∀ t ∈ ts, (L1 t.tree ∨ t.tree ∈ ps) ∨ t.tree ∈ (w2.trackViews u).2 := by
    intro ts ht
    constructor
    · have : ts.map (fun t => (w2.trackViews u).1.entries t.tree) = (ts.map TrackObj.tree).map (w2.trackViews u).1.entries := by
        rw [List.map_map]; rfl
      rw [this, ht, List.map_take, hus, List.map_take]
    · intro t hm
      right
      have : t.tree ∈ ts.map TrackObj.tree := List.mem_map.2 ⟨t, hm, rfl⟩
      rw [ht] at this
      exact List.mem_of_mem_take this
  cases hpl : (w.events u).find? fun e => e.id == 233 with
  | none =>
    rw [hpl] at hfe
    dsimp only at hfe
    rw [hfe, if_neg (by decide), trackLoop_none]
    obtain ⟨t1, t2⟩ := trees ((w2.trackViews u).2.map fun u => ⟨u, []⟩) (by
      rw [List.map_map, List.length_map, List.take_length]
      exact List.map_id _)
    refine ⟨_, _, _, rfl, c3.trans hp2, ?_, t1, _, hL3, t2, c1⟩
    rw [List.map_map, ← hlen]
    congr 1
    exact List.map_const' ..
  | some pl =>
    rw [hpl] at hfe
    dsimp only at hfe
    obtain ⟨f1, ref, f2, f3⟩ := hfe
    rw [f1, if_pos rfl, f2]
    dsimp only
    rw [f3]
    have hcond : (pl.len % 32 = 0 ∨ pl.len % 60 = 0) ↔ (32 ∣ pl.len ∨ 60 ∣ pl.len) := by
      rw [Nat.dvd_iff_mod_eq_zero, Nat.dvd_iff_mod_eq_zero]
    have hfail : ∀ e, playlistRecs pl = .error e → ∀ (us : List Nat), us ≠ [] →
        trackLoop (some pl) (trackCount v - 1) (iidDict (iids.map some)) (iidDict (piids.map some)) 0 us = ([], some e) := by
      intro e he us hu
      cases us with
      | nil => exact absurd rfl hu
      | cons u us => rw [trackLoop, he]
    have husne : (w2.trackViews u).2 ≠ [] := by
      intro c
      rw [c] at hlen
      exact hnp (List.length_eq_zero_iff.1 hlen.symm)
    by_cases hc : 32 ∣ pl.len ∨ 60 ∣ pl.len
    · rw [if_pos hc]
      by_cases hi : ∃ recs, pl.value = .items recs
      · obtain ⟨recs, hi⟩ := hi
        have hrec : playlistRecs pl = .ok recs := by
          unfold playlistRecs
          rw [if_pos (hcond.2 hc), hi]
        obtain ⟨q1, q2⟩ := trackLoop_some (v := v) hrec iids piids (w2.trackViews u).2 0
        rw [hi]
        dsimp only
        obtain ⟨t1, t2⟩ := trees _ q2
        refine ⟨_, _, _, rfl, c3.trans hp2, ?_, t1, _, hL3, t2, c1⟩
        rw [← hlen, List.range_eq_range']
        exact q1
      · have hrec : playlistRecs pl = .error .typeError := by
          unfold playlistRecs
          rw [if_pos (hcond.2 hc)]
          split
          · next l hl => exact absurd ⟨l, hl⟩ hi
          · rfl
        rw [hfail _ hrec _ husne]
        refine ⟨_, _, _, rfl, c3.trans hp2, ?_, rfl, _, hL3, fun _ h => (by cases h), c1⟩
        split
        · next l hl => exact absurd ⟨l, hl⟩ hi
        · rfl
    · have hrec : playlistRecs pl = .error .attributeError := by
        unfold playlistRecs
        rw [if_neg (fun h => hc (hcond.1 h))]
      rw [if_neg hc, hfail _ hrec _ husne]
      exact ⟨_, _, _, rfl, c3.trans hp2, rfl, rfl, _, hL3, fun _ h => (by cases h), c1⟩

theorem allOf_ok {α β : Type} {f : α → Except Exc β} {l : List α} (h : ∀ x ∈ l, ∃ y, f x = .ok y) :
    ∃ ys, allOf (l.map f) = .ok ys ∧ ys.length = l.length ∧
      ∀ (k : Nat) (y : β), ys[k]? = some y ↔ ∃ x, l[k]? = some x ∧ f x = .ok y := by
  induction l with
  | nil => exact ⟨[], rfl, rfl, by simp⟩
  | cons a l ih =>
    obtain ⟨ys, h1, h2, h3⟩ := ih fun x hx => h x (by simp [hx])
    obtain ⟨y, hy⟩ := h a (by simp)
    refine ⟨y :: ys, by rw [List.map_cons, hy, allOf, h1]; rfl, by simp [h2], ?_⟩
    intro k z
    cases k with
    | zero =>
      simp only [List.getElem?_cons_zero, Option.some.injEq, exists_eq_left']
      rw [hy]
      simp
    | succ k => simpa using h3 k z

theorem upToError_ok {α β : Type} {f : α → Except Exc β} {l : List α} (h : ∀ x ∈ l, ∃ y, f x = .ok y) :
    ∃ ys, upToError (l.map f) = (ys, none) ∧ ys.length = l.length ∧
      ∀ (k : Nat) (y : β), ys[k]? = some y ↔ ∃ x, l[k]? = some x ∧ f x = .ok y := by
  induction l with
  | nil => exact ⟨[], rfl, rfl, by simp⟩
  | cons a l ih =>
    obtain ⟨ys, h1, h2, h3⟩ := ih fun x hx => h x (by simp [hx])
    obtain ⟨y, hy⟩ := h a (by simp)
    refine ⟨y :: ys, by rw [List.map_cons, hy, upToError, h1], by simp [h2], ?_⟩
    intro k z
    cases k with
    | zero =>
      simp only [List.getElem?_cons_zero, Option.some.injEq, exists_eq_left']
      rw [hy]
      simp
    | succ k => simpa using h3 k z

/-- The clips of one track. -/
theorem clipsOn_ok {v : FLVersion} {cs ps : List Value} {recs : List Rec} (h : ∀ rec ∈ recs, ∃ t, standsFor cs ps rec = .ok t)
    (k : Nat) : ∃ ys, clipsOn v cs ps recs k = .ok ys ∧ (ys.map Prod.fst).Pairwise (· < ·) ∧
      ∀ i t, (i, t) ∈ ys ↔ ∃ rec, recs[i]? = some rec ∧ rec.int "track_rvidx" = trackCount v - 1 - k ∧ standsFor cs ps rec = .ok t := by
  unfold clipsOn
  obtain ⟨ys, h1, h2, h3⟩ := allOf_ok (f := fun x : Rec × Nat => (standsFor cs ps x.1).map fun t => (x.2, t))
    (l := recs.zipIdx.filter fun x => decide (x.1.int "track_rvidx" = trackCount v - 1 - k)) (by
      intro x hx
      have hx := (List.mem_filter.1 hx).1
      obtain ⟨i, hi⟩ := List.mem_iff_getElem?.1 hx
      rw [List.getElem?_zipIdx] at hi
      obtain ⟨r, hr, rfl⟩ := Option.map_eq_some_iff.1 hi
      obtain ⟨t, ht⟩ := h r (List.mem_of_getElem? hr)
      exact ⟨(0 + i, t), by rw [ht]; rfl⟩)
  have hval : ∀ (x : Rec × Nat) y, (standsFor cs ps x.1).map (fun t => (x.2, t)) = .ok y ↔ x.2 = y.1 ∧ standsFor cs ps x.1 = .ok y.2 := by
    intro x y
    cases standsFor cs ps x.1 with
    | error e => simp [Except.map]
    | ok t =>
      obtain ⟨a, b⟩ := y
      simp [Except.map]
  refine ⟨ys, h1, ?_, ?_⟩
  · have hfst : ys.map Prod.fst = (recs.zipIdx.filter fun x => decide (x.1.int "track_rvidx" = trackCount v - 1 - k)).map Prod.snd := by
      apply List.ext_getElem?
      intro j
      rw [List.getElem?_map, List.getElem?_map]
      cases hy : ys[j]? with
      | none =>
        have : ys.length ≤ j := List.getElem?_eq_none_iff.1 hy
        rw [List.getElem?_eq_none (by omega)]
        rfl
      | some y =>
        obtain ⟨x, g1, g2⟩ := (h3 j y).1 hy
        rw [g1]
        exact congrArg some ((hval x y).1 g2).1.symm
    rw [hfst]
    have hsub : ((recs.zipIdx.filter fun x => decide (x.1.int "track_rvidx" = trackCount v - 1 - k)).map Prod.snd).Sublist
        (recs.zipIdx.map Prod.snd) := List.Sublist.map _ List.filter_sublist
    refine List.Pairwise.sublist hsub ?_
    rw [List.zipIdx_map_snd]
    exact List.pairwise_lt_range'
  · intro i t
    constructor
    · intro hm
      obtain ⟨j, hj⟩ := List.mem_iff_getElem?.1 hm
      obtain ⟨x, g1, g2⟩ := (h3 j _).1 hj
      obtain ⟨g3, g4⟩ := (hval x _).1 g2
      have hx := List.mem_filter.1 (List.mem_of_getElem? g1)
      obtain ⟨i', hi⟩ := List.mem_iff_getElem?.1 hx.1
      rw [List.getElem?_zipIdx] at hi
      obtain ⟨r, hr, rfl⟩ := Option.map_eq_some_iff.1 hi
      dsimp only at g3 g4
      have : i' = i := by omega
      subst this
      exact ⟨r, hr, by simpa using hx.2, g4⟩
    · rintro ⟨r, hr, hk, ht⟩
      have hx : (r, i) ∈ recs.zipIdx.filter fun x => decide (x.1.int "track_rvidx" = trackCount v - 1 - k) := by
        rw [List.mem_filter]
        refine ⟨List.mem_iff_getElem?.2 ⟨i, ?_⟩, by simpa using hk⟩
        rw [List.getElem?_zipIdx, hr]
        simp
      obtain ⟨j, hj⟩ := List.mem_iff_getElem?.1 hx
      exact List.mem_of_getElem? ((h3 j (i, t)).2 ⟨(r, i), hj, (hval _ _).2 ⟨rfl, ht⟩⟩)

/-- C116 where nothing is wrong: the rack and the patterns can be iterated, the size of the playlist is that of a playlist and every
record stands for a channel or a pattern.  Then there is one track for every data event, with its events, and it has exactly the
records whose number is the track's, counted from the last track, in their order, with what they stand for. -/
theorem C116_tracks_partial {w : World} {L : Nat → Prop} (r : WReach w L) {u ct pt : Nat} (hu : L u) (hct : L ct) (hpt : L pt)
    (hne : shown w.heap 0 ≠ []) (htext : ∀ e ∈ w.entries ct, e.2.id = 201 → ∃ s, e.2.value = .str s) {v : FLVersion}
    (hv : ¬ Is1291Build v) {parts : List (List Entry)} (hparts : parts = cutBefore beginsTrack [] (w.entries u))
    {cs ps : List Value} (hc : rackIids (w.entries ct) = .ok cs) (hp : patternIids (w.entries pt) = .ok ps)
    {pl : Event} {recs : List Rec} (hpl : ((w.events u).find? fun e => e.id == 233) = some pl) (hval : pl.value = .items recs)
    (hsize : 32 ∣ pl.len ∨ 60 ∣ pl.len) (hst : ∀ rec ∈ recs, ∃ t, standsFor cs ps rec = .ok t) :
    ∃ w' ts, w.iterTracks u ct pt v = (w', ts, none) ∧ w'.project = w.project ∧ ts.length = parts.length ∧
      ∀ (k : Nat) (t : TrackObj), ts[k]? = some t →
        (∃ p, parts[k]? = some p ∧ w'.entries t.tree = p.filter isTrackEvent) ∧
        (t.items.map fun x => x.item.index).Pairwise (· < ·) ∧
        ∀ i tgt, (i, tgt) ∈ (t.items.map fun x => (x.item.index, x.target)) ↔
          ∃ rec, recs[i]? = some rec ∧ rec.int "track_rvidx" = trackCount v - 1 - k ∧ standsFor cs ps rec = .ok tgt := by
  obtain ⟨w', ts, err, h1, h2, h3, h4, _⟩ := C116_tracks_exact r hu hct hpt hne htext v hparts
  have hall : ∀ k ∈ List.range parts.length, ∃ y, clipsOn v cs ps recs k = .ok y := by
    intro k _
    obtain ⟨ys, g, _⟩ := clipsOn_ok (v := v) hst k
    exact ⟨ys, g⟩
  obtain ⟨ys, g1, g2, g3⟩ := upToError_ok hall
  have htr : tracksOf v (rackIids (w.entries ct)) (patternIids (w.entries pt)) ((w.events u).find? fun e => e.id == 233)
      parts.length = (ys, none) := by
    unfold tracksOf
    unfold Is1291Build at hv
    rw [if_neg hv, hc, hp, hpl]
    unfold tracksFound
    dsimp only
    rw [if_pos hsize, hval]
    exact g1
  rw [htr] at h3
  obtain ⟨e1, e2⟩ := Prod.mk.inj h3
  subst e2
  have hlen : ts.length = parts.length := by
    have := congrArg List.length e1
    rw [List.length_map, g2, List.length_range] at this
    exact this
  refine ⟨w', ts, h1, h2, hlen, ?_⟩
  intro k t hk
  have hkl : k < ts.length := (List.getElem?_eq_some_iff.1 hk).1
  have hy : ys[k]? = some (t.items.map fun x => (x.item.index, x.target)) := by
    rw [← e1, List.getElem?_map, hk]
    rfl
  obtain ⟨k', q1, q2⟩ := (g3 k _).1 hy
  have : k' = k := by
    rw [List.getElem?_range (by omega)] at q1
    exact (Option.some.inj q1).symm
  subst this
  obtain ⟨zs, z1, z2, z3⟩ := clipsOn_ok (v := v) hst k'
  rw [z1] at q2
  injection q2 with q2
  subst q2
  refine ⟨⟨parts[k']'(by omega), List.getElem?_eq_getElem _, ?_⟩, ?_, z3⟩
  · have := congrArg (fun l : List (List Entry) => l[k']?) h4
    simp only [List.getElem?_map, hk, Option.map_some, hlen, List.take_length] at this
    rw [List.getElem?_eq_getElem (by omega)] at this
    exact Option.some.inj this
  · rw [List.map_map] at z2
    exact z2

/-- C116 is false of a playlist whose size is a multiple of neither 32 nor 60: although its records are there, no track is yielded and
`AttributeError` is raised.  It is also false if some pattern has no `New` event or some channel has no type or group: then
no track of any arrangement can be had, whether it has clips or not. -/
theorem C116_tracks_refuted {w : World} {L : Nat → Prop} (r : WReach w L) {u ct pt : Nat} (hu : L u) (hct : L ct) (hpt : L pt)
    (hne : shown w.heap 0 ≠ []) (htext : ∀ e ∈ w.entries ct, e.2.id = 201 → ∃ s, e.2.value = .str s) {v : FLVersion}
    (hv : ¬ Is1291Build v) :
    (∀ cs ps pl, rackIids (w.entries ct) = .ok cs → patternIids (w.entries pt) = .ok ps →
      ((w.events u).find? fun e => e.id == 233) = some pl → ¬ 32 ∣ pl.len → ¬ 60 ∣ pl.len →
      (w.iterTracks u ct pt v).2 = ([], some .attributeError)) ∧
    (∀ e, rackIids (w.entries ct) = .error e → (w.iterTracks u ct pt v).2 = ([], some e)) ∧
    ∀ cs e, rackIids (w.entries ct) = .ok cs → patternIids (w.entries pt) = .error e →
      (w.iterTracks u ct pt v).2 = ([], some e) := by
  obtain ⟨w', ts, err, h1, _, h3, _⟩ := C116_tracks_exact r hu hct hpt hne htext v rfl
  rw [h1]
  unfold tracksOf at h3
  unfold Is1291Build at hv
  rw [if_neg hv] at h3
  unfold tracksFound at h3
  have fin : ∀ e, (ts.map fun t => t.items.map fun x => (x.item.index, x.target), err) = ([], some e) → (ts, err) = ([], some e) := by
    intro e h
    obtain ⟨e1, e2⟩ := Prod.mk.inj h
    rw [List.map_eq_nil_iff.1 e1, e2]
  refine ⟨?_, ?_, ?_⟩
  · intro cs ps pl hc hp hpl h32 h60
    rw [hc, hp, hpl] at h3
    dsimp only at h3
    rw [if_neg (fun h => h.elim h32 h60)] at h3
    exact fin _ h3
  · intro e hc
    rw [hc] at h3
    exact fin _ h3
  · intro cs e hc hp
    rw [hc, hp] at h3
    exact fin _ h3

namespace Demo

/-- Two channels, a pattern and an arrangement with three tracks; its playlist has the pattern on the first track, the second channel
on the second one and a clip of a fourth track; `size` is the size of the playlist's data. -/
def mixtape (size : Nat) : Project := ⟨0, 2, 96, [
  ⟨199, .ascii, .str (PStr.lit "20.8.4"), 7⟩, ⟨231, .unicode, .str (PStr.lit "All"), 8⟩,
  ⟨65, .u16, .lv (.int 1), 2⟩,
  ⟨64, .u16, .lv (.int 0), 2⟩, ⟨21, .u8, .lv (.int 4), 1⟩, ⟨145, .i32, .lv (.int 0), 4⟩,
  ⟨64, .u16, .lv (.int 3), 2⟩, ⟨21, .u8, .lv (.int 0), 1⟩, ⟨145, .i32, .lv (.int 0), 4⟩,
  ⟨99, .u16, .lv (.int 0), 2⟩, ⟨241, .unicode, .str (PStr.lit "A"), 4⟩,
  ⟨233, .list .playlist, .items [plClip 20481 20480 499, plClip 3 20480 498, plClip 0 20480 496], size⟩,
  ⟨238, .struct .track, .fields [("iid", some (.int 1))], 4⟩, ⟨239, .unicode, .str (PStr.lit "Drums"), 12⟩,
  ⟨238, .struct .track, .fields [("iid", some (.int 2))], 4⟩, ⟨238, .struct .track, .fields [("iid", some (.int 3))], 4⟩,
  ⟨100, .u16, .lv (.int 0), 2⟩]⟩

/-- `project.arrangements` and the views of channels and patterns it makes. -/
def tapeArr (p : Project) : World × Nat := (World.ofProject p).pickView 0 arrangementsStep false
def tapeRack (p : Project) : World × Nat := (tapeArr p).1.channels
def tapePats (p : Project) : World × Nat := (tapeRack p).1.patterns

/-- The trees a program holds after `project.arrangements`. -/
def tapeHeld (p : Project) (u : Nat) : Prop := ((u = 0 ∨ u = (tapeArr p).2) ∨ u = (tapeRack p).2) ∨ u = (tapePats p).2

theorem tape_reach (p : Project) (h0 : shown (World.ofProject p).heap 0 ≠ []) (h1 : shown (tapeArr p).1.heap 0 ≠ [])
    (h2 : shown (tapeRack p).1.heap 0 ≠ []) : WReach (tapePats p).1 (tapeHeld p) :=
  pickView_reach (pickView_reach (pickView_reach (.parsed p) rfl h0 arrangementsStep false) (.inl rfl) h1 channelsStep ())
    (.inl (.inl rfl)) h2 patternsStep false

end Demo

open Demo in
/-- The arrangement of the demo project, with a playlist of 96 bytes: all hypotheses of `C116_tracks_partial` hold. -/
example : WReach (tapePats (mixtape 96)).1 (tapeHeld (mixtape 96)) ∧ tapeHeld (mixtape 96) (tapeArr (mixtape 96)).2 ∧
    shown (tapePats (mixtape 96)).1.heap 0 ≠ [] ∧
    (∀ e ∈ (tapePats (mixtape 96)).1.entries (tapeRack (mixtape 96)).2, e.2.id ≠ 201) ∧
    rackIids ((tapePats (mixtape 96)).1.entries (tapeRack (mixtape 96)).2) = .ok [.lv (.int 0), .lv (.int 3)] ∧
    patternIids ((tapePats (mixtape 96)).1.entries (tapePats (mixtape 96)).2) = .ok [.lv (.int 1)] ∧
    (∀ rec ∈ [plClip 20481 20480 499, plClip 3 20480 498, plClip 0 20480 496],
      (standsFor [.lv (.int 0), .lv (.int 3)] [.lv (.int 1)] rec).toOption.isSome) ∧
    (let r := (tapePats (mixtape 96)).1.iterTracks (tapeArr (mixtape 96)).2 (tapeRack (mixtape 96)).2 (tapePats (mixtape 96)).2
        ⟨20, 8, 4, none⟩;
      (r.2.1.map fun t => (t.items, (r.1.events t.tree).map Event.id)) =
        [([⟨⟨0, 0⟩, .pattern 0⟩], [238, 239]), ([⟨⟨1, 1⟩, .channel 1⟩], [238]), ([], [238])] ∧ r.2.2 = none) := by
  refine ⟨tape_reach _ (by decide +kernel) (by decide +kernel) (by decide +kernel), .inl (.inl (.inr rfl)), by decide +kernel,
    by decide +kernel, by decide +kernel, by decide +kernel, by decide +kernel, by decide +kernel⟩

open Demo in
/-- The same with a playlist of 97 bytes, as it is read from a file: `AttributeError`. -/
example [FloatEnv] (bs : Bytes) (h : bs.length = 97) : (Kind.list .playlist).parse bs = .ok (.items (greedyParse ⟨97⟩ LName.playlist.fields bs).1) ∧
    ((tapePats (mixtape 97)).1.iterTracks (tapeArr (mixtape 97)).2 (tapeRack (mixtape 97)).2 (tapePats (mixtape 97)).2
      ⟨20, 8, 4, none⟩).2 = ([], some .attributeError) := by
  refine ⟨by unfold Kind.parse; rw [h], by decide +kernel⟩

end PyFLP
