import Verif.Props.Layout
import Verif.Props.PropTable
/-!
# C131: at which place of the data each named field is
-/

namespace PyFLP

open Spec

namespace Spec

/-- Four more bytes in front if the data has this size. -/
def front (size len : Nat) : Nat := if len = size then 4 else 0

/-- Where the named fields of struct events are: name, place of the first byte, type.  `len` is the size of the data. -/
def structLayout (s : SName) (len : Nat) : List (String × Nat × Leaf) :=
  match s with
  | .delay =>
    [("feedback", 0, .int 4 false), ("pan", 4, .int 4 true), ("pitch_shift", 8, .int 4 true),
     ("echoes", 12, .int 4 false), ("time", 16, .int 4 false)]
  | .envelopeLFO =>
    [("flags", 0, .flagsS 39), ("envelope.enabled", 4, .int 4 true), ("envelope.predelay", 8, .int 4 true),
     ("envelope.attack", 12, .int 4 true), ("envelope.hold", 16, .int 4 true), ("envelope.decay", 20, .int 4 true),
     ("envelope.sustain", 24, .int 4 true), ("envelope.release", 28, .int 4 true),
     ("envelope.amount", 32, .int 4 true), ("lfo.predelay", 36, .int 4 false), ("lfo.attack", 40, .int 4 false),
     ("lfo.amount", 44, .int 4 true), ("lfo.speed", 48, .int 4 false), ("lfo.shape", 52, .int 4 true),
     ("envelope.attack_tension", 56, .int 4 true), ("envelope.decay_tension", 60, .int 4 true),
     ("envelope.release_tension", 64, .int 4 true)]
  | .levelAdjusts =>
    [("pan", 0, .int 4 true), ("volume", 4, .int 4 false), ("mod_x", 12, .int 4 true), ("mod_y", 16, .int 4 true)]
  | .levels =>
    [("pan", 0, .int 4 true), ("volume", 4, .int 4 false), ("pitch_shift", 8, .int 4 true),
     ("filter.mod_x", 12, .int 4 false), ("filter.mod_y", 16, .int 4 false), ("filter.type", 20, .int 4 false)]
  | .parameters =>
    [("fx.remove_dc", 9, .flag), ("delay.flags", 10, .int 1 false), ("keyboard.main_pitch", 11, .flag),
     ("arp.direction", 40, .int 4 false), ("arp.range", 44, .int 4 false), ("arp.chord", 48, .int 4 false),
     ("arp.time", 52, .f32), ("arp.gate", 56, .f32), ("arp.slide", 60, .flag), ("time.full_porta", 62, .flag),
     ("keyboard.add_root", 63, .flag), ("time.gate", 64, .int 2 false), ("keyboard.key_region", 68, .pair32),
     ("fx.normalize", 80, .flag), ("fx.inverted", 81, .flag), ("content.declick_mode", 83, .int 1 false),
     ("fx.crossfade", 84, .int 4 false), ("fx.trim", 88, .int 4 false), ("arp.repeat", 92, .int 4 false),
     ("stretching.time", 96, .musical), ("stretching.pitch", 100, .int 4 true),
     ("stretching.multiplier", 104, .log2), ("stretching.mode", 108, .int 4 true), ("fx.start", 133, .logNormal),
     ("fx.length", 141, .logNormal), ("playback.start_offset", 148, .int 4 false), ("fx.fix_trim", 157, .flag)]
  | .polyphony =>
    [("max", 0, .int 4 false), ("slide", 4, .int 4 false), ("flags", 8, .int 1 false)]
  | .tracking =>
    [("middle_value", 0, .int 4 false), ("pan", 4, .int 4 true), ("mod_x", 8, .int 4 true),
     ("mod_y", 12, .int 4 true)]
  | .insertFlags =>
    [("flags", 4, .int 4 false)]
  | .plSelection =>
    [("start", 0, .int 4 false), ("end", 4, .int 4 false)]
  | .track =>
    [("iid", 0, .int 4 false), ("color", 4, .int 4 false), ("icon", 8, .int 4 false), ("enabled", 12, .flag),
     ("height", 13, .height), ("locked_height", 17, .int 4 true), ("content_locked", 21, .flag),
     ("motion", 22, .int 4 false), ("press", 26, .int 4 false), ("trigger_sync", 30, .int 4 false),
     ("queued", 34, .fourBool), ("tolerant", 38, .fourBool), ("position_sync", 42, .int 4 false),
     ("grouped", 46, .flag), ("locked", 47, .flag)]
  | .timestamp =>
    [("created_on", 0, .f64), ("time_spent", 8, .f64)]
  | .wrapper =>
    [("flags", 16, .int 2 false), ("page", 20, .int 1 false), ("width", 44, .int 4 false),
     ("height", 48, .int 4 false)]
  | .midiController =>
    []
  | .remoteController =>
    [("parameter_data", 4, .int 2 false), ("destination_data", 6, .int 2 true)]
  | .booBass =>
    [("bass", 0 + front 16 len, .int 4 false), ("mid", 4 + front 16 len, .int 4 false),
     ("high", 8 + front 16 len, .int 4 false)]
  | .fruitKick =>
    [("max_freq", 4, .int 4 true), ("min_freq", 8, .int 4 true), ("freq_decay", 12, .int 4 false),
     ("amp_decay", 16, .int 4 false), ("click", 20, .int 4 false), ("distortion", 24, .int 4 false)]
  | .fruityBalance =>
    [("pan", 0, .int 4 false), ("volume", 4, .int 4 false)]
  | .fruityBloodOverdrive =>
    [("pre_band", 0 + front 36 len, .int 4 false), ("color", 4 + front 36 len, .int 4 false),
     ("pre_amp", 8 + front 36 len, .int 4 false), ("x100", 12 + front 36 len, .fourBool),
     ("post_filter", 16 + front 36 len, .int 4 false), ("post_gain", 20 + front 36 len, .int 4 false)]
  | .fruityCenter =>
    [("enabled", 0 + front 8 len, .fourBool)]
  | .fruityFastDist =>
    [("pre", 0, .int 4 false), ("threshold", 4, .int 4 false), ("kind", 8, .int 4 false), ("mix", 12, .int 4 false),
     ("post", 16, .int 4 false)]
  | .fruitySend =>
    [("pan", 0, .int 4 true), ("dry", 4, .int 4 false), ("volume", 8, .int 4 false), ("send_to", 12, .int 4 true)]
  | .fruitySoftClipper =>
    [("threshold", 0, .int 4 false), ("post", 4, .int 4 false)]
  | .fruityStereoEnhancer =>
    [("pan", 0, .int 4 true), ("volume", 4, .int 4 false), ("stereo_separation", 8, .int 4 false),
     ("phase_offset", 12, .int 4 false), ("effect_position", 16, .int 4 false), ("phase_inversion", 20, .int 4 false)]
  | .plucked =>
    [("decay", 0, .int 4 false), ("color", 4, .int 4 false), ("normalize", 8, .fourBool), ("gate", 12, .fourBool),
     ("widen", 16, .fourBool)]
  | .soundgoodizer =>
    [("mode", 0 + front 12 len, .int 4 false), ("amount", 4 + front 12 len, .int 4 false)]

/-- Where the fields of the items of list events are. -/
def listLayout : LName → List (String × Nat × Leaf)
  | .controller =>
    [("position", 0, .int 4 false), ("channel", 6, .int 1 false), ("value", 8, .f32)]
  | .notes =>
    [("position", 0, .int 4 false), ("flags", 4, .int 2 false), ("rack_channel", 6, .int 2 false),
     ("length", 8, .int 4 false), ("key", 12, .int 2 false), ("group", 14, .int 2 false),
     ("fine_pitch", 16, .int 1 false), ("release", 18, .int 1 false), ("midi_channel", 19, .int 1 false),
     ("pan", 20, .int 1 false), ("velocity", 21, .int 1 false), ("mod_x", 22, .int 1 false),
     ("mod_y", 23, .int 1 false)]
  | .mixerParams =>
    [("id", 4, .int 1 false), ("channel_data", 6, .int 2 false), ("msg", 8, .int 4 true)]
  | .playlist =>
    [("position", 0, .int 4 false), ("pattern_base", 4, .int 2 false), ("item_index", 6, .int 2 false),
     ("length", 8, .int 4 false), ("track_rvidx", 12, .int 2 false), ("group", 14, .int 2 false),
     ("item_flags", 18, .int 2 false), ("start_offset", 24, .f32), ("end_offset", 28, .f32)]

/-- The types whose bytes may mean nothing: heights that are no numbers, stretch factors and positions out of range. -/
def Partial : Leaf → Prop
  | .height | .log2 | .logNormal => True
  | _ => False

/-- The `w` bytes at a place. -/
def bytesAt (data : Bytes) (place w : Nat) : Bytes := (data.drop place).take w

end Spec

/-- The places of all fields that have a fixed size, in a record that starts at `off`. -/
def fieldPlaces (len : Nat) : Fields → Nat → List (String × Nat × Leaf)
  | [], _ => []
  | (n, f) :: fs, off =>
    match present len f with
    | none => fieldPlaces len fs off
    | some l =>
      match fieldWidth l with
      | none => []
      | some w => (n, off, l) :: fieldPlaces len fs (off + w)

theorem fieldPlaces_ge {len : Nat} {fs : Fields} {off : Nat} {n : String} {o : Nat} {l : Leaf} (h : (n, o, l) ∈ fieldPlaces len fs off) :
    off ≤ o := by
  induction fs generalizing off with
  | nil => cases h
  | cons nf fs ih =>
    obtain ⟨n', f⟩ := nf
    unfold fieldPlaces at h
    split at h
    · exact ih h
    · split at h
      · cases h
      · rcases List.mem_cons.1 h with h | h
        · cases h; exact Nat.le_refl _
        · have := ih h; omega

section
variable [FloatEnv]

/-- With enough bytes, a field of another type than the partial ones means a value. -/
theorem means_some {l : Leaf} {bs : Bytes} {w : Nat} (hw : fieldWidth l = some w) (hb : w ≤ bs.length) (hp : ¬ Partial l) :
    ∃ chunk more x, bs = chunk ++ more ∧ FieldMeans l chunk more x := by
  have key : ∃ v r, leafParse l bs = .ok (v, r) := by
    have hi : ∀ (w : Nat) (sg : Bool), w ≤ bs.length → ∃ v, intParse w sg bs = .ok (v, bs.drop w) := by
      intro w sg h
      unfold intParse
      rw [if_neg (by omega)]
      exact ⟨_, rfl⟩
    cases l with
    | int w' sg =>
      cases hw
      obtain ⟨v, hv⟩ := hi w sg hb
      exact ⟨_, _, by simp only [leafParse, hv]; rfl⟩
    | flagsS m =>
      cases hw
      obtain ⟨v, hv⟩ := hi 4 true hb
      exact ⟨_, _, by simp only [leafParse, hv]; rfl⟩
    | flag =>
      cases hw
      cases bs with
      | nil => simp at hb
      | cons b bs => exact ⟨_, _, rfl⟩
    | raw n =>
      cases hw
      exact ⟨_, _, by simp only [leafParse]; rw [if_neg (by omega)]⟩
    | rawC n => exact ⟨_, _, rfl⟩
    | greedy => cases hw
    | f32 =>
      cases hw
      obtain ⟨v, hv⟩ := hi 4 false hb
      exact ⟨_, _, by simp only [leafParse, hv]; rfl⟩
    | f64 =>
      cases hw
      obtain ⟨v, hv⟩ := hi 8 false hb
      exact ⟨_, _, by simp only [leafParse, hv]; rfl⟩
    | fourBool =>
      cases hw
      obtain ⟨v, hv⟩ := hi 4 false hb
      exact ⟨_, _, by simp only [leafParse, hv]; rfl⟩
    | height => exact absurd trivial hp
    | pair32 =>
      cases hw
      refine ⟨.pair (littleEndian ((bs.take 8).take 4)) (littleEndian ((bs.take 8).drop 4)), bs.drop 8,
        leafParse_means.2 ⟨bs.take 8, by simp, ?_, rfl⟩⟩
      simp; omega
    | musical =>
      cases hw
      obtain ⟨v, hv⟩ := hi 4 false hb
      exact ⟨_, _, by simp only [leafParse, hv]; rfl⟩
    | log2 => exact absurd trivial hp
    | logNormal => exact absurd trivial hp
  obtain ⟨v, r, h⟩ := key
  obtain ⟨chunk, h1, h2⟩ := leafParse_means.1 h
  exact ⟨chunk, r, v, h1, h2⟩

theorem means_width {l : Leaf} {chunk more : Bytes} {x : LV} {w : Nat} (hw : fieldWidth l = some w) (h : FieldMeans l chunk more x) :
    chunk.length = w ∨ (chunk.length < w ∧ more = []) := by
  cases l with
  | rawC n => cases hw; exact h.1
  | greedy => cases hw
  | _ => cases hw; exact .inl h.1

/-- A field of a record is at its place. -/
theorem record_place {len : Nat} {data : Bytes} {fs : Fields} {off : Nat} {rec : Rec} {left : Bytes}
    (h : Record len fs (data.drop off) rec left) {n : String} {o : Nat} {l : Leaf} {w : Nat} (hm : (n, o, l) ∈ fieldPlaces len fs off)
    (hw : fieldWidth l = some w) (hl : o + w ≤ data.length)
    (hr : ∀ n' o' l' w', (n', o', l') ∈ fieldPlaces len fs off → o' ≤ o → fieldWidth l' = some w' → Partial l' →
      ∃ x, FieldMeans l' (bytesAt data o' w') (data.drop (o' + w')) x) :
    ∃ x, (n, some x) ∈ rec ∧ FieldMeans l (bytesAt data o w) (data.drop (o + w)) x := by
  induction fs generalizing off rec with
  | nil => cases hm
  | cons nf fs ih =>
    obtain ⟨n1, f⟩ := nf
    generalize hbs : data.drop off = bs at h
    cases h with
    | @field _ _ l1 _ chunk more x1 rec' _ hp hx t =>
      have hoff := fieldPlaces_ge hm
      unfold fieldPlaces at hm hr
      simp only [hp] at hm hr
      cases hw1 : fieldWidth l1 with
      | none => simp only [hw1] at hm; cases hm
      | some w1 =>
        simp only [hw1] at hm hr
        have hge : (n, o, l) = (n1, off, l1) ∨ off + w1 ≤ o ∧ (n, o, l) ∈ fieldPlaces len fs (off + w1) := by
          rcases List.mem_cons.1 hm with e | e
          · exact .inl e
          · exact .inr ⟨fieldPlaces_ge e, e⟩
        have hlen := congrArg List.length hbs
        simp only [List.length_drop, List.length_append] at hlen
        have hc : chunk.length = w1 := by
          rcases means_width hw1 hx with h | ⟨h, rfl⟩
          · exact h
          · rcases hge with e | ⟨e, _⟩
            · cases e
              rw [hw] at hw1
              cases hw1
              simp at hlen; omega
            · simp at hlen; omega
        have hchunk : chunk = bytesAt data off w1 := by
          unfold bytesAt; rw [hbs, List.take_left' hc]
        have hmore : more = data.drop (off + w1) := by
          rw [← List.drop_drop, hbs, List.drop_left' hc]
        rcases hge with e | ⟨e, hm'⟩
        · cases e
          rw [hw] at hw1
          cases hw1
          exact ⟨x1, by simp, by rw [← hchunk, ← hmore]; exact hx⟩
        · rw [hmore] at t
          obtain ⟨x, g1, g2⟩ := ih t hm' fun n' o' l' w' a b c d => hr n' o' l' w' (List.mem_cons_of_mem _ a) b c d
          exact ⟨x, List.mem_cons_of_mem _ g1, g2⟩
    | absent hp t =>
      unfold fieldPlaces at hm hr
      simp only [hp] at hm hr
      rw [← hbs] at t
      obtain ⟨x, g1, g2⟩ := ih t hm hr
      exact ⟨x, List.mem_cons_of_mem _ g1, g2⟩
    | @missing _ l1 _ _ rec' _ hno t =>
      exfalso
      have hoff := fieldPlaces_ge hm
      unfold fieldPlaces at hm hr
      simp only [present] at hm hr
      cases hw1 : fieldWidth l1 with
      | none => simp only [hw1] at hm; cases hm
      | some w1 =>
        simp only [hw1] at hm hr
        have henough : off + w1 ≤ data.length := by
          rcases List.mem_cons.1 hm with e | e
          · cases e; rw [hw] at hw1; cases hw1; exact hl
          · have := fieldPlaces_ge e; omega
        by_cases hp : Partial l1
        · obtain ⟨x, hx⟩ := hr n1 off l1 w1 (by simp) hoff hw1 hp
          refine hno _ _ x ?_ hx
          unfold bytesAt
          rw [← hbs, ← List.drop_drop, List.take_append_drop]
        · obtain ⟨chunk, more, x, h1, h2⟩ := means_some (bs := data.drop off) hw1 (by simp; omega) hp
          exact hno chunk more x (hbs ▸ h1) h2

omit [FloatEnv] in
theorem structLayout_places (s : SName) (len : Nat) :
    (∀ x ∈ structLayout s len, x ∈ fieldPlaces len s.fields 0) ∧
    (∀ x ∈ fieldPlaces len s.fields 0, Partial x.2.2 → x ∈ structLayout s len) := by
  cases s
  case booBass => by_cases h : len = 16 <;> simp [structLayout, fieldPlaces, SName.fields, present, fieldWidth, front, h, u32, Partial]
  case fruityBloodOverdrive =>
    by_cases h : len = 36 <;> simp [structLayout, fieldPlaces, SName.fields, present, fieldWidth, front, h, u32, Partial]
  case fruityCenter => by_cases h : len = 8 <;> simp [structLayout, fieldPlaces, SName.fields, present, fieldWidth, front, h, u32, Partial]
  case soundgoodizer => by_cases h : len = 12 <;> simp [structLayout, fieldPlaces, SName.fields, present, fieldWidth, front, h, u32, Partial]
  all_goals
    simp [structLayout, fieldPlaces, SName.fields, present, fieldWidth, front, u32, i32, u16, i16, u8, Partial]

theorem record_names {len : Nat} {fs : Fields} {bs left : Bytes} {rec : Rec} (h : Record len fs bs rec left) :
    rec.map Prod.fst = fs.map Prod.fst := by
  induction h with
  | done => rfl
  | field _ _ _ ih => simp [ih]
  | absent _ _ ih => simp [ih]
  | missing _ _ ih => simp [ih]

omit [FloatEnv] in
theorem lookup_of_mem {rec : Rec} (hn : (rec.map Prod.fst).Nodup) {n : String} {x : Option LV} (h : (n, x) ∈ rec) :
    Rec.lookup rec n = some x := by
  induction rec with
  | nil => cases h
  | cons p rec ih =>
    obtain ⟨n', y⟩ := p
    simp only [List.map_cons, List.nodup_cons] at hn
    unfold Rec.lookup
    rcases List.mem_cons.1 h with e | e
    · cases e; simp
    · rw [if_neg]
      · exact ih hn.2 e
      · rintro rfl
        exact hn.1 (List.mem_map.2 ⟨(n', x), e, rfl⟩)

/-- C131, fields of struct events: each named field whose bytes are there has the value that the bytes at its place mean.  The
bytes of the fields before it have to mean something; this is only a condition for heights, stretch factors and positions. -/
theorem C131_field (s : SName) (data : Bytes) (v : Value) (h : Kind.parse (.struct s) data = .ok v) {n : String} {place w : Nat}
    {l : Leaf} (hn : (n, place, l) ∈ structLayout s data.length) (hw : fieldWidth l = some w)
    (hl : place + w ≤ data.length)
    (hr : ∀ n' place' l' w', (n', place', l') ∈ structLayout s data.length → place' ≤ place → fieldWidth l' = some w' →
      Partial l' → ∃ x, FieldMeans l' (bytesAt data place' w') (data.drop (place' + w')) x) :
    ∃ rec x, v = .fields rec ∧ rec.lookup n = some (some x) ∧
      FieldMeans l (bytesAt data place w) (data.drop (place + w)) x := by
  obtain ⟨rec, left, rfl, hrec⟩ := (C131_event _ _ _).1 h
  obtain ⟨h1, h2⟩ := structLayout_places s data.length
  obtain ⟨x, g1, g2⟩ := record_place (data := data) (off := 0) (by simpa using hrec) (h1 _ hn) hw hl
    fun n' o' l' w' a b c d => hr n' o' l' w' (h2 _ a d) b c d
  refine ⟨rec, x, rfl, lookup_of_mem ?_ g1, g2⟩
  rw [record_names hrec]
  exact fields_nodup s

/-- Sixteen bytes of a BooBass: the bass is at 4.  The flags of a wrapper are at 16. -/
example : (∃ v, Kind.parse (.struct .booBass) [1, 0, 0, 0, 7, 1, 0, 0, 255, 255, 0, 0, 0, 0, 0, 0] = .ok v) ∧
    ("bass", 4, Leaf.int 4 false) ∈ structLayout .booBass 16 ∧ ("bass", 0, Leaf.int 4 false) ∈ structLayout .booBass 12 ∧
    FieldMeans (.int 4 false) [7, 1, 0, 0] [255, 255, 0, 0, 0, 0, 0, 0] (.int 263) ∧
    (∀ x ∈ structLayout .booBass 16, ¬ Partial x.2.2) ∧ ("height", 13, Leaf.height) ∈ structLayout .track 66 ∧
    ∃ x, FieldMeans .height (bytesAt ([0, 0, 0, 0, 0, 0, 0, 0, 0, 0, 0, 0, 0] ++ [0, 0, 128, 63]) 13 4) [] x := by
  refine ⟨⟨_, rfl⟩, by decide, by decide, ⟨rfl, 263, rfl, by unfold InRange; decide, .inl rfl⟩,
    by simp [structLayout, Partial], by decide, ?_⟩
  exact ⟨.str (PStr.lit "100%"), rfl, _, rfl, by decide +kernel⟩

theorem listLayout_places (l : LName) (len : Nat) :
    (∀ x ∈ listLayout l, x ∈ fieldPlaces len l.fields 0) ∧ (∀ x ∈ fieldPlaces len l.fields 0, ¬ Partial x.2.2) ∧
    (∀ x ∈ listLayout l, ∃ w, fieldWidth x.2.2 = some w ∧ x.2.1 + w ≤ recordSize l len) ∧
    (∀ x ∈ listLayout l, ∀ c r r' v, FieldMeans x.2.2 c r v → FieldMeans x.2.2 c r' v) ∧
    (l.fields.map Prod.fst).Nodup := by
  cases l
  case playlist =>
    by_cases h : len % 60 = 0 <;>
      simp [listLayout, fieldPlaces, LName.fields, present, fieldWidth, h, u32, i32, u16, u8, Partial, recordSize, FieldMeans]
  all_goals
    simp [listLayout, fieldPlaces, LName.fields, present, fieldWidth, u32, i32, u16, u8, Partial, recordSize, FieldMeans]

/-- C131, fields of list events: each named field of each item has the value that the bytes at its place mean. -/
theorem C131_item (l : LName) (data : Bytes) (v : Value) (h : Kind.parse (.list l) data = .ok v) :
    ∃ items, v = .items items ∧ items.length = data.length / recordSize l data.length ∧
      ∀ (i : Nat) (rec : Rec), items[i]? = some rec → ∀ n place leaf, (n, place, leaf) ∈ listLayout l →
        ∃ w x, fieldWidth leaf = some w ∧ rec.lookup n = some (some x) ∧
          FieldMeans leaf (bytesAt data (recordSize l data.length * i + place) w) [] x := by
  obtain ⟨items, rfl, hlen, hrec⟩ := (C131_event _ _ _).1 h
  obtain ⟨h1, h2, h3, h4, h5⟩ := listLayout_places l data.length
  refine ⟨items, rfl, hlen, fun i rec hi n place leaf hm => ?_⟩
  have hr := hrec i rec hi
  obtain ⟨w, hw, hfit⟩ := h3 _ hm
  have hil : i < items.length := by
    rw [List.getElem?_eq_some_iff] at hi
    exact hi.1
  generalize recordSize l data.length = size at *
  have hpos : 0 < size := by
    rcases Nat.eq_zero_or_pos size with rfl | h
    · rw [Nat.div_zero] at hlen; omega
    · exact h
  have hroom : size * i + size ≤ data.length := by
    have : size * (i + 1) ≤ data.length := by
      rw [hlen] at hil
      have := (Nat.le_div_iff_mul_le hpos).1 hil
      rw [Nat.mul_comm]; exact this
    rwa [Nat.mul_add, Nat.mul_one] at this
  obtain ⟨x, g1, g2⟩ := record_place (off := 0) (by simpa using hr) (h1 _ hm) hw
    (by simp; simp at hfit; omega) fun n' o' l' w' a _ _ d => absurd d (h2 _ a)
  refine ⟨w, x, hw, lookup_of_mem (by rw [record_names hr]; exact h5) g1, ?_⟩
  have e : bytesAt (List.take size (List.drop (size * i) data)) place w = bytesAt data (size * i + place) w := by
    unfold bytesAt
    rw [List.drop_take, List.drop_drop, List.take_take]
    congr 1
    simp at hfit; omega
  rw [e] at g2
  exact h4 _ hm _ _ _ _ g2

/-- Two notes: 48 bytes.  The key of the second one is at 24 + 12. -/
example : (∃ v, Kind.parse (.list .notes) (List.replicate 36 0 ++ [60, 0] ++ List.replicate 10 0) = .ok v) ∧
    ("key", 12, Leaf.int 2 false) ∈ listLayout .notes ∧
    bytesAt (List.replicate 36 0 ++ [60, 0] ++ List.replicate 10 0) (24 * 1 + 12) 2 = [60, 0] :=
  ⟨⟨_, rfl⟩, by decide, by decide⟩

end

/-! ### Automation clips -/

/-- The size of a record whose fields are all required and of a fixed size. -/
def reqSize : Fields → Nat
  | [] => 0
  | (_, .req l) :: fs => (fieldWidth l).getD 0 + reqSize fs
  | _ :: fs => reqSize fs

/-- All fields are required and of a fixed size. -/
def AllReq (fs : Fields) : Prop :=
  ∀ nf ∈ fs, ∃ l w, nf.2 = .req l ∧ fieldWidth l = some w ∧ (∀ n, l ≠ .rawC n) ∧ ¬ Partial l

section
variable [FloatEnv]

theorem record_reqSize {len : Nat} {fs : Fields} {bs left : Bytes} {rec : Rec} (hf : AllReq fs) (h : Record len fs bs rec left) :
    left = bs.drop (reqSize fs) ∧ reqSize fs ≤ bs.length := by
  induction h with
  | done => simp [reqSize]
  | @field n f l fs chunk more x rec left hp hx t ih =>
    obtain ⟨l', w, h1, h2, h3, _⟩ := hf (n, f) (by simp)
    simp only at h1
    subst h1
    simp only [present, Option.some.injEq] at hp
    subst hp
    have hw : chunk.length = w := by
      cases l' with
      | rawC n => exact absurd rfl (h3 n)
      | greedy => cases h2
      | _ => cases h2; exact hx.1
    obtain ⟨g1, g2⟩ := ih fun nf h => hf nf (List.mem_cons_of_mem _ h)
    simp only [reqSize, h2, Option.getD_some, List.length_append]
    refine ⟨?_, by omega⟩
    rw [g1, ← List.drop_drop, List.drop_left' hw]
  | @absent n f fs bs rec left hp t ih =>
    obtain ⟨l', w, h1, _⟩ := hf (n, f) (by simp)
    simp only at h1
    subst h1
    simp [present] at hp
  | @missing n l fs bs rec left hm t ih =>
    obtain ⟨l', w, h1, _⟩ := hf (n, .opt l) (by simp)
    simp at h1

theorem record_exists (len : Nat) {fs : Fields} (hf : AllReq fs) : ∀ {bs : Bytes}, reqSize fs ≤ bs.length →
    ∃ rec, Record len fs bs rec (bs.drop (reqSize fs)) := by
  induction fs with
  | nil => intro bs _; exact ⟨[], by simpa [reqSize] using Record.done⟩
  | cons nf fs ih =>
    intro bs hb
    obtain ⟨n, f⟩ := nf
    obtain ⟨l, w, h1, h2, h3, h4⟩ := hf (n, f) (by simp)
    simp only at h1
    subst h1
    simp only [reqSize, h2, Option.getD_some] at hb ⊢
    obtain ⟨chunk, more, x, rfl, hx⟩ := means_some (bs := bs) h2 (by omega) h4
    have hw : chunk.length = w := by
      cases l with
      | rawC n => exact absurd rfl (h3 n)
      | greedy => cases h2
      | _ => cases h2; exact hx.1
    simp only [List.length_append] at hb
    obtain ⟨rec, hr⟩ := ih (fun nf h => hf nf (List.mem_cons_of_mem _ h)) (bs := more) (by omega)
    refine ⟨(n, some x) :: rec, ?_⟩
    rw [← List.drop_drop, List.drop_left' hw]
    exact .field rfl hx hr

omit [FloatEnv] in
theorem autoHead_req : AllReq autoHead ∧ reqSize autoHead = 17 := by
  refine ⟨?_, rfl⟩
  intro nf h
  simp only [autoHead, List.mem_cons, List.not_mem_nil, or_false] at h
  rcases h with rfl | rfl | rfl | rfl | rfl | rfl <;> exact ⟨_, _, rfl, rfl, by intro n; simp [i32], by simp [Partial, i32]⟩

omit [FloatEnv] in
theorem autoPoint_req : AllReq autoPoint ∧ reqSize autoPoint = 24 := by
  refine ⟨?_, rfl⟩
  intro nf h
  simp only [autoPoint, List.mem_cons, List.not_mem_nil, or_false] at h
  rcases h with rfl | rfl | rfl | rfl <;> exact ⟨_, _, rfl, rfl, by intro n; simp, by simp [Partial]⟩

theorem recordsIn_at {fs : Fields} (hf : AllReq fs) {data : Bytes} : ∀ {off : Nat} {recs : List Rec} {left : Bytes},
    off ≤ data.length → RecordsIn fs (data.drop off) recs left → left = data.drop (off + reqSize fs * recs.length) ∧
      off + reqSize fs * recs.length ≤ data.length ∧
      ∀ (i : Nat) (rec : Rec), recs[i]? = some rec → ∃ more, Record 0 fs (data.drop (off + reqSize fs * i)) rec more := by
  intro off recs
  induction recs generalizing off with
  | nil =>
    intro left ho h
    cases h
    exact ⟨by simp, by simpa using ho, by intro i rec h; simp at h⟩
  | cons r recs ih =>
    intro left ho h
    cases h with
    | @next _ _ more _ _ h t =>
      obtain ⟨g1, g2⟩ := record_reqSize hf h
      simp only [List.length_drop] at g2
      rw [List.drop_drop] at g1
      subst g1
      obtain ⟨k1, k2, k3⟩ := ih (by omega) t
      have e : off + reqSize fs * (r :: recs).length = off + reqSize fs + reqSize fs * recs.length := by
        rw [List.length_cons, Nat.mul_add, Nat.mul_one]; omega
      refine ⟨by rw [e]; exact k1, by rw [e]; exact k2, fun i rec hi => ?_⟩
      cases i with
      | zero =>
        simp only [List.getElem?_cons_zero, Option.some.injEq] at hi
        subst hi
        exact ⟨_, by simpa using h⟩
      | succ i =>
        obtain ⟨m, hm⟩ := k3 i rec (by simpa using hi)
        refine ⟨m, ?_⟩
        have e' : off + reqSize fs * (i + 1) = off + reqSize fs + reqSize fs * i := by
          rw [Nat.mul_add, Nat.mul_one]; omega
        rw [e']; exact hm

theorem recordsIn_exists {fs : Fields} (hf : AllReq fs) : ∀ (n : Nat) {bs : Bytes}, reqSize fs * n ≤ bs.length →
    ∃ recs more, RecordsIn fs bs recs more ∧ recs.length = n := by
  intro n
  induction n with
  | zero => intro bs _; exact ⟨[], bs, .done, rfl⟩
  | succ n ih =>
    intro bs h
    rw [Nat.mul_add, Nat.mul_one] at h
    obtain ⟨rec, hr⟩ := record_exists 0 hf (bs := bs) (by omega)
    obtain ⟨recs, more, g1, g2⟩ := ih (bs := bs.drop (reqSize fs)) (by simp; omega)
    exact ⟨rec :: recs, more, .next hr g1, by simp [g2]⟩

/-- C131, automation clips: the amount of the LFO is at 4, the number of points at 17; the points follow, 24 bytes each: the
distance from the point before, the value and the tension. -/
theorem C131_automation (data : Bytes) (v : Value) (h : Kind.parse .automation data = .ok v) :
    ∃ head points tail, v = .auto head points tail ∧
      (∃ a, head.lookup "lfo.amount" = some (some (.int a)) ∧ InRange 4 true a ∧ Encodes true (bytesAt data 4 4) a) ∧
      points.length = littleEndian (bytesAt data 17 4) ∧ 21 + 24 * points.length ≤ data.length ∧
      tail = data.drop (21 + 24 * points.length) ∧
      ∀ (i : Nat) (p : Rec), points[i]? = some p →
        p.lookup "_offset" = some (some (.f64 (littleEndian (bytesAt data (21 + 24 * i) 8)))) ∧
        p.lookup "value" = some (some (.f64 (littleEndian (bytesAt data (21 + 24 * i + 8) 8)))) ∧
        p.lookup "tension" = some (some (.f32 (littleEndian (bytesAt data (21 + 24 * i + 16) 4)))) := by
  obtain ⟨head, n, points, tail, rest, more, rfl, hh, hn, hc, hp, rfl⟩ := (C131_event _ _ _).1 h
  obtain ⟨a1, a2⟩ := record_reqSize autoHead_req.1 hh
  rw [autoHead_req.2] at a1 a2
  have hl := congrArg List.length a1
  simp only [List.length_append, List.length_drop] at hl
  have hn' : n = bytesAt data 17 4 := by
    unfold bytesAt; rw [← a1, List.take_left' hn]
  have hr : rest = data.drop 21 := by
    rw [show 21 = 17 + 4 from rfl, ← List.drop_drop, ← a1, List.drop_left' hn]
  subst hr
  obtain ⟨b1, b2, b3⟩ := recordsIn_at autoPoint_req.1 (by omega) hp
  rw [autoPoint_req.2] at b1 b2
  refine ⟨head, points, tail, rfl, ?_, by rw [← hn', hc], b2, b1, fun i p hi => ?_⟩
  · obtain ⟨x, g1, g2⟩ := record_place (data := data) (off := 0) (n := "lfo.amount") (o := 4) (l := .int 4 true) (w := 4)
      (by simpa using hh) (by simp [fieldPlaces, autoHead, present, fieldWidth, i32]) rfl (by omega)
      fun n' o' l' w' a _ _ d => absurd d (by
        have : ∀ x ∈ fieldPlaces 0 autoHead 0, ¬ Partial x.2.2 := by
          simp [fieldPlaces, autoHead, present, fieldWidth, i32, Partial]
        exact this _ a)
    obtain ⟨_, a, rfl, k1, k2⟩ := g2
    exact ⟨a, lookup_of_mem (by rw [record_names hh]; decide) g1, k1, k2⟩
  · obtain ⟨m, hm⟩ := b3 i p hi
    rw [autoPoint_req.2] at hm
    have hil : i < points.length := (List.getElem?_eq_some_iff.1 hi).1
    have hnd : (p.map Prod.fst).Nodup := by rw [record_names hm]; decide
    have key : ∀ (n : String) (o : Nat) (l : Leaf) (w : Nat), (n, 21 + 24 * i + o, l) ∈ fieldPlaces 0 autoPoint (21 + 24 * i) →
        fieldWidth l = some w → o + w ≤ 24 → ∃ x, p.lookup n = some (some x) ∧
          FieldMeans l (bytesAt data (21 + 24 * i + o) w) (data.drop (21 + 24 * i + o + w)) x := by
      intro n o l w hmem hw how
      obtain ⟨x, g1, g2⟩ := record_place (data := data) (off := 21 + 24 * i) hm hmem hw (by omega)
        fun n' o' l' w' a _ _ d => absurd d (by
          have : ∀ x ∈ fieldPlaces 0 autoPoint (21 + 24 * i), ¬ Partial x.2.2 := by
            simp [fieldPlaces, autoPoint, present, fieldWidth, Partial]
          exact this _ a)
      exact ⟨x, lookup_of_mem hnd g1, g2⟩
    obtain ⟨x, x1, _, rfl⟩ := key "_offset" 0 .f64 8 (by simp [fieldPlaces, autoPoint, present, fieldWidth]) rfl (by omega)
    obtain ⟨y, y1, _, rfl⟩ := key "value" 8 .f64 8 (by simp [fieldPlaces, autoPoint, present, fieldWidth]) rfl (by omega)
    obtain ⟨z, z1, _, rfl⟩ := key "tension" 16 .f32 4 (by simp [fieldPlaces, autoPoint, present, fieldWidth]) rfl (by omega)
    exact ⟨x1, y1, z1⟩

/-- C131: the data of an automation clip can be read exactly if it has all the points it announces. -/
theorem C131_automation_readable (data : Bytes) :
    (∃ v, Kind.parse .automation data = .ok v) ↔
      21 ≤ data.length ∧ 21 + 24 * littleEndian (bytesAt data 17 4) ≤ data.length := by
  constructor
  · rintro ⟨v, h⟩
    obtain ⟨head, points, tail, _, _, h1, h2, _⟩ := C131_automation data v h
    rw [← h1]; omega
  · rintro ⟨h1, h2⟩
    obtain ⟨head, hh⟩ := record_exists 0 autoHead_req.1 (bs := data) (by rw [autoHead_req.2]; omega)
    rw [autoHead_req.2] at hh
    obtain ⟨points, more, g1, g2⟩ := recordsIn_exists autoPoint_req.1 (littleEndian (bytesAt data 17 4)) (bs := data.drop 21)
      (by rw [autoPoint_req.2]; simp; omega)
    refine ⟨.auto head points more, (C131_event _ _ _).2
      ⟨head, bytesAt data 17 4, points, more, data.drop 21, more, rfl, ?_, ?_, g2.symm, g1, rfl⟩⟩
    · have e : bytesAt data 17 4 ++ data.drop 21 = data.drop 17 := by
        unfold bytesAt
        rw [show 21 = 17 + 4 from rfl, ← List.drop_drop, List.take_append_drop]
      rw [e]; exact hh
    · unfold bytesAt; simp; omega

/-- A clip with one point at 0 with value 1; a clip that announces a point it does not have. -/
example : (∃ v, Kind.parse .automation ([1, 0, 0, 0, 128, 255, 255, 255, 64, 0, 0, 0, 0, 0, 0, 0, 0, 1, 0, 0, 0] ++
      [0, 0, 0, 0, 0, 0, 0, 0, 0, 0, 0, 0, 0, 0, 240, 63, 0, 0, 0, 0, 0, 0, 0, 2]) = .ok v) ∧
    ¬ ∃ v, Kind.parse .automation [1, 0, 0, 0, 128, 255, 255, 255, 64, 0, 0, 0, 0, 0, 0, 0, 0, 1, 0, 0, 0] = .ok v := by
  rw [C131_automation_readable, C131_automation_readable]
  decide

/-! ### VST plugins -/

end

namespace Spec

/-- Where the items of the data of a VST plugin start: the type takes 4 bytes; an item is an id of 4 bytes, a size of 8 bytes
and the data. -/
def vstStart (data : Bytes) : Nat → Nat
  | 0 => 4
  | i + 1 => vstStart data i + 12 + littleEndian (bytesAt data (vstStart data i + 4) 8)

/-- Where the fields of the items with the ids 1 and 2 are. -/
def vstLayout (id : Nat) : List (String × Nat × Leaf) :=
  if id = 1 then [("input", 0, .int 4 true), ("output", 4, .int 4 true), ("pb_range", 8, .int 4 false)]
  else if id = 2 then [("flags", 9, .int 4 false), ("flags2", 13, .int 4 false), ("fast_idle", 22, .flag)]
  else []

end Spec

section
variable [FloatEnv]

/-- C131, data of VST plugins: each item has the id, the size and the data that the bytes at its place say.  Items 1 and 2 have
fields at fixed places; items 51, 54, 55 and 56 are texts; the others are kept as they are. -/
theorem C131_vst (data : Bytes) (v : Value) (h : Kind.parse .vst data = .ok v) :
    ∃ items, v = .vst (littleEndian (bytesAt data 0 4)) items ∧ vstStart data items.length ≤ data.length ∧
      ∀ (i : Nat) (id : Int) (d : VstData), items[i]? = some (id, d) →
        ∃ size, size = littleEndian (bytesAt data (vstStart data i + 4) 8) ∧
          id = (littleEndian (bytesAt data (vstStart data i) 4) : Nat) ∧
          (∀ n place leaf w, (n, place, leaf) ∈ vstLayout id.toNat → fieldWidth leaf = some w → place + w ≤ size →
            ∃ rec x, d = .fields rec ∧ rec.lookup n = some (some x) ∧
              FieldMeans leaf (bytesAt data (vstStart data i + 12 + place) w) [] x) ∧
          (id ∈ [51, 54, 55, 56] → ∃ s, d = .str s ∧ Utf8 s (bytesAt data (vstStart data i + 12) size)) ∧
          (id ∉ [1, 2, 51, 54, 55, 56] → d = .raw (bytesAt data (vstStart data i + 12) size)) := by
  obtain ⟨type, more, items, left, rfl, rfl, ht, hm⟩ := (C131_event _ _ _).1 h
  have hs : ∀ (data : Bytes) (items : List (Int × VstData)) (k : Nat), vstStart data k ≤ data.length →
      AsManyAs VstItem (data.drop (vstStart data k)) items left →
      vstStart data (k + items.length) ≤ data.length ∧
      ∀ i it, items[i]? = some it → ∃ more, VstItem (data.drop (vstStart data (k + i))) it more := by
    intro data items
    induction items with
    | nil => intro k hk _; exact ⟨by simpa using hk, by intro i it h; simp at h⟩
    | cons it items ih =>
      intro k hk h
      cases h with
      | @next _ _ more _ _ h t =>
        have hk' : more = data.drop (vstStart data (k + 1)) ∧ vstStart data (k + 1) ≤ data.length := by
          generalize hb : data.drop (vstStart data k) = bs at h
          cases h with
          | @item i size dat rest d hi hsz hd hm =>
            have e1 : bytesAt data (vstStart data k + 4) 8 = size := by
              unfold bytesAt
              rw [← List.drop_drop, hb, List.append_assoc, List.append_assoc, List.drop_left' hi, List.take_left' hsz]
            have hl := congrArg List.length hb
            simp only [List.length_drop, List.length_append] at hl
            constructor
            · unfold vstStart
              rw [e1, hd, Nat.add_assoc, ← List.drop_drop, hb]
              rw [List.drop_left']
              simp; omega
            · unfold vstStart
              rw [e1, hd]; omega
        rw [hk'.1] at t
        obtain ⟨g1, g2⟩ := ih (k + 1) hk'.2 t
        refine ⟨by rw [List.length_cons, show k + (items.length + 1) = k + 1 + items.length by omega]; exact g1, fun i it' hi => ?_⟩
        cases i with
        | zero =>
          simp only [List.getElem?_cons_zero, Option.some.injEq] at hi
          subst hi
          exact ⟨more, by simpa using h⟩
        | succ i =>
          obtain ⟨m, hm⟩ := g2 i it' (by simpa using hi)
          exact ⟨m, by rw [show k + (i + 1) = k + 1 + i by omega]; exact hm⟩
  have htake : bytesAt (type ++ more) 0 4 = type := by unfold bytesAt; simp [List.take_left' ht]
  obtain ⟨g1, g2⟩ := hs (type ++ more) items 0 (by simp [vstStart]; omega) (by
    show AsManyAs VstItem ((type ++ more).drop 4) items left
    rw [List.drop_left' ht]; exact hm)
  rw [Nat.zero_add] at g1
  refine ⟨items, by rw [htake], g1, fun i id d hi => ?_⟩
  obtain ⟨rest, hv⟩ := g2 i _ hi
  rw [Nat.zero_add] at hv
  generalize type ++ more = data at hv ⊢
  generalize vstStart data i = st at hv ⊢
  generalize hb : data.drop st = bs at hv
  cases hv with
  | @item ib size dat _ _ hib hsz hd hm =>
    have e0 : bytesAt data st 4 = ib := by
      unfold bytesAt
      rw [hb, List.append_assoc, List.append_assoc, List.take_left' hib]
    have e1 : bytesAt data (st + 4) 8 = size := by
      unfold bytesAt
      rw [← List.drop_drop, hb, List.append_assoc, List.append_assoc, List.drop_left' hib, List.take_left' hsz]
    have e2 : data.drop (st + 12) = dat ++ rest := by
      rw [← List.drop_drop, hb, List.append_assoc, List.drop_left']
      simp; omega
    have e3 : bytesAt data (st + 12) dat.length = dat := by
      unfold bytesAt
      rw [e2]; simp
    have e4 : ∀ place w, place + w ≤ dat.length → bytesAt data (st + 12 + place) w = bytesAt dat place w := by
      intro place w h
      unfold bytesAt
      rw [← List.drop_drop, e2, List.drop_append_of_le_length (by omega), List.take_append_of_le_length (by simp; omega)]
    refine ⟨dat.length, by rw [e1, hd], by rw [e0], ?_, ?_, ?_⟩
    · intro n place leaf w hmem hw hfit
      rw [e4 _ _ hfit]
      simp only [Int.toNat_natCast] at hmem
      unfold VstMeans at hm
      unfold vstLayout at hmem
      have fin : ∀ fs : Fields, (n, place, leaf) ∈ fieldPlaces 0 fs 0 → (∀ x ∈ fieldPlaces 0 fs 0, ¬ Partial x.2.2) →
          (fs.map Prod.fst).Nodup → (∀ c r r' v, FieldMeans leaf c r v → FieldMeans leaf c r' v) →
          (∃ rec left, d = .fields rec ∧ Record 0 fs dat rec left) →
          ∃ rec x, d = .fields rec ∧ rec.lookup n = some (some x) ∧ FieldMeans leaf (bytesAt dat place w) [] x := by
        rintro fs hp hnp hnd hrest ⟨rec, left, rfl, hrec⟩
        obtain ⟨x, k1, k2⟩ := record_place (data := dat) (off := 0) (by simpa using hrec) hp hw hfit
          fun n' o' l' w' a _ _ d => absurd d (hnp _ a)
        exact ⟨rec, x, rfl, lookup_of_mem (by rw [record_names hrec]; exact hnd) k1, hrest _ _ _ _ k2⟩
      split at hmem
      · rename_i h1
        rw [if_pos h1] at hm
        refine fin vstMidi ?_ (by simp [fieldPlaces, vstMidi, present, fieldWidth, i32, u32, Partial]) (by decide) ?_ hm
        · simp only [fieldPlaces, vstMidi, present, fieldWidth, i32, u32]
          simpa using hmem
        · simp only [List.mem_cons, List.not_mem_nil, or_false, Prod.mk.injEq] at hmem
          rcases hmem with ⟨_, _, rfl⟩ | ⟨_, _, rfl⟩ | ⟨_, _, rfl⟩ <;> exact fun _ _ _ _ h => h
      · rename_i h1
        rw [if_neg h1] at hm
        split at hmem
        · rename_i h2
          rw [if_pos h2] at hm
          refine fin vstFlags ?_ (by simp [fieldPlaces, vstFlags, present, fieldWidth, u32, Partial]) (by decide) ?_ hm
          · simp only [List.mem_cons, List.not_mem_nil, or_false, Prod.mk.injEq] at hmem
            rcases hmem with ⟨rfl, rfl, rfl⟩ | ⟨rfl, rfl, rfl⟩ | ⟨rfl, rfl, rfl⟩ <;>
              simp [fieldPlaces, vstFlags, present, fieldWidth, u32]
          · simp only [List.mem_cons, List.not_mem_nil, or_false, Prod.mk.injEq] at hmem
            rcases hmem with ⟨_, _, rfl⟩ | ⟨_, _, rfl⟩ | ⟨_, _, rfl⟩ <;> exact fun _ _ _ _ h => h
        · cases hmem
    · intro hid
      rw [e3]
      unfold VstMeans at hm
      have hid' : littleEndian ib ∈ [51, 54, 55, 56] := by
        simp only [List.mem_cons, List.not_mem_nil, or_false] at hid ⊢
        omega
      simp only [List.mem_cons, List.not_mem_nil, or_false] at hid'
      rw [if_neg (by omega), if_neg (by omega), if_pos (by simpa using hid')] at hm
      exact hm
    · intro hid
      rw [e3]
      unfold VstMeans at hm
      simp only [List.mem_cons, List.not_mem_nil, or_false, not_or] at hid
      rw [if_neg (by omega), if_neg (by omega), if_neg (by simp; omega)] at hm
      exact hm

/-- MIDI input 2 and output -1, then the name `Ab`. -/
example : ∃ v, Kind.parse .vst ([10, 0, 0, 0] ++ [1, 0, 0, 0, 8, 0, 0, 0, 0, 0, 0, 0, 2, 0, 0, 0, 255, 255, 255, 255] ++
    [54, 0, 0, 0, 2, 0, 0, 0, 0, 0, 0, 0, 65, 98]) = .ok v ∧
    vstStart ([10, 0, 0, 0] ++ [1, 0, 0, 0, 8, 0, 0, 0, 0, 0, 0, 0, 2, 0, 0, 0, 255, 255, 255, 255] ++
      [54, 0, 0, 0, 2, 0, 0, 0, 0, 0, 0, 0, 65, 98]) 1 = 24 := ⟨_, rfl, by decide⟩

end

end PyFLP
