import Verif.FltLemmas
import Verif.Colors
import Verif.Props.ChannelProps
/-!
# C85, C86: colours
-/

namespace PyFLP
open Spec

namespace Spec

/-- The number stored as the byte `b`: `b / 255`, rounded to binary64. -/
def shade (b : Nat) : Rat := fl ((b : Rat) / 255)

/-- The colour stored in four bytes, the lowest one being red. -/
def colourOf (n : Nat) : Rgba :=
  ⟨shade (n % 256), shade (n / 256 % 256), shade (n / 65536 % 256), shade (n / 16777216 % 256)⟩

/-- A number which a colour may have. -/
def InUnit (x : Rat) : Prop := 0 ≤ x ∧ x ≤ 1

/-- A number no byte is near to. -/
def Outside (x : Rat) : Prop := x ≤ -1 / 255 ∨ 256 / 255 ≤ x

/-- Half the distance of two neighbouring shades, up to the rounding of binary64. -/
def Near (x y : Rat) : Prop := x - y ≤ 1 / 510 + 1 / 2 ^ 52 ∧ y - x ≤ 1 / 510 + 1 / 2 ^ 52

def EachOf (P : Rat → Prop) (c : Rgba) : Prop := P c.red ∧ P c.green ∧ P c.blue ∧ P c.alpha
def SomeOf (P : Rat → Prop) (c : Rgba) : Prop := P c.red ∨ P c.green ∨ P c.blue ∨ P c.alpha
def NearColour (c d : Rgba) : Prop :=
  Near c.red d.red ∧ Near c.green d.green ∧ Near c.blue d.blue ∧ Near c.alpha d.alpha

end Spec

theorem unit_mul {x : Rat} (h : InUnit x) :
    0 ≤ roundHE (fl (x * 255)) ∧ roundHE (fl (x * 255)) < 256 ∧
      |((roundHE (fl (x * 255)) : Int) : Rat) / 255 - x| ≤ 1 / 510 + 1 / 2 ^ 53 := by
  have h0 : 0 ≤ x * 255 := by have := h.1; linarith
  have h1 : x * 255 ≤ 255 := by have := h.2; linarith
  have e1 := fl_err (x * 255)
  have e2 := roundHE_err (fl (x * 255))
  have e3 := fl_nonneg h0
  rw [abs_of_nonneg h0] at e1
  have e4 : |fl (x * 255) - x * 255| ≤ 255 / 2 ^ 53 := e1.trans (by gcongr)
  generalize roundHE (fl (x * 255)) = n at *
  generalize fl (x * 255) = y at *
  rw [abs_le] at e2 e4
  refine ⟨?_, ?_, ?_⟩
  · have : (-1 : Rat) < n := by linarith [e2.1]
    have : (-1 : Int) < n := by exact_mod_cast this
    omega
  · have : (n : Rat) < 256 := by
      have := e2.2
      have := e4.2
      have : (255 : Rat) / 2 ^ 53 < 1 / 2 := by norm_num
      linarith
    exact_mod_cast this
  · rw [abs_le]
    have g1 : (255 : Rat) / 2 ^ 53 = 255 * (1 / 2 ^ 53) := by ring
    rw [g1] at e4
    generalize (1 : Rat) / 2 ^ 53 = d at *
    constructor <;> linarith [e2.1, e2.2, e4.1, e4.2]

theorem colEncode_unit {x : Rat} (h : InUnit x) :
    ∃ b : UInt8, colEncode x = .ok [b] ∧ Near (colDecode b) x := by
  obtain ⟨h0, h1, h2⟩ := unit_mul h
  refine ⟨UInt8.ofNat (roundHE (fl (x * 255))).toNat, by unfold colEncode; rw [if_pos ⟨h0, h1⟩], ?_⟩
  unfold colDecode
  generalize roundHE (fl (x * 255)) = n at *
  have hn : (UInt8.ofNat n.toNat).toNat = n.toNat := by
    rw [UInt8.toNat_ofNat']
    omega
  rw [hn]
  have hc : ((n.toNat : Nat) : Rat) = (n : Rat) := by
    have : ((n.toNat : Int) : Rat) = (n : Rat) := by rw [Int.toNat_of_nonneg h0]
    exact_mod_cast this
  rw [hc]
  have e := fl_err ((n : Rat) / 255)
  have g0 : (0 : Rat) ≤ n := by exact_mod_cast h0
  have g1 : (n : Rat) ≤ 255 := by
    have : n ≤ 255 := by omega
    exact_mod_cast this
  have g2 : (0 : Rat) ≤ n / 255 := by positivity
  have g3 : (n : Rat) / 255 ≤ 1 := by rw [div_le_one (by norm_num)]; exact g1
  rw [abs_of_nonneg g2] at e
  have e' : |fl ((n : Rat) / 255) - n / 255| ≤ 1 / 2 ^ 53 := e.trans (by gcongr)
  rw [abs_le] at e' h2
  have g4 : (1 : Rat) / 2 ^ 52 = 2 * (1 / 2 ^ 53) := by norm_num
  unfold Near
  rw [g4]
  constructor <;> linarith [e'.1, e'.2, h2.1, h2.2]

theorem colEncode_outside {x : Rat} (h : Spec.Outside x) : colEncode x = .error .valueError := by
  unfold colEncode
  have e1 := fl_err (x * 255)
  have e2 := roundHE_err (fl (x * 255))
  dsimp only
  rw [if_neg]
  rintro ⟨h0, h1⟩
  generalize roundHE (fl (x * 255)) = n at *
  generalize fl (x * 255) = y at *
  have g0 : (0 : Rat) ≤ n := by exact_mod_cast h0
  have g1 : (n : Rat) ≤ 255 := by
    have : n ≤ 255 := by omega
    exact_mod_cast this
  rw [abs_le] at e2
  rcases h with h | h
  · have : x * 255 ≤ -1 := by linarith
    rw [abs_of_neg (a := x * 255) (by linarith)] at e1
    rw [abs_le] at e1
    have := e1.2
    linarith [e2.1, e2.2]
  · have : 256 ≤ x * 255 := by linarith
    rw [abs_of_pos (a := x * 255) (by linarith)] at e1
    rw [abs_le] at e1
    have := e1.1
    linarith [e2.1, e2.2]


/-! ## C85: the colour of a track -/

theorem ofInt_eq {n : Nat} (h : n < 4294967296) : Rgba.ofInt (n : Int) = .ok (colourOf n) := by
  rw [ofInt_bytes h]
  have : ∀ k : Nat, colDecode (UInt8.ofNat k) = shade (k % 256) := fun k => by
    unfold colDecode shade
    rw [UInt8.toNat_ofNat']
  simp only [this, colourOf]

theorem ofInt_map {n : Nat} (h : n < 4294967296) : (Rgba.ofInt (n : Int)).map some = .ok (some (colourOf n)) := by
  rw [ofInt_eq h]
  rfl

theorem leNat_four (r g b a : UInt8) :
    leNat ([r] ++ [g] ++ [b] ++ [a]) = r.toNat + 256 * (g.toNat + 256 * (b.toNat + 256 * a.toNat)) := by
  simp [leNat]

theorem leNat_four_lt (r g b a : UInt8) : leNat ([r] ++ [g] ++ [b] ++ [a]) < 4294967296 := by
  rw [leNat_four]
  have := u8_toNat_lt r; have := u8_toNat_lt g; have := u8_toNat_lt b; have := u8_toNat_lt a
  omega

theorem colourOf_leNat (r g b a : UInt8) :
    colourOf (leNat ([r] ++ [g] ++ [b] ++ [a])) = ⟨colDecode r, colDecode g, colDecode b, colDecode a⟩ := by
  rw [leNat_four]
  have := u8_toNat_lt r; have := u8_toNat_lt g; have := u8_toNat_lt b; have := u8_toNat_lt a
  unfold colourOf colDecode shade
  congr 4 <;> omega

theorem toInt_unit {c : Rgba} (h : EachOf InUnit c) :
    ∃ n : Nat, n < 4294967296 ∧ c.toInt = .ok (n : Int) ∧ NearColour (colourOf n) c := by
  obtain ⟨r, r1, r2⟩ := colEncode_unit h.1
  obtain ⟨g, g1, g2⟩ := colEncode_unit h.2.1
  obtain ⟨b, b1, b2⟩ := colEncode_unit h.2.2.1
  obtain ⟨a, a1, a2⟩ := colEncode_unit h.2.2.2
  refine ⟨_, leNat_four_lt r g b a, ?_, ?_⟩
  · unfold Rgba.toInt
    rw [r1, g1, b1, a1]
  · rw [colourOf_leNat]
    exact ⟨r2, g2, b2, a2⟩

theorem toInt_exact {n : Nat} (h : n < 4294967296) : (colourOf n).toInt = .ok (n : Int) := by
  have e : ∀ k : Nat, shade (k % 256) = colDecode (UInt8.ofNat k) := fun k => by
    unfold colDecode shade
    rw [UInt8.toNat_ofNat']
  unfold Rgba.toInt colourOf
  simp only [e, colEncode_colDecode]
  rw [leNat_four]
  simp only [UInt8.toNat_ofNat']
  congr 2
  omega

theorem toInt_outside {c : Rgba} (h : SomeOf Outside c) : c.toInt = .error .valueError := by
  have hc : ∀ x, (∃ y, colEncode x = .ok y) ∨ colEncode x = .error .valueError := fun x => by
    unfold colEncode
    dsimp only
    split
    · exact .inl ⟨_, rfl⟩
    · exact .inr rfl
  unfold Rgba.toInt
  rcases hc c.red with ⟨r, hr⟩ | hr
  · rw [hr]
    rcases hc c.green with ⟨g, hg⟩ | hg
    · rw [hg]
      rcases hc c.blue with ⟨b, hb⟩ | hb
      · rw [hb]
        rcases h with h | h | h | h
        · rw [colEncode_outside h] at hr; cases hr
        · rw [colEncode_outside h] at hg; cases hg
        · rw [colEncode_outside h] at hb; cases hb
        · rw [colEncode_outside h]
      · rw [hb]
    · rw [hg]
  · rw [hr]

theorem track_kind : enumType enums 238 = some (.struct .track) := by decide +kernel

/-- C85, reading: no event of the track or no number in it give no colour, and a number gives the colour of its four
bytes. -/
theorem C85_get [FloatEnv] {w : World} {L : Nat → Prop} (r : WReach w L) {t : Nat} (ht : L t) (hst : Storable w) :
    (valueOf (w.events t) 238 = none ∧ trackColor.read w t = .ok none) ∨
    ∃ rec, valueOf (w.events t) 238 = some (.fields rec) ∧
      ((Rec.lookup rec "color" = some none ∧ trackColor.read w t = .ok none) ∨
        ∃ n : Nat, n < 4294967296 ∧ Rec.lookup rec "color" = some (some (.int n)) ∧
          trackColor.read w t = .ok (some (colourOf n))) := by
  cases h : valueOf (w.events t) 238 with
  | none =>
    refine .inl ⟨rfl, ?_⟩
    unfold Descr.read
    rcases single_event r ht 238 with ⟨ref, _, _, f2, _⟩ | ⟨f1, _⟩
    · rw [h] at f2; cases f2
    · rw [show trackColor.ids = [238] from rfl, f1]; rfl
  | some v =>
    right
    obtain ⟨e, he, hid, hv⟩ := valueOf_mem h
    have hmem := world_mem r ht he
    have hk := storable_kind hst hmem (hid ▸ track_kind)
    have hty := typed_value (typed_view r ht (storable_typed hst)) track_kind h
    obtain ⟨rec, rfl, hf⟩ := hty
    have hvalid := valid_fields hk hv (hst.valid e hmem)
    refine ⟨rec, rfl, ?_⟩
    rcases single_event r ht 238 with ⟨ref, f1, _, f2, _⟩ | ⟨_, f2⟩
    · rw [h] at f2
      injection f2 with f2
      obtain ⟨f, hlk⟩ := typed_field hf (key := "color") (by decide)
      have hread : trackColor.read w t = match f with
          | none => .ok none
          | some (.int n) => (Rgba.ofInt n).map some
          | some _ => .error .attributeError := by
        unfold Descr.read
        rw [show trackColor.ids = [238] from rfl, f1]
        simp only [trackColor, structGet, ← f2, hlk]
        rcases f with _ | f
        · rfl
        · cases f <;> rfl
      rcases f with _ | x
      · exact .inl ⟨hlk, hread⟩
      · right
        have := validFields_lookup (by decide) hvalid hlk (f := .opt u32) (by decide)
        obtain ⟨n, rfl, hn⟩ := u32_valid this
        refine ⟨n, hn, hlk, ?_⟩
        rw [hread]
        exact ofInt_map hn
    · rw [h] at f2; cases f2

/-- C85, assigning: a colour with components between 0 and 1 is read back up to half the distance of two shades, a colour
which has been read is read back as it is; only the colour of this track changes, and the result is saved. -/
theorem C85_set [FloatEnv] {w : World} {L : Nat → Prop} (r : WReach w L) {t : Nat} (ht : L t) {rec : Rec} {old : LV}
    (h : valueOf (w.events t) 238 = some (.fields rec)) (hc : Rec.lookup rec "color" = some (some old))
    (c : Rgba) :
    (EachOf InUnit c → ∃ w' n, n < 4294967296 ∧ trackColor.write w t c = (w', .ok ()) ∧
      trackColor.read w' t = .ok (some (colourOf n)) ∧ NearColour (colourOf n) c ∧
      Assigned w w' L t 238 (.fields (Rec.update rec "color" (some (.int n)))) ∧
      (Storable w → Storable w')) ∧
    (∀ n, n < 4294967296 → c = colourOf n → ∃ w', trackColor.write w t c = (w', .ok ()) ∧
      trackColor.read w' t = .ok (some c) ∧
      Assigned w w' L t 238 (.fields (Rec.update rec "color" (some (.int n)))) ∧
      (Storable w → Storable w')) ∧
    (SomeOf Outside c → trackColor.write w t c = (w, .error .valueError)) := by
  rcases single_event r ht 238 with ⟨ref, f1, f4, f2, f3⟩ | ⟨_, f2⟩
  swap
  · rw [h] at f2; cases f2
  have f5 := f2
  rw [h] at f2
  injection f2 with f2
  have hw : trackColor.write w t c = match c.toInt with
      | .error x => (w, .error x)
      | .ok n => (w.setEv ref { w.ev ref with value := .fields (Rec.update rec "color" (some (.int n))) }, .ok ()) := by
    unfold Descr.write
    rw [if_neg (by simp [trackColor]), show trackColor.ids = [238] from rfl, f1]
    simp only [trackColor]
    cases c.toInt with
    | error x => rfl
    | ok n => simp only [structSet, ← f2, hc]
  have key : ∀ n : Nat, n < 4294967296 → c.toInt = .ok (n : Int) → ∃ w', trackColor.write w t c = (w', .ok ()) ∧
      trackColor.read w' t = .ok (some (colourOf n)) ∧
      Assigned w w' L t 238 (.fields (Rec.update rec "color" (some (.int n)))) ∧ (Storable w → Storable w') := by
    intro n hn hcn
    rw [hw, hcn]
    have has := assigned_first r ht (.fields (Rec.update rec "color" (some (.int n)))) f4 f3 f5
    refine ⟨_, rfl, ?_, has, fun hst => ?_⟩
    · have hval := has.model
      rcases single_event has.reach ht 238 with ⟨ref', g1, _, g2, _⟩ | ⟨_, g2⟩
      · rw [has.model, valueOf_setFirst_self (by rw [h]; rfl)] at g2
        injection g2 with g2
        unfold Descr.read
        rw [show trackColor.ids = [238] from rfl, g1]
        simp only [trackColor, structGet, ← g2, (lookup_update hc _).1]
        exact ofInt_map hn
      · rw [has.model, valueOf_setFirst_self (by rw [h]; rfl)] at g2
        cases g2
    · refine assigned_storable has hst (by decide) (by decide) fun e he hid hv => ?_
      have hk := storable_kind hst he (hid ▸ track_kind)
      have hv' : e.value = .fields rec := by rw [h] at hv; injection hv with hv; exact hv.symm
      have hvalid := valid_fields hk hv' (hst.valid e he)
      rw [hk]
      refine validFields_update hvalid hc fun f hf => ?_
      have : f = .opt u32 := by
        simp [SName.fields] at hf
        exact hf
      subst this
      exact ⟨valid_u32 hn, by simp [Fld.leaf, u32]⟩
  refine ⟨fun hu => ?_, fun n hn hcn => ?_, fun ho => ?_⟩
  · obtain ⟨n, n1, n2, n3⟩ := toInt_unit hu
    obtain ⟨w', k1, k2, k3, k4⟩ := key n n1 n2
    exact ⟨w', n, n1, k1, k2, n3, k3, k4⟩
  · obtain ⟨w', k1, k2, k3, k4⟩ := key n hn (by rw [hcn]; exact toInt_exact hn)
    exact ⟨w', k1, by rw [hcn]; exact k2, k3, k4⟩
  · rw [hw, toInt_outside ho]

/-- C85, assigning where no colour is stored: `PropertyCannotBeSet`, and nothing changes. -/
theorem C85_none {w : World} {L : Nat → Prop} (r : WReach w L) {t : Nat} (ht : L t) (c : Rgba)
    (hu : EachOf InUnit c) (h : valueOf (w.events t) 238 = none ∨
      ∃ rec, valueOf (w.events t) 238 = some (.fields rec) ∧ Rec.lookup rec "color" = some none) :
    trackColor.write w t c = (w, .error .propertyCannotBeSet) := by
  unfold Descr.write
  rw [if_neg (by simp [trackColor]), show trackColor.ids = [238] from rfl]
  rcases h with h | ⟨rec, h, hc⟩
  · rcases single_event r ht 238 with ⟨ref, f1, f4, f2, f3⟩ | ⟨f1, _⟩
    · rw [h] at f2; cases f2
    · rw [f1]
  · rcases single_event r ht 238 with ⟨ref, f1, f4, f2, f3⟩ | ⟨f1, f2⟩
    · rw [h] at f2
      injection f2 with f2
      rw [f1]
      obtain ⟨n, _, hn, _⟩ := toInt_unit hu
      simp only [trackColor, hn, structSet, ← f2, hc]
    · rw [h] at f2; cases f2


/-! ## C86: colour events -/

/-- A colour as the value of an event. -/
def Spec.colourValue (c : Rgba) : Value := .color c.red c.green c.blue c.alpha

theorem channelLen_ids {l l' : List Event} (h : l.map Event.id = l'.map Event.id) : channelLen l = channelLen l' := by
  have key : ∀ l : List Event, ((rackEvents l).filter fun e => e.id = 64).length =
      (((l.map Event.id).filter fun i => decide (i ≠ 236) &&
        (channelID.has i || displayGroupID.has i || pluginID.has i || rackID.has i)).filter fun i => decide (i = 64)).length := by
    intro l
    rw [List.filter_map, List.filter_map, List.length_map]
    rfl
  unfold channelLen
  rw [key, key, h]

theorem eventsBytes_same [FloatEnv] {l l' : List Event} (h : l.map Event.toBytes = l'.map Event.toBytes) :
    eventsBytes l = eventsBytes l' := by
  induction l generalizing l' with
  | nil => cases l' with
    | nil => rfl
    | cons _ _ => cases h
  | cons e l ih => cases l' with
    | nil => cases h
    | cons e' l' =>
      simp only [List.map_cons, List.cons.injEq] at h
      unfold eventsBytes
      rw [h.1, ih h.2]

theorem save_same [FloatEnv] {p q : Project} (h1 : p.format = q.format) (h2 : p.ppq = q.ppq)
    (h3 : p.events.map Event.id = q.events.map Event.id) (h4 : p.events.map Event.toBytes = q.events.map Event.toBytes) :
    saveBytes p = saveBytes q := by
  unfold saveBytes
  rw [h1, h2, channelLen_ids h3, eventsBytes_same h4]

theorem colour_build [FloatEnv] {c : Rgba} (h : EachOf InUnit c) : ∃ d : Rgba, NearColour d c ∧
    (∀ len len', Kind.build .color len (colourValue c) = Kind.build .color len' (colourValue d)) ∧
    validValue .color 4 (colourValue d) ∧ ∀ n, c = colourOf n → d = c := by
  obtain ⟨r, r1, r2⟩ := colEncode_unit h.1
  obtain ⟨g, g1, g2⟩ := colEncode_unit h.2.1
  obtain ⟨b, b1, b2⟩ := colEncode_unit h.2.2.1
  obtain ⟨a, a1, a2⟩ := colEncode_unit h.2.2.2
  refine ⟨⟨colDecode r, colDecode g, colDecode b, colDecode a⟩, ⟨r2, g2, b2, a2⟩, fun len len' => ?_, ?_, fun n hn => ?_⟩
  · simp only [Kind.build, colourValue, r1, g1, b1, a1, colEncode_colDecode]
  · exact ⟨⟨r, rfl⟩, ⟨g, rfl⟩, ⟨b, rfl⟩, ⟨a, rfl⟩⟩
  · subst hn
    have e : ∀ k (x : UInt8), colEncode (shade (k % 256)) = .ok [x] → colDecode x = shade (k % 256) := fun k x hx => by
      have : shade (k % 256) = colDecode (UInt8.ofNat k) := by
        unfold colDecode shade
        rw [UInt8.toNat_ofNat']
      rw [this] at hx ⊢
      rw [colEncode_colDecode] at hx
      simp at hx
      rw [hx]
    have := e _ _ r1
    have := e _ _ g1
    have := e _ _ b1
    have := e _ _ a1
    simp only [colourOf, *]

theorem toBytes_congr [FloatEnv] {e : Event} {v v' : Value} (h : e.kind.build e.len v = e.kind.build e.len v') :
    Event.toBytes { e with value := v } = Event.toBytes { e with value := v' } := by
  unfold Event.toBytes Event.payload
  dsimp only
  rw [h]

theorem save_setEv [FloatEnv] (w : World) (ref : Nat) {v v' : Value}
    (h : (w.ev ref).kind.build (w.ev ref).len v = (w.ev ref).kind.build (w.ev ref).len v') :
    saveBytes (w.setEv ref { w.ev ref with value := v }).project =
      saveBytes (w.setEv ref { w.ev ref with value := v' }).project := by
  refine save_same rfl rfl ?_ ?_
  · show ((w.refs 0).map _).map _ = ((w.refs 0).map _).map _
    rw [List.map_map, List.map_map]
    refine List.map_congr_left fun x _ => ?_
    simp only [Function.comp, World.ev_setEv]
    split <;> rfl
  · show ((w.refs 0).map _).map _ = ((w.refs 0).map _).map _
    rw [List.map_map, List.map_map]
    refine List.map_congr_left fun x _ => ?_
    simp only [Function.comp, World.ev_setEv]
    split
    · exact toBytes_congr h
    · rfl

/-- C86: a colour with components between 0 and 1 can be assigned to a channel, an insert or a pattern.  It is read back as
it is.  In the saved file it is a colour at most half the distance of two shades away: the same one, if it has been read
from a file.  Nothing else changes.  A colour with a component outside of the range can be assigned too, but the
project cannot be saved any more. -/
theorem C86_colour [FloatEnv] {w : World} {L : Nat → Prop} (r : WReach w L) {t : Nat} (ht : L t) (hst : Storable w)
    {id : Nat} (hk : enumType enums id = some .color) (h : (valueOf (w.events t) id).isSome) (c : Rgba) :
    ∃ w', (eventProp [id]).write w t (colourValue c) = (w', .ok ()) ∧ Assigned w w' L t id (colourValue c) ∧
      (eventProp [id]).read w' t = .ok (some (colourValue c)) ∧
      (EachOf InUnit c → ∀ file, saveBytes w'.project = .ok file →
        ∃ w'' d, NearColour d c ∧ (∀ n, c = colourOf n → d = c) ∧ Assigned w w'' L t id (colourValue d) ∧
          Storable w'' ∧ ReadBack w'' file) ∧
      (SomeOf Outside c → ∀ file, saveBytes w'.project ≠ .ok file) := by
  have h199 : id ≠ 199 := by rintro rfl; exact absurd hk (by decide +kernel)
  have h201 : id ≠ 201 := by rintro rfl; exact absurd hk (by decide +kernel)
  obtain ⟨ref, hid, hval, hwr⟩ := eventProp_write r ht h
  obtain ⟨w1, w2⟩ := hwr (colourValue c)
  obtain ⟨i, e, p1, p2, p3, p4⟩ := w2.project
  have hek : e.kind = .color := storable_kind hst (List.mem_of_getElem? p1) (p2 ▸ hk)
  have hi := (List.getElem?_eq_some_iff.1 p1).1
  refine ⟨_, w1, w2, ?_, fun hu file hs => ?_, fun ho file hs => ?_⟩
  · unfold Descr.read
    rw [show (eventProp [id]).ids = [id] from rfl]
    rcases single_event w2.reach ht id with ⟨ref, f1, -, f2, -⟩ | ⟨-, f2⟩
    · rw [f1]
      rw [w2.model, valueOf_setFirst_self h] at f2
      injection f2 with f2
      simp only [eventProp, ← f2]
    · rw [w2.model, valueOf_setFirst_self h] at f2; cases f2
  · obtain ⟨d, d1, d2, d3, d4⟩ := colour_build hu
    obtain ⟨-, a2⟩ := hwr (colourValue d)
    have hst'' : Storable (w.setEv ref { w.ev ref with value := colourValue d }) := assigned_storable a2 hst h199 h201 fun e' he' hid' _ => by
      rw [storable_kind hst he' (hid' ▸ hk)]
      exact d3
    refine ⟨_, d, d1, d4, a2, hst'', storable_saved hst'' ?_⟩
    rw [← hs]
    refine save_setEv w ref ?_
    rw [storable_kind hst (world_mem r ht hval) (hid ▸ hk)]
    exact (d2 _ _).symm
  · obtain ⟨b, hb⟩ := saveBytes_mem hs { e with value := colourValue c } (by
      rw [p4]
      dsimp only
      exact List.mem_set hi _)
    unfold Event.payload at hb
    dsimp only at hb
    rw [hek] at hb
    have : Kind.build .color e.len (colourValue c) = .error .valueError := by
      simp only [Kind.build, colourValue]
      split
      · next r1 g1 b1 a1 =>
        rcases ho with ho | ho | ho | ho
        · rw [colEncode_outside ho] at r1; cases r1
        · rw [colEncode_outside ho] at g1; cases g1
        · rw [colEncode_outside ho] at b1; cases b1
        · rw [colEncode_outside ho] at a1; cases a1
      · rfl
    rw [this] at hb
    cases hb

namespace Demo

/-- A project with the colours of a channel and of a track. -/
def coloured (n : Nat) : Project := ⟨0, 1, 96, [⟨199, .ascii, .str (PStr.lit "20.8.3"), 7⟩, ⟨64, .u16, .lv (.int 0), 2⟩,
  ⟨128, .color, .color (colDecode 72) (colDecode 81) (colDecode 86) (colDecode 0), 4⟩,
  ⟨238, .struct .track, .fields [("iid", some (.int 1)), ("color", some (.int n)), ("icon", some (.int 0)),
    ("enabled", some (.bool true)), ("height", some (.str (PStr.lit "100%"))), ("locked_height", some (.int 0)),
    ("content_locked", some (.bool false)), ("motion", some (.int 0)), ("press", some (.int 0)),
    ("trigger_sync", some (.int 0)), ("queued", some (.bool false)), ("tolerant", some (.bool true)),
    ("position_sync", some (.int 0)), ("grouped", some (.bool false)), ("locked", some (.bool false)),
    ("_u1", some (.bytes []))], 47⟩]⟩

theorem coloured_storable [FloatEnv] {n : Nat} (h : n < 4294967296) : Storable (World.ofProject (coloured n)) := by
  refine ⟨by simp [World.ofProject, coloured, formats], by simp [World.ofProject, coloured, ppqs],
    by rw [ofProject_project]; exact Demo.wellTyped_of (by
      rw [show typedFrom [] (coloured n).events = typedFrom [] (coloured 0).events from rfl]; decide +kernel), ?_⟩
  rw [ofProject_project]
  intro e he
  simp only [coloured, List.mem_cons, List.not_mem_nil, or_false] at he
  rcases he with rfl | rfl | rfl | rfl
  · exact ⟨by decide, by decide⟩
  · exact ⟨_, rfl, rfl⟩
  · exact ⟨⟨72, rfl⟩, ⟨81, rfl⟩, ⟨86, rfl⟩, ⟨0, rfl⟩⟩
  · have h0 : ∀ m : Nat, m < 4294967296 → leafValid u32 (.int m) := fun m => valid_u32
    refine ⟨rfl, h0 1 (by decide), fun h => (nomatch h), rfl, h0 n h, fun h => (nomatch h), rfl, h0 0 (by decide), fun h => (nomatch h),
      rfl, trivial, fun h => (nomatch h), rfl, ⟨0x3F800000, by decide +kernel, by decide, by decide +kernel⟩, fun h => (nomatch h),
      rfl, (show intFits 4 true 0 = true by decide), fun h => (nomatch h), rfl, trivial, fun h => (nomatch h),
      rfl, h0 0 (by decide), fun h => (nomatch h), rfl, h0 0 (by decide), fun h => (nomatch h), rfl, h0 0 (by decide), fun h => (nomatch h),
      rfl, trivial, fun h => (nomatch h), rfl, trivial, fun h => (nomatch h), rfl, h0 0 (by decide), fun h => (nomatch h),
      rfl, trivial, fun h => (nomatch h), rfl, trivial, fun h => (nomatch h), rfl, trivial, fun _ => rfl, trivial⟩

end Demo

/-- The hypotheses of the C85 and C86 theorems can be met. -/
example [FloatEnv] : WReach (World.ofProject (Demo.coloured 5656904)) (· = 0) ∧
    Storable (World.ofProject (Demo.coloured 5656904)) ∧
    (∃ rec, valueOf ((World.ofProject (Demo.coloured 5656904)).events 0) 238 = some (.fields rec) ∧
      Rec.lookup rec "color" = some (some (.int 5656904))) ∧
    trackColor.read (World.ofProject (Demo.coloured 5656904)) 0 = .ok (some (colourOf 5656904)) ∧
    colourOf 5656904 = ⟨shade 72, shade 81, shade 86, shade 0⟩ ∧
    enumType enums 128 = some .color ∧ (valueOf ((World.ofProject (Demo.coloured 5656904)).events 0) 128).isSome ∧
    EachOf InUnit ⟨1 / 2, 1 / 3, 1, 0⟩ ∧ SomeOf Outside ⟨1 / 2, 1 / 3, 2, 0⟩ := by
  refine ⟨.parsed _, Demo.coloured_storable (by decide), ⟨_, rfl, rfl⟩, by decide +kernel, by unfold colourOf; norm_num, by decide +kernel, rfl, ?_, ?_⟩
  · unfold EachOf InUnit; norm_num
  · unfold SomeOf Outside; norm_num

end PyFLP
