import Verif.Automation
import Verif.Props.ChannelProps
/-!
# Automation clips (C84)
-/

namespace PyFLP

open Spec Heap

namespace Spec

/-- What is stored of a point: offset, value and tension as bit patterns, four further bytes. -/
structure Pt where
  offset : Nat
  value : Nat
  tension : Nat
  extra : Bytes
  deriving DecidableEq

/-- The container of a point. -/
def Pt.fields (p : Pt) : Rec :=
  [("_offset", some (.f64 p.offset)), ("value", some (.f64 p.value)), ("tension", some (.f32 p.tension)),
    ("_u1", some (.bytes p.extra))]

/-- Position on the time axis of the point behind `before`: the sum of the offsets, the first one being its offset. -/
def xPosition [FloatAdd] : List Pt → Pt → Nat
  | [], p => p.offset
  | before, p => (before ++ [p]).foldl (fun x q => FloatAdd.add x q.offset) 0

/-- The clip has these points. -/
def HasPoints (w : World) (t : Nat) (ps : List Pt) : Prop :=
  ∃ h tl, valueOf (w.events t) 234 = some (.auto h (ps.map Pt.fields) tl)

/-- The points that iteration gives show `ps`, in order. -/
structure Shows [FloatAdd] (w : World) (t : Nat) (us : List Point) (ps : List Pt) : Prop where
  points : w.points t = .ok us
  length : us.length = ps.length
  value : ∀ a p b, ps = a ++ p :: b → ∃ u, us[a.length]? = some u ∧
    w.pointGet u "value" = .ok (some (.f64 p.value)) ∧ w.pointGet u "tension" = .ok (some (.f32 p.tension)) ∧
    w.pointPosition u = .ok (xPosition a p) ∧ w.getPoint t a.length = .ok u

end Spec

theorem Pt.offset_eq (p : Pt) : pointOffset p.fields = p.offset := rfl

theorem autoPosition_eq [FloatAdd] (a b : List Pt) (p : Pt) :
    autoPosition ((a ++ p :: b).map Pt.fields) a.length = xPosition a p := by
  cases a with
  | nil => rfl
  | cons q a =>
    unfold autoPosition
    rw [if_pos (by simp)]
    have : ((q :: a ++ p :: b).map Pt.fields).take ((q :: a).length + 1) = (q :: a ++ [p]).map Pt.fields := by
      rw [← List.map_take]
      congr 1
      have : q :: a ++ p :: b = (q :: a ++ [p]) ++ b := by simp
      rw [this, List.take_append_of_le_length (by simp), List.take_of_length_le (by simp)]
    rw [this, List.map_map]
    have hf : pointOffset ∘ Pt.fields = Pt.offset := by funext x; rfl
    rw [hf, List.foldl_map]
    rfl

theorem range_points {n ref : Nat} {i : Nat} (h : i < n) :
    ((List.range n).map fun i => (⟨ref, i⟩ : Point))[i]? = some ⟨ref, i⟩ := by
  simp [List.getElem?_map, List.getElem?_range h]

theorem find_point {l : List Point} {i : Nat} {p : Point} (h : l[i]? = some p) :
    l.zipIdx.find? (fun x => decide ((x.2 : Int) = i)) = some (p, i) := by
  have key : ∀ (l : List Point) (k j : Nat) (p : Point), l[j]? = some p →
      (l.zipIdx k).find? (fun x => decide ((x.2 : Int) = ((k + j : Nat) : Int))) = some (p, k + j) := by
    intro l
    induction l with
    | nil => intro k j p h; simp at h
    | cons x l ih =>
      intro k j p h
      cases j with
      | zero => simp at h; subst h; simp
      | succ j =>
        simp only [List.getElem?_cons_succ] at h
        rw [List.zipIdx_cons, List.find?_cons_of_neg]
        · have := ih (k + 1) j p h
          rw [show k + 1 + j = k + (j + 1) by omega] at this
          exact this
        · simp; omega
  have := key l 0 i p h
  simpa using this

theorem find_point_none {l : List Point} {i : Int} (h : i < 0 ∨ (l.length : Int) ≤ i) :
    l.zipIdx.find? (fun x => decide ((x.2 : Int) = i)) = none := by
  rw [List.find?_eq_none]
  intro x hx
  have := (List.mem_zipIdx (x := x.1) (i := x.2) hx)
  simp only [decide_eq_true_eq]
  omega

theorem points_eq {w : World} {L : Nat → Prop} (r : WReach w L) {t : Nat} (ht : L t) {ps : List Pt}
    (h : HasPoints w t ps) : ∃ ref hd tl, w.heap.first t 234 = .ok ref ∧ (w.ev ref).value = .auto hd (ps.map Pt.fields) tl ∧
      w.points t = .ok ((List.range ps.length).map fun i => ⟨ref, i⟩) := by
  obtain ⟨hd, tl, hv⟩ := h
  rcases World.first_value r ht 234 with ⟨ref, f1, _, f2, _⟩ | ⟨_, f2⟩
  · have : (w.ev ref).value = .auto hd (ps.map Pt.fields) tl := by
      rw [hv] at f2; exact (Option.some.inj f2).symm
    refine ⟨ref, hd, tl, f1, this, ?_⟩
    unfold World.points
    rw [World.contains_eq r ht, hv, if_pos Option.isSome_some, f1]
    simp only [World.autoPoints, this, Except.map, List.length_map]
  · rw [hv] at f2; cases f2

/-- C84, reading: iterating over a clip gives its points with their values, tensions and positions; subscripts count from 0,
others raise `ModelNotFound`. -/
theorem C84_read [FloatAdd] {w : World} {L : Nat → Prop} (r : WReach w L) {t : Nat} (ht : L t) {ps : List Pt}
    (h : HasPoints w t ps) :
    (∃ us, Shows w t us ps) ∧ ∀ i : Int, i < 0 ∨ (ps.length : Int) ≤ i → w.getPoint t i = .error .modelNotFound := by
  obtain ⟨ref, hd, tl, h1, h2, h3⟩ := points_eq r ht h
  refine ⟨⟨_, h3, by simp, fun a p b hps => ?_⟩, fun i hi => ?_⟩
  · have hlt : a.length < ps.length := by rw [hps]; simp
    have hget : (ps.map Pt.fields).getD a.length [] = p.fields := by
      rw [hps]
      simp [List.getD_eq_getElem?_getD]
    refine ⟨_, range_points hlt, ?_, ?_, ?_, ?_⟩
    · simp only [World.pointGet, World.autoPoints, h2, hget]; rfl
    · simp only [World.pointGet, World.autoPoints, h2, hget]; rfl
    · simp only [World.pointPosition, World.autoPoints, h2, Except.map]
      rw [hps, autoPosition_eq]
    · unfold World.getPoint
      rw [h3]
      dsimp only
      rw [find_point (range_points hlt)]
  · unfold World.getPoint
    rw [h3]
    dsimp only
    rw [find_point_none (by simpa using hi)]

/-- C84: a clip without points event has no points. -/
theorem C84_none {w : World} {L : Nat → Prop} (r : WReach w L) {t : Nat} (ht : L t) (h : valueOf (w.events t) 234 = none)
    (i : Int) : w.points t = .ok [] ∧ w.getPoint t i = .error .modelNotFound := by
  have : w.points t = .ok [] := by
    unfold World.points
    rw [World.contains_eq r ht, h, if_neg (by simp)]
  refine ⟨this, ?_⟩
  unfold World.getPoint
  rw [this]
  rfl

/-! ### The stream -/

section
variable [FloatEnv]

theorem req_step {cx : Ctx} {n : String} {l : Leaf} {fs : Fields} {bs : Bytes} {rec : Rec} {r : Bytes}
    (h : structParse cx ((n, .req l) :: fs) bs = .ok (rec, r)) :
    ∃ v r1 rec', leafParse l bs = .ok (v, r1) ∧ structParse cx fs r1 = .ok (rec', r) ∧ rec = (n, some v) :: rec' := by
  simp only [structParse, fldParse] at h
  cases h1 : leafParse l bs with
  | error e => rw [h1] at h; cases h
  | ok x =>
    rw [h1] at h
    simp only [Except.map] at h
    cases h2 : structParse cx fs x.2 with
    | error e => rw [h2] at h; cases h
    | ok y =>
      rw [h2] at h
      cases h
      exact ⟨x.1, x.2, y.1, rfl, h2, rfl⟩

theorem raw_step {n : Nat} {bs : Bytes} {v : LV} {r : Bytes} (h : leafParse (.raw n) bs = .ok (v, r)) :
    v = .bytes (bs.take n) ∧ r = bs.drop n := by
  simp only [leafParse] at h
  split at h
  · cases h
  · cases h; exact ⟨rfl, rfl⟩

theorem int_step {w : Nat} {s : Bool} {bs : Bytes} {v : LV} {r : Bytes} (h : leafParse (.int w s) bs = .ok (v, r)) :
    r = bs.drop w := by
  simp only [leafParse] at h
  cases h1 : intParse w s bs with
  | error e => rw [h1] at h; cases h
  | ok x =>
    rw [h1] at h
    cases h
    unfold intParse at h1
    split at h1
    · cases h1
    · cases h1; rfl

theorem f64_step {bs : Bytes} {v : LV} {r : Bytes} (h : leafParse .f64 bs = .ok (v, r)) :
    ∃ x, intParse 8 false bs = .ok (x, r) ∧ v = .f64 x.toNat ∧ r = bs.drop 8 := by
  simp only [leafParse] at h
  cases h1 : intParse 8 false bs with
  | error e => rw [h1] at h; cases h
  | ok x =>
    rw [h1] at h
    cases h
    exact ⟨x.1, rfl, rfl, (intParse_u h1).2.1⟩

theorem f32_step {bs : Bytes} {v : LV} {r : Bytes} (h : leafParse .f32 bs = .ok (v, r)) :
    ∃ x, v = .f32 x ∧ r = bs.drop 4 := by
  simp only [leafParse] at h
  cases h1 : intParse 4 false bs with
  | error e => rw [h1] at h; cases h
  | ok x =>
    rw [h1] at h
    cases h
    exact ⟨_, rfl, (intParse_u h1).2.1⟩

theorem nil_step {cx : Ctx} {bs : Bytes} {rec : Rec} {r : Bytes} (h : structParse cx [] bs = .ok (rec, r)) :
    rec = [] ∧ r = bs := by
  unfold structParse at h
  cases h
  exact ⟨rfl, rfl⟩

theorem point_parse {bs : Bytes} {rec : Rec} {r : Bytes} (h : structParse ⟨0⟩ autoPoint bs = .ok (rec, r)) :
    ∃ p : Pt, rec = p.fields ∧ r = bs.drop 24 ∧ ∃ x r0, intParse 8 false bs = .ok (x, r0) ∧ x.toNat = p.offset := by
  obtain ⟨v1, r1, rec1, a1, h1, rfl⟩ := req_step h
  obtain ⟨v2, r2, rec2, a2, h2, rfl⟩ := req_step h1
  obtain ⟨v3, r3, rec3, a3, h3, rfl⟩ := req_step h2
  obtain ⟨v4, r4, rec4, a4, h4, rfl⟩ := req_step h3
  obtain ⟨rfl, rfl⟩ := nil_step h4
  obtain ⟨x, b1, rfl, c1⟩ := f64_step a1
  obtain ⟨y, -, rfl, c2⟩ := f64_step a2
  obtain ⟨z, rfl, c3⟩ := f32_step a3
  obtain ⟨rfl, c4⟩ := raw_step a4
  refine ⟨⟨x.toNat, y.toNat, z, r3.take 4⟩, rfl, ?_, x, _, b1, rfl⟩
  rw [c4, c3, c2, c1]
  simp [List.drop_drop]

theorem head_parse {bs : Bytes} {rec : Rec} {r : Bytes} (h : structParse ⟨0⟩ autoHead bs = .ok (rec, r)) :
    r = bs.drop 17 := by
  obtain ⟨v1, r1, rec1, a1, h1, rfl⟩ := req_step h
  obtain ⟨v2, r2, rec2, a2, h2, rfl⟩ := req_step h1
  obtain ⟨v3, r3, rec3, a3, h3, rfl⟩ := req_step h2
  obtain ⟨v4, r4, rec4, a4, h4, rfl⟩ := req_step h3
  obtain ⟨v5, r5, rec5, a5, h5, rfl⟩ := req_step h4
  obtain ⟨v6, r6, rec6, a6, h6, rfl⟩ := req_step h5
  obtain ⟨rfl, rfl⟩ := nil_step h6
  rw [(raw_step a6).2, (raw_step a5).2, (raw_step a4).2, (raw_step a3).2, int_step a2, (raw_step a1).2]
  simp [List.drop_drop]

theorem points_parse {bs : Bytes} {n k : Nat} {rs : List Rec} {tl : Bytes}
    (h : timesParse ⟨0⟩ autoPoint n (bs.drop (21 + k * 24)) = .ok (rs, tl)) :
    ∃ ps : List Pt, rs = ps.map Pt.fields ∧ ∀ (i : Nat) (p : Pt), ps[i]? = some p →
      ∃ x r0, intParse 8 false (bs.drop (21 + (k + i) * 24)) = .ok (x, r0) ∧ x.toNat = p.offset := by
  induction n generalizing k rs with
  | zero =>
    unfold timesParse at h
    cases h
    exact ⟨[], rfl, fun i p hp => by simp at hp⟩
  | succ n ih =>
    unfold timesParse at h
    cases h1 : structParse ⟨0⟩ autoPoint (bs.drop (21 + k * 24)) with
    | error e => rw [h1] at h; cases h
    | ok y =>
      rw [h1] at h
      dsimp only at h
      obtain ⟨p, p1, p2, p3⟩ := point_parse h1
      cases h2 : timesParse ⟨0⟩ autoPoint n y.2 with
      | error e => rw [h2] at h; cases h
      | ok z =>
        rw [h2] at h
        cases h
        rw [p2, List.drop_drop, show 21 + k * 24 + 24 = 21 + (k + 1) * 24 by omega] at h2
        obtain ⟨ps, q1, q2⟩ := ih h2
        refine ⟨p :: ps, by rw [p1, q1]; rfl, fun i q hq => ?_⟩
        cases i with
        | zero => simp at hq; subst hq; exact p3
        | succ i =>
          obtain ⟨x, r0, e1, e2⟩ := q2 i q (by simpa using hq)
          exact ⟨x, r0, by rw [show k + (i + 1) = k + 1 + i by omega]; exact e1, e2⟩

theorem seekLoop_eq [FloatAdd] {bs : Bytes} (ps : List Pt) (k x : Nat)
    (h : ∀ (i : Nat) (p : Pt), ps[i]? = some p →
      ∃ y r0, intParse 8 false (bs.drop (21 + (k + i) * 24)) = .ok (y, r0) ∧ y.toNat = p.offset) :
    seekLoop bs k ps.length x = .ok (ps.foldl (fun x q => FloatAdd.add x q.offset) x) := by
  induction ps generalizing k x with
  | nil => rfl
  | cons p ps ih =>
    obtain ⟨y, r0, h1, h2⟩ := h 0 p rfl
    simp only [Nat.add_zero] at h1
    simp only [List.length_cons, seekLoop, h1, h2, List.foldl_cons]
    exact ih (k + 1) _ fun i q hq => by
      rw [show k + 1 + i = k + (i + 1) by omega]
      exact h (i + 1) q (by simpa using hq)

/-- C84: a parsed event has points with an offset, a value and a tension each, and what `_get_position` finds in the stream
for each point but the first is the sum of the offsets up to it. -/
theorem C84_stream [FloatAdd] {bs : Bytes} {hd : Rec} {rs : List Rec} {tl : Bytes}
    (h : Kind.parse .automation bs = .ok (.auto hd rs tl)) :
    ∃ ps : List Pt, rs = ps.map Pt.fields ∧
      ∀ a p b, ps = a ++ p :: b → a ≠ [] → streamPosition bs a.length = .ok (xPosition a p) := by
  have h : autoParse bs = .ok (.auto hd rs tl) := h
  unfold autoParse at h
  cases h1 : structParse ⟨0⟩ autoHead bs with
  | error e => rw [h1] at h; cases h
  | ok x =>
    rw [h1] at h
    dsimp only at h
    cases h2 : intParse 4 false x.2 with
    | error e => rw [h2] at h; cases h
    | ok y =>
      rw [h2] at h
      dsimp only at h
      cases h3 : timesParse ⟨0⟩ autoPoint y.1.toNat y.2 with
      | error e => rw [h3] at h; cases h
      | ok z =>
        rw [h3] at h
        cases h
        rw [(intParse_u h2).2.1, head_parse h1, List.drop_drop] at h3
        obtain ⟨ps, q1, q2⟩ := points_parse (k := 0) h3
        refine ⟨ps, q1, fun a p b hps hne => ?_⟩
        have := seekLoop_eq (bs := bs) (a ++ [p]) 0 0 fun i q hq => q2 i q (by
          rw [hps, show a ++ p :: b = (a ++ [p]) ++ b by simp, List.getElem?_append_left]
          · exact hq
          · exact (List.getElem?_eq_some_iff.1 hq).1)
        unfold streamPosition
        rw [show a.length + 1 = (a ++ [p]).length by simp, this]
        cases a with
        | nil => exact absurd rfl hne
        | cons _ _ => rfl

end

/-! ### Assigning -/

/-- A property of a point that can be assigned. -/
inductive Spec.PtProp
  | value | tension

/-- The name of the property. -/
def Spec.PtProp.key : PtProp → String
  | .value => "value"
  | .tension => "tension"

/-- The number with these bits as a value of the property. -/
def Spec.PtProp.lv : PtProp → Nat → LV
  | .value, x => .f64 x
  | .tension, x => .f32 x

/-- The point with the property changed. -/
def Spec.PtProp.put (k : PtProp) (p : Pt) (x : Nat) : Pt :=
  match k with
  | .value => { p with value := x }
  | .tension => { p with tension := x }

/-- The bits are those of a number of its type (binary64, binary32). -/
def Spec.PtProp.Fits : PtProp → Nat → Prop
  | .value, x => x < 2 ^ 64
  | .tension, x => x < 2 ^ 32

theorem put_fields (k : PtProp) (p : Pt) (x : Nat) : Rec.put p.fields k.key (some (k.lv x)) = (k.put p x).fields := by
  cases k <;> rfl

theorem auto_kind : enumType enums 234 = some .automation := by decide +kernel

/-- C84, assigning: `point.value = x` and `point.tension = x` change this one number; the other points, all positions and all
else stay.  The point objects remain valid.  The position cannot be assigned. -/
theorem C84_set [FloatEnv] [FloatAdd] {w : World} {L : Nat → Prop} (r : WReach w L) {t : Nat} (ht : L t) {us : List Point}
    {a b : List Pt} {p : Pt} {u : Point} (h : HasPoints w t (a ++ p :: b)) (hs : Shows w t us (a ++ p :: b))
    (hu : us[a.length]? = some u) (k : PtProp) (x : Nat) :
    (∃ w', w.pointSet u k.key (k.lv x) = (w', .ok ()) ∧ HasPoints w' t (a ++ k.put p x :: b) ∧
      Shows w' t us (a ++ k.put p x :: b) ∧ WReach w' L ∧ ChangedOnly w w' t [234] ∧
      (Storable w → k.Fits x → Storable w')) ∧
    w.setPosition u x = (w, .error .propertyCannotBeSet) := by
  refine ⟨?_, rfl⟩
  obtain ⟨ref, hd, tl, h1, h2, h3⟩ := points_eq r ht h
  have hus : us = (List.range (a ++ p :: b).length).map fun i => ⟨ref, i⟩ := by
    have := hs.points
    rw [h3] at this
    injection this with this
    exact this.symm
  have hlt : a.length < (a ++ p :: b).length := by simp
  have huref : u = ⟨ref, a.length⟩ := by
    rw [hus, range_points hlt] at hu
    exact (Option.some.inj hu).symm
  have hget : ((a ++ p :: b).map Pt.fields).getD a.length [] = p.fields := by
    simp [List.getD_eq_getElem?_getD]
  obtain ⟨ref', f1, f0, f2, f3⟩ | ⟨f1, f2⟩ := World.first_value r ht 234
  · have hr : ref' = ref := by rw [h1] at f1; cases f1; rfl
    subst hr
    have hnew : ((a ++ p :: b).map Pt.fields).set a.length (k.put p x).fields = (a ++ k.put p x :: b).map Pt.fields := by
      simp
    have hA := assigned_first r ht (.auto hd ((a ++ k.put p x :: b).map Pt.fields) tl) f1 f3 f2
    refine ⟨_, ?_, ?_, ?_, hA.reach, hA.changedOnly (by simp), ?_⟩
    · unfold World.pointSet
      rw [huref]
      simp only [h2]
      rw [if_pos (by simpa using hlt), hget, put_fields, hnew]
    · exact ⟨hd, tl, by rw [hA.model, valueOf_setFirst_self (by rw [f2]; rfl)]⟩
    · have hp' : HasPoints (w.setEv ref' { w.ev ref' with value := .auto hd ((a ++ k.put p x :: b).map Pt.fields) tl }) t
          (a ++ k.put p x :: b) := ⟨hd, tl, by rw [hA.model, valueOf_setFirst_self (by rw [f2]; rfl)]⟩
      obtain ⟨us', hs'⟩ := (C84_read hA.reach ht hp').1
      obtain ⟨ref2, hd2, tl2, g1, g2, g3⟩ := points_eq hA.reach ht hp'
      have : us' = us := by
        have h4 := hs'.points
        rw [g3] at h4
        injection h4 with h4
        have : ref2 = ref' := by
          have h5 : w.heap.first t 234 = .ok ref2 := g1
          rw [h1] at h5
          cases h5; rfl
        rw [hus, ← h4, this]
        simp
      rw [this] at hs'
      exact hs'
    · intro hst hf
      refine assigned_storable hA hst (by decide) (by decide) fun e he hid hev => ?_
      have hv := hst.valid e he
      rw [storable_kind hst he (hid ▸ auto_kind)] at hv ⊢
      rw [f2, h2] at hev
      injection hev with hev
      rw [← hev] at hv
      obtain ⟨v1, v2, v3⟩ := hv
      refine ⟨v1, fun rec hrec => ?_, by simpa using v3⟩
      rw [List.map_append, List.map_cons] at hrec
      rcases List.mem_append.1 hrec with hrec | hrec
      · exact v2 rec (by simp only [List.map_append, List.mem_append]; exact .inl hrec)
      · rcases List.mem_cons.1 hrec with rfl | hrec
        · have := v2 p.fields (by simp)
          obtain ⟨o1, o2, o3, o4, o5⟩ := this
          cases k
          · exact ⟨o1, o2, o3, hf, o5⟩
          · exact ⟨o1, o2, o3, o4, o5.1, hf, o5.2.2⟩
        · exact v2 rec (by simp only [List.map_append, List.map_cons, List.mem_append, List.mem_cons]; exact .inr (.inr hrec))
  · rw [h1] at f1; cases f1

namespace Demo

/-- An automation clip with three points. -/
def clipPoints : List Pt := [⟨0, 5, 0, [0, 0, 0, 0]⟩, ⟨0x3FF0000000000000, 6, 0, [0, 0, 0, 0]⟩,
  ⟨0x4000000000000000, 7, 0, [0, 0, 0, 0]⟩]

/-- A project with the clip. -/
def autoClip : Project := ⟨0, 1, 96, [⟨199, .ascii, .str (PStr.lit "20.8.3"), 7⟩, ⟨64, .u16, .lv (.int 0), 2⟩,
  ⟨234, .automation, .auto [("_u1", some (.bytes [0, 0, 0, 0])), ("lfo.amount", some (.int 0)), ("_u2", some (.bytes [0])),
    ("_u3", some (.bytes [0, 0])), ("_u4", some (.bytes [0, 0])), ("_u5", some (.bytes [0, 0, 0, 0]))]
    (clipPoints.map Pt.fields) [], 93⟩]⟩

theorem clip_storable [FloatEnv] : Storable (World.ofProject autoClip) := by
  refine ⟨by decide, by decide, by rw [ofProject_project]; exact Demo.wellTyped_of (by decide +kernel), ?_⟩
  rw [ofProject_project]
  intro e he
  simp only [autoClip, List.mem_cons, List.not_mem_nil, or_false] at he
  rcases he with rfl | rfl | rfl
  · exact ⟨by decide, by decide⟩
  · exact ⟨_, rfl, rfl⟩
  · refine ⟨⟨rfl, rfl, rfl, rfl, rfl, rfl, rfl, rfl, rfl, rfl, rfl, rfl, trivial⟩, fun r hr => ?_, by decide⟩
    simp only [clipPoints, List.map_cons, List.map_nil, List.mem_cons, List.not_mem_nil, or_false] at hr
    rcases hr with rfl | rfl | rfl <;>
      exact ⟨rfl, show _ < 2 ^ 64 by decide, rfl, show _ < 2 ^ 64 by decide, rfl, show _ < 2 ^ 32 by decide, rfl, rfl, trivial⟩

theorem clip_points : HasPoints (World.ofProject autoClip) 0 clipPoints := ⟨_, _, rfl⟩

end Demo

/-- The hypotheses of `C84_read` and `C84_set` can be met; positions with the addition of whole numbers for floats. -/
example [FloatEnv] : Storable (World.ofProject Demo.autoClip) ∧ HasPoints (World.ofProject Demo.autoClip) 0 Demo.clipPoints ∧
    (letI : FloatAdd := ⟨(· + ·)⟩
     (World.ofProject Demo.autoClip).pointPosition ⟨2, 2⟩ = .ok (0x3FF0000000000000 + 0x4000000000000000) ∧
     ∃ us, Shows (World.ofProject Demo.autoClip) 0 us Demo.clipPoints) :=
  ⟨Demo.clip_storable, Demo.clip_points, rfl,
    letI : FloatAdd := ⟨(· + ·)⟩
    (C84_read (.parsed _) rfl Demo.clip_points).1⟩

/-- The hypothesis of `C84_none` can be met. -/
example : valueOf ((World.ofProject Demo.delayed).events 0) 234 = none := by decide +kernel

/-- The hypothesis of `C84_stream` can be met with two points. -/
example [FloatEnv] : ∃ hd rs tl, Kind.parse .automation
    (List.replicate 17 0 ++ [2, 0, 0, 0] ++ List.replicate 48 1 ++ [9]) = .ok (.auto hd rs tl) ∧ rs.length = 2 ∧ tl = [9] :=
  ⟨_, _, _, rfl, rfl, rfl⟩

end PyFLP
