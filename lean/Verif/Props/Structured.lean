import Verif.Props.Events
/-!
# C38 and C39: structured events
-/

namespace PyFLP

open Spec

variable [FloatEnv]

namespace Spec

/-- Number of bytes of a complete primitive; `none`: everything that is left. -/
def fieldWidth : Leaf → Option Nat
  | .int w _ => some w
  | .flag => some 1
  | .raw n | .rawC n => some n
  | .greedy => none
  | .f64 | .pair32 => some 8
  | .flagsS _ | .f32 | .fourBool | .height | .musical | .log2 | .logNormal => some 4

/-- Canonical bytes of a primitive: booleans are 0 or 1, signed flag words are not
negative; numbers behind the lossy adapters (heights in percent, logarithmic
scales) are ones that the adapter re-creates. -/
def canonBytes : Leaf → Bytes → Prop
  | .flag, c => c = [0] ∨ c = [1]
  | .fourBool, c => c = [0, 0, 0, 0] ∨ c = [1, 0, 0, 0]
  | .flagsS _, c => leNat c < 2 ^ 31
  | .height, c => (heightDecode (leNat c)).bind heightEncode = some (leNat c)
  | .log2, c =>
      (FloatEnv.exp2 (toSigned 4 (leNat c))).bind FloatEnv.log2 = some (toSigned 4 (leNat c))
  | .logNormal, c =>
      (lnDecode (leNat (c.take 2)) (leNat (c.drop 2))).bind lnEncode
        = some ((leNat (c.take 2) : Int), (leNat (c.drop 2) : Int))
  | _, _ => True

/-- A conditional field that is present in data of this size. -/
def present (len : Nat) : Fld → Option Leaf
  | .req l | .opt l => some l
  | .ifLen n l => if len = n then some l else none
  | .ifNew l => if len % 60 = 0 then some l else none

/-- The bytes are the fields one after the other, each complete and canonical. -/
inductive Complete (len : Nat) : Fields → Bytes → Prop
  | done : Complete len [] []
  | field {n f l fs chunk rest} (hp : present len f = some l)
      (hw : fieldWidth l = some chunk.length ∨ (fieldWidth l = none ∧ rest = []))
      (hc : canonBytes l chunk) (t : Complete len fs rest) : Complete len ((n, f) :: fs) (chunk ++ rest)
  | skip {n f fs bs} (hp : present len f = none) (t : Complete len fs bs) : Complete len ((n, f) :: fs) bs

end Spec

/-- A complete canonical chunk is parsed, and re-created from the value. -/
theorem leaf_complete {l : Leaf} {chunk rest : Bytes}
    (hw : fieldWidth l = some chunk.length ∨ (fieldWidth l = none ∧ rest = []))
    (hc : canonBytes l chunk) :
    (∃ v, leafParse l (chunk ++ rest) = .ok (v, rest)) ∧ leafCanon l (chunk ++ rest) := by
  have hint : ∀ w s, w = chunk.length → ∃ v, intParse w s (chunk ++ rest) = .ok (v, rest) := by
    intro w s h
    subst h
    unfold intParse
    rw [if_neg (by simp)]
    simp only [List.drop_left]
    exact ⟨_, rfl⟩
  have htake : ∀ w, w = chunk.length → (chunk ++ rest).take w = chunk := by
    intro w h; subst h; simp
  cases l <;> simp only [fieldWidth, Option.some.injEq, reduceCtorEq, false_and, or_false, true_and, false_or] at hw
  case int w s =>
    obtain ⟨v, h⟩ := hint w s hw
    exact ⟨⟨.int v, by simp only [leafParse, h]; rfl⟩, trivial⟩
  case flagsS m =>
    obtain ⟨v, h⟩ := hint 4 true hw
    refine ⟨⟨.int (intFlagValue m v), by simp only [leafParse, h]; rfl⟩, ?_⟩
    simp only [leafCanon, htake 4 hw]
    exact hc
  case flag =>
    rcases hc with rfl | rfl
    · exact ⟨⟨_, rfl⟩, .inl rfl⟩
    · exact ⟨⟨_, rfl⟩, .inr rfl⟩
  case raw n =>
    subst hw
    refine ⟨⟨.bytes chunk, ?_⟩, trivial⟩
    simp only [leafParse]
    rw [if_neg (by simp)]
    simp
  case rawC n =>
    subst hw
    exact ⟨⟨.bytes chunk, by simp [leafParse]⟩, trivial⟩
  case greedy =>
    subst hw
    exact ⟨⟨.bytes chunk, by simp [leafParse]⟩, trivial⟩
  case f32 =>
    obtain ⟨v, h⟩ := hint 4 false hw
    exact ⟨⟨.f32 v.toNat, by simp only [leafParse, h]; rfl⟩, trivial⟩
  case f64 =>
    obtain ⟨v, h⟩ := hint 8 false hw
    exact ⟨⟨.f64 v.toNat, by simp only [leafParse, h]; rfl⟩, trivial⟩
  case fourBool =>
    obtain ⟨v, h⟩ := hint 4 false hw
    refine ⟨⟨.bool (v ≠ 0), by simp only [leafParse, h]; rfl⟩, ?_⟩
    simp only [leafCanon, htake 4 hw]
    rcases hc with rfl | rfl <;> decide
  case height =>
    obtain ⟨v, h⟩ := hint 4 false hw
    have hv := (intParse_u h).1
    rw [htake 4 hw] at hv
    simp only [canonBytes] at hc
    cases hd : heightDecode (leNat chunk) with
    | none => rw [hd] at hc; simp at hc
    | some s =>
      refine ⟨⟨.str s, ?_⟩, ?_⟩
      · simp only [leafParse, h]
        rw [hv, Int.toNat_natCast, hd]
      · simp only [leafCanon, htake 4 hw]
        exact hc
  case pair32 =>
    match chunk, hw with
    | [a, b, c, d, e, f, g, i], _ => exact ⟨⟨_, rfl⟩, trivial⟩
  case musical =>
    obtain ⟨v, h⟩ := hint 4 false hw
    exact ⟨⟨musicalDecode v, by simp only [leafParse, h]; rfl⟩, trivial⟩
  case log2 =>
    obtain ⟨v, h⟩ := hint 4 true hw
    have hv := (intParse_s h).1
    rw [htake 4 hw] at hv
    simp only [canonBytes] at hc
    cases hd : FloatEnv.exp2 (toSigned 4 (leNat chunk)) with
    | none => rw [hd] at hc; simp at hc
    | some x =>
      refine ⟨⟨.f64 x, ?_⟩, ?_⟩
      · simp only [leafParse, h]
        rw [hv, hd]
      · simp only [leafCanon, htake 4 hw]
        exact hc
  case logNormal =>
    match chunk, hw, hc with
    | [a, b, c, d], _, hc =>
      simp only [canonBytes] at hc
      have e1 : List.take 2 [a, b, c, d] = [a, b] := rfl
      have e2 : List.drop 2 [a, b, c, d] = [c, d] := rfl
      rw [e1, e2] at hc
      cases hd : lnDecode (leNat [a, b]) (leNat [c, d]) with
      | none => rw [hd] at hc; simp at hc
      | some x =>
        refine ⟨⟨.f64 x, ?_⟩, ?_⟩
        · simp only [leafParse]
          have h2 : int2Parse 2 ([a, b, c, d] ++ rest) = .ok ((leNat [a, b] : Int), (leNat [c, d] : Int), rest) := rfl
          rw [h2]; dsimp only; rw [hd]
        · simp only [leafCanon]
          exact hc

/-- Complete canonical bytes parse with nothing left over, all present fields have
a value, and the value is built to the same bytes. -/
theorem complete_struct {len : Nat} {fs : Fields} {bs : Bytes} (h : Complete len fs bs) :
    ∃ rec, structParse ⟨len⟩ fs bs = .ok (rec, []) ∧ canonFields ⟨len⟩ fs bs ∧
      ∀ x ∈ fs.zip rec, (present len x.1.2).isSome → x.2.2 ≠ none := by
  induction h with
  | done => exact ⟨[], rfl, rfl, by simp⟩
  | @field n f l fs chunk rest hp hw hc t ih =>
    obtain ⟨rec, h1, h2, h3⟩ := ih
    obtain ⟨⟨v, hv⟩, hcan⟩ := leaf_complete hw hc
    have hf : fldParse ⟨len⟩ f (chunk ++ rest) = .ok (some v, rest) := by
      cases f <;> simp only [present, Option.some.injEq] at hp
      · subst hp; simp only [fldParse]; rw [hv]; rfl
      · subst hp; simp only [fldParse]; rw [hv]
      · split at hp
        · next hl => cases hp; simp only [fldParse]; rw [if_pos hl, hv]; rfl
        · cases hp
      · split at hp
        · next hl => cases hp; simp only [fldParse]; rw [if_pos hl, hv]; rfl
        · cases hp
    refine ⟨(n, some v) :: rec, Drift.structParse_step hf h1, ?_, ?_⟩
    · have hall : ∀ v' r', leafParse l (chunk ++ rest) = .ok (v', r') → canonFields ⟨len⟩ fs r' := by
        intro v' r' h'
        rw [hv] at h'
        cases h'
        exact h2
      cases f <;> simp only [present, Option.some.injEq] at hp
      · subst hp; exact ⟨hcan, hall⟩
      · subst hp
        refine ⟨fun v' r' h' => ⟨hcan, hall v' r' h'⟩, fun e he => ?_⟩
        rw [hv] at he; cases he
      · split at hp
        · next hl => cases hp; simp only [canonFields]; rw [if_pos hl]; exact ⟨hcan, hall⟩
        · cases hp
      · split at hp
        · next hl => cases hp; simp only [canonFields]; rw [if_pos hl]; exact ⟨hcan, hall⟩
        · cases hp
    · intro x hx
      rw [List.zip_cons_cons] at hx
      rcases List.mem_cons.1 hx with rfl | hx
      · intro _; simp
      · exact h3 x hx
  | @skip n f fs bs hp t ih =>
    obtain ⟨rec, h1, h2, h3⟩ := ih
    cases f <;> simp only [present, reduceCtorEq] at hp
    all_goals
      split at hp
      · cases hp
      next hl =>
      refine ⟨(n, none) :: rec, Drift.structParse_step (m := bs) (by simp only [fldParse]; rw [if_neg hl]) h1, ?_, ?_⟩
      · simp only [canonFields]; rw [if_neg hl]; exact h2
      · intro x hx
        rw [List.zip_cons_cons] at hx
        rcases List.mem_cons.1 hx with rfl | hx
        · simp [present, hl]
        · exact h3 x hx

/-! ## C38 Structured events survive parse and serialise -/

/-- For every flat structured event class: complete canonical data is accepted,
every field gets a value, and serialising the value gives the same bytes.  Missing: numbers behind
the adapters that do not keep every stored number, see `canonBytes` and `C38_flags_refuted`. -/
theorem C38_struct_partial (s : SName) (bs : Bytes) (h : Complete bs.length s.fields bs) :
    ∃ rec, Kind.parse (.struct s) bs = .ok (.fields rec) ∧
      (∀ x ∈ s.fields.zip rec, (present bs.length x.1.2).isSome → x.2.2 ≠ none) ∧
      Kind.build (.struct s) bs.length (.fields rec) = .ok bs := by
  obtain ⟨rec, h1, h2, h3⟩ := complete_struct h
  have hp : Kind.parse (.struct s) bs = .ok (.fields rec) := by
    simp only [Kind.parse]; rw [h1]; rfl
  exact ⟨rec, hp, h3, kind_canon hp h2⟩

/-- Size of one item of a list event: 12, 24, 12 bytes, and 60 or 32 bytes for
playlist items depending on the total size. -/
def Spec.recordSize : LName → Nat → Nat
  | .controller, _ => 12
  | .notes, _ => 24
  | .mixerParams, _ => 12
  | .playlist, len => if len % 60 = 0 then 60 else 32

omit [FloatEnv] in
theorem recordSize_eq (l : LName) (len : Nat) : l.size len = recordSize l len := by
  cases l <;> simp [LName.size, recordSize]

/-- For every list event class: data that is a whole number of items is
serialised to the same bytes (whatever the bytes are). -/
theorem C38_list_roundtrip (l : LName) (bs : Bytes) (h : bs.length % recordSize l bs.length = 0) :
    ∃ items, Kind.parse (.list l) bs = .ok (.items items) ∧
      Kind.build (.list l) bs.length (.items items) = .ok bs :=
  ⟨_, rfl, kind_canon (k := .list l) rfl (by simp only [canonPayload]; rw [recordSize_eq]; exact h)⟩

/-- Automation data is serialised to the same bytes whenever it can be parsed. -/
theorem C38_automation_roundtrip (bs : Bytes) (v : Value) (h : Kind.parse .automation bs = .ok v) :
    Kind.build .automation bs.length v = .ok bs := kind_canon h trivial

/-- Routing lists of canonical booleans. -/
theorem C38_routing_roundtrip (bs : Bytes) (h : ∀ b ∈ bs, b = 0 ∨ b = 1) :
    ∃ v, Kind.parse .routing bs = .ok v ∧ Kind.build .routing bs.length v = .ok bs :=
  ⟨_, rfl, kind_canon (k := .routing) rfl h⟩

/-- Colours: every one of the 2^32 values. -/
theorem C38_color_roundtrip (r g b a : UInt8) :
    ∃ v, Kind.parse .color [r, g, b, a] = .ok v ∧ Kind.build .color 4 v = .ok [r, g, b, a] :=
  ⟨_, rfl, kind_canon (k := .color) (bs := [r, g, b, a]) rfl trivial⟩

/-- A complete track with height 100 %, for example. -/
example : Complete 48 SName.track.fields (Drift.payload 0 0 128 63) := by
  have hh : canonBytes .height [0, 0, 128, 63] := by
    simp only [canonBytes]; decide +kernel
  have h1 : canonBytes .flag [1] := .inr rfl
  have h0 : canonBytes .flag [0] := .inl rfl
  have f0 : canonBytes .fourBool [0, 0, 0, 0] := .inl rfl
  have f1 : canonBytes .fourBool [1, 0, 0, 0] := .inr rfl
  exact .field (chunk := [1, 0, 0, 0]) rfl (.inl rfl) trivial (.field (chunk := [72, 81, 86, 0]) rfl (.inl rfl) trivial
    (.field (chunk := [0, 0, 0, 0]) rfl (.inl rfl) trivial (.field (chunk := [1]) rfl (.inl rfl) h1
    (.field (chunk := [0, 0, 128, 63]) rfl (.inl rfl) hh (.field (chunk := [0, 0, 0, 0]) rfl (.inl rfl) trivial
    (.field (chunk := [0]) rfl (.inl rfl) h0 (.field (chunk := [16, 0, 0, 0]) rfl (.inl rfl) trivial
    (.field (chunk := [1, 0, 0, 0]) rfl (.inl rfl) trivial (.field (chunk := [5, 0, 0, 0]) rfl (.inl rfl) trivial
    (.field (chunk := [0, 0, 0, 0]) rfl (.inl rfl) f0 (.field (chunk := [1, 0, 0, 0]) rfl (.inl rfl) f1
    (.field (chunk := [0, 0, 0, 0]) rfl (.inl rfl) trivial (.field (chunk := [0]) rfl (.inl rfl) h0
    (.field (chunk := [0]) rfl (.inl rfl) h0 (.field (chunk := []) (rest := []) rfl (.inr ⟨rfl, rfl⟩) trivial .done
    )))))))))))))))

/-! ## C39 Truncated structured events of older versions survive

Full statement: data that ends early is serialised to the same bytes and the
missing fields stay missing.  It is false: a missing boolean is written as `00`. -/

/-- A track that ends after its icon is written with three extra bytes, and the
missing "enabled" field becomes `False` when it is read again. -/
theorem C39_truncated_refuted : ∃ (bs bs' : Bytes) (rec rec' : Rec),
    Kind.parse (.struct .track) bs = .ok (.fields rec) ∧ ("enabled", none) ∈ rec ∧
    Kind.build (.struct .track) bs.length (.fields rec) = .ok bs' ∧ bs' ≠ bs ∧
    Kind.parse (.struct .track) bs' = .ok (.fields rec') ∧ ("enabled", some (.bool false)) ∈ rec' := by
  refine ⟨[1, 0, 0, 0, 2, 0, 0, 0, 3, 0, 0, 0], [1, 0, 0, 0, 2, 0, 0, 0, 3, 0, 0, 0, 0, 0, 0, 0], _, _, rfl, ?_, rfl,
    by decide, rfl, ?_⟩
  · exact .tail _ (.tail _ (.tail _ (.head _)))
  · exact .tail _ (.tail _ (.tail _ (.head _)))

/-- What a field is read as behind the end of the data. -/
def Spec.cutValue : Fld → Option LV
  | .opt .greedy => some (.bytes [])
  | _ => none

/-- C39, for every class and every cut at the end of a field: data that consists of the first fields, complete and
canonical, when the remaining fields are optional.  The present fields get values and the others are missing (the
rest of the data, if the class has such a field, is empty).  Serialising gives the
same bytes, followed by one zero byte for every missing boolean. -/
theorem C39_exact (s : SName) (front back : Fields) (bs : Bytes) (hs : s.fields = front ++ back)
    (hf : Complete bs.length front bs)
    (hb : ∀ x ∈ back, x.2 = .opt .greedy ∨
      ∃ l w, x.2 = .opt l ∧ fieldWidth l = some w ∧ 0 < w ∧ ∀ n, l ≠ .rawC n) :
    ∃ rec, Kind.parse (.struct s) bs = .ok (.fields (rec ++ back.map fun x => (x.1, cutValue x.2))) ∧
      rec.map Prod.fst = front.map Prod.fst ∧
      (∀ x ∈ front.zip rec, (present bs.length x.1.2).isSome → x.2.2 ≠ none) ∧
      Kind.build (.struct s) bs.length (.fields (rec ++ back.map fun x => (x.1, cutValue x.2))) =
        .ok (bs ++ List.replicate (back.filter fun x => decide (x.2 = .opt .flag)).length 0) := by
  obtain ⟨rec, h1, h2, h3⟩ := complete_struct hf
  have hback : ∀ x ∈ back, ∀ cx : Ctx, fldParse cx x.2 [] = .ok (cutValue x.2, []) ∧
      fldBuild cx x.2 (cutValue x.2) = .ok (if x.2 = .opt .flag then [0] else []) := by
    intro x hx cx
    rcases hb x hx with h4 | ⟨l, w, h4, h6, h7, h8⟩
    · rw [h4]
      exact ⟨rfl, rfl⟩
    have h9 : cutValue x.2 = none := by
      rw [h4]
      cases l <;> simp only [fieldWidth, Option.some.injEq, reduceCtorEq] at h6 <;> rfl
    by_cases h5 : l = .flag
    · subst h5
      rw [h4]
      exact ⟨rfl, rfl⟩
    have hn : leafNeedsInput l = true := by
      cases l <;> simp only [fieldWidth, Option.some.injEq, reduceCtorEq] at h6 <;>
        simp only [leafNeedsInput, bne_iff_ne, ne_eq]
      case flag => exact absurd rfl h5
      case rawC n => exact absurd rfl (h8 n)
      all_goals omega
    obtain ⟨e, he⟩ := leafParse_nil hn
    rw [h9, h4]
    simp only [fldParse, fldBuild]
    rw [he, leafBuild_none hn, if_neg (by simpa using h5)]
    exact ⟨rfl, rfl⟩
  have hpb : ∀ cx : Ctx, structParse cx back [] = .ok (back.map (fun x => (x.1, cutValue x.2)), []) ∧
      structBuild cx back (back.map fun x => (x.1, cutValue x.2)) =
        .ok (List.replicate (back.filter fun x => decide (x.2 = .opt .flag)).length 0) := by
    intro cx
    clear hs
    induction back with
    | nil => exact ⟨rfl, rfl⟩
    | cons x back ih =>
      obtain ⟨n, f⟩ := x
      obtain ⟨i1, i2⟩ := ih (fun y hy => hb y (by simp [hy])) (fun y hy => hback y (by simp [hy]))
      obtain ⟨j1, j2⟩ := hback (n, f) (by simp) cx
      refine ⟨Drift.structParse_step j1 i1, ?_⟩
      have := Drift.structBuild_step (n := n) j2 i2
      rw [List.filter_cons]
      by_cases e : f = .opt .flag
      · rw [if_pos e] at this
        rw [if_pos (by simpa using e), List.length_cons, List.replicate_succ]
        exact this
      · rw [if_neg e] at this
        rw [if_neg (by simpa using e)]
        exact this
  have happ : ∀ (cx : Ctx) (fs : Fields) (bs r : Bytes) (rec : Rec), structParse cx fs bs = .ok (rec, r) →
      ∀ rec' r', structParse cx back r = .ok (rec', r') → structParse cx (fs ++ back) bs = .ok (rec ++ rec', r') := by
    intro cx fs
    induction fs with
    | nil => intro bs r rec h; cases h; exact fun _ _ h => h
    | cons x fs ih =>
      intro bs r rec h rec' r' h'
      obtain ⟨n, f⟩ := x
      obtain ⟨v, m, rec1, g1, g2, rfl⟩ := structParse_cons h
      exact Drift.structParse_step g1 (ih m r rec1 g2 rec' r' h')
  have hbld : ∀ (cx : Ctx) (fs : Fields) (rec : Rec) (b : Bytes), structBuild cx fs rec = .ok b →
      ∀ rec' b', structBuild cx back rec' = .ok b' → structBuild cx (fs ++ back) (rec ++ rec') = .ok (b ++ b') := by
    intro cx fs
    induction fs with
    | nil =>
      intro rec b h
      cases rec with
      | nil => cases h; exact fun _ _ h => h
      | cons y ys => simp [structBuild] at h
    | cons x fs ih =>
      intro rec b h rec' b' h'
      obtain ⟨n, f⟩ := x
      cases rec with
      | nil => simp [structBuild] at h
      | cons y rec =>
        obtain ⟨n', v⟩ := y
        simp only [structBuild] at h
        split at h
        · next hn =>
          subst hn
          split at h
          · cases h
          · next b1 g1 =>
            split at h
            · cases h
            · next b2 g2 =>
              cases h
              rw [List.append_assoc]
              exact Drift.structBuild_step g1 (ih rec b2 g2 rec' b' h')
        · cases h
  have hnames : ∀ (cx : Ctx) (fs : Fields) (bs r : Bytes) (rec : Rec), structParse cx fs bs = .ok (rec, r) →
      rec.map Prod.fst = fs.map Prod.fst := by
    intro cx fs
    induction fs with
    | nil => intro bs r rec h; cases h; rfl
    | cons x fs ih =>
      intro bs r rec h
      obtain ⟨n, f⟩ := x
      obtain ⟨v, m, rec1, g1, g2, rfl⟩ := structParse_cons h
      simp [ih m r rec1 g2]
  obtain ⟨-, hb2⟩ := struct_canon ⟨bs.length⟩ h1 h2
  refine ⟨rec, ?_, hnames _ _ _ _ _ h1, h3, ?_⟩
  · simp only [Kind.parse]
    rw [hs, happ _ _ _ _ _ h1 _ _ (hpb _).1]; rfl
  · simp only [Kind.build]
    rw [hs]
    exact hbld _ _ _ _ hb2 _ _ (hpb ⟨bs.length⟩).2

/-- Data that consists of the first fields of a class, complete and canonical, when
the remaining fields are optional and none of them is a boolean: the present
fields get values, the others are missing, and serialising gives the same bytes.
Missing from the full statement: classes with a boolean after the cut (refuted
above), and cuts inside a field. -/
theorem C39_truncated_partial (s : SName) (front back : Fields) (bs : Bytes) (hs : s.fields = front ++ back)
    (hf : Complete bs.length front bs)
    (hb : ∀ x ∈ back, ∃ l w, x.2 = .opt l ∧ l ≠ .flag ∧ fieldWidth l = some w ∧ 0 < w ∧ ∀ n, l ≠ .rawC n) :
    ∃ rec, Kind.parse (.struct s) bs = .ok (.fields (rec ++ back.map fun x => (x.1, none))) ∧
      rec.map Prod.fst = front.map Prod.fst ∧
      (∀ x ∈ front.zip rec, (present bs.length x.1.2).isSome → x.2.2 ≠ none) ∧
      Kind.build (.struct s) bs.length (.fields (rec ++ back.map fun x => (x.1, none))) = .ok bs := by
  obtain ⟨rec, h1, h2, h3, h4⟩ := C39_exact s front back bs hs hf fun x hx => by
    obtain ⟨l, w, a1, _, a2, a3, a4⟩ := hb x hx
    exact .inr ⟨l, w, a1, a2, a3, a4⟩
  have hcut : back.map (fun x => (x.1, cutValue x.2)) = back.map fun x => (x.1, none) := by
    apply List.map_congr_left
    intro x hx
    obtain ⟨l, w, a1, _, a2, _⟩ := hb x hx
    rw [a1]
    cases l <;> simp only [fieldWidth, reduceCtorEq] at a2 <;> rfl
  rw [hcut] at h1 h4
  refine ⟨rec, h1, h2, h3, ?_⟩
  rw [h4, List.filter_eq_nil_iff.2, List.length_nil, List.replicate_zero, List.append_nil]
  intro x hx
  obtain ⟨l, w, a1, a2, _⟩ := hb x hx
  simp [a1, a2]

/-- A track that ends after its icon: four of the missing fields are booleans of one byte. -/
example : ∃ front back, SName.track.fields = front ++ back ∧ back ≠ [] ∧
    Complete 12 front [1, 0, 0, 0, 2, 0, 0, 0, 3, 0, 0, 0] ∧
    (∀ x ∈ back, x.2 = .opt .greedy ∨ ∃ l w, x.2 = .opt l ∧ fieldWidth l = some w ∧ 0 < w ∧ ∀ n, l ≠ .rawC n) ∧
    (back.filter fun x => decide (x.2 = .opt .flag)).length = 4 := by
  refine ⟨SName.track.fields.take 3, SName.track.fields.drop 3, rfl, by decide,
    .field (chunk := [1, 0, 0, 0]) rfl (.inl rfl) trivial (.field (chunk := [2, 0, 0, 0]) rfl (.inl rfl) trivial
      (.field (chunk := [3, 0, 0, 0]) (rest := []) rfl (.inl rfl) trivial .done)), ?_, by decide⟩
  intro x hx
  simp only [SName.fields, List.drop_succ_cons, List.drop_zero, List.mem_cons, List.not_mem_nil, or_false] at hx
  rcases hx with rfl | rfl | rfl | rfl | rfl | rfl | rfl | rfl | rfl | rfl | rfl | rfl | rfl
  all_goals first
    | exact .inl rfl
    | exact .inr ⟨_, _, rfl, rfl, by decide, by intro n h; cases h⟩

/-- The level adjustments event (pan, volume, ...) cut after two fields. -/
example : ∃ front back, SName.levelAdjusts.fields = front ++ back ∧ back ≠ [] ∧
    Complete 8 front [1, 0, 0, 0, 2, 0, 0, 0] ∧
    (∀ x ∈ back, ∃ l w, x.2 = .opt l ∧ l ≠ .flag ∧ fieldWidth l = some w ∧ 0 < w ∧ ∀ n, l ≠ .rawC n) := by
  refine ⟨[("pan", .opt i32), ("volume", .opt u32)], [("_u1", .opt u32), ("mod_x", .opt i32), ("mod_y", .opt i32)],
    rfl, by simp, .field (chunk := [1, 0, 0, 0]) rfl (.inl rfl) trivial
      (.field (chunk := [2, 0, 0, 0]) (rest := []) rfl (.inl rfl) trivial .done), ?_⟩
  intro x hx
  simp only [List.mem_cons, List.not_mem_nil, or_false] at hx
  rcases hx with rfl | rfl | rfl
  · exact ⟨u32, 4, rfl, by simp [PyFLP.u32], rfl, by decide, by simp [PyFLP.u32]⟩
  · exact ⟨i32, 4, rfl, by simp [PyFLP.i32], rfl, by decide, by simp [PyFLP.i32]⟩
  · exact ⟨i32, 4, rfl, by simp [PyFLP.i32], rfl, by decide, by simp [PyFLP.i32]⟩

end PyFLP
