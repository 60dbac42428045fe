import Verif.ConstructLemmas
/-!
# Struct-level codec lemmas
-/

namespace PyFLP

variable [FloatEnv]

/-! ### Values that can be stored -/

/-- Leaves that cannot be read from an empty stream and cannot be built from `None`. -/
def leafNeedsInput : Leaf → Bool
  | .int w _ => w != 0
  | .raw n => n != 0
  | .flag | .rawC _ | .greedy => false
  | _ => true

/-- All remaining fields are missing (the event ended early): optional fields
are `None` and a final `GreedyBytes` is empty. -/
def absentFields : Fields → Rec → Prop
  | [], [] => True
  | (n, .opt l) :: fs, (n', none) :: rec => n = n' ∧ leafNeedsInput l = true ∧ absentFields fs rec
  | [(n, .req .greedy)], [(n', some (.bytes []))] => n = n'
  | [(n, .opt .greedy)], [(n', some (.bytes []))] => n = n'
  | _, _ => False

/-- A record a struct can store exactly: the names are the struct's, present
fields are storable (`leafValid`), conditional fields are present exactly when
their condition holds, a `GreedyBytes` is last, and optional fields are only
missing at the end (and not before a `c.Flag`, which cannot be missing). -/
def validFields (cx : Ctx) : Fields → Rec → Prop
  | [], [] => True
  | (n, f) :: fs, (n', v) :: rec =>
    n = n' ∧
    match f, v with
    | .req l, some x => leafValid l x ∧ (l = .greedy → fs = []) ∧ validFields cx fs rec
    | .opt l, some x => leafValid l x ∧ (l = .greedy → fs = []) ∧ validFields cx fs rec
    | .opt l, none => leafNeedsInput l = true ∧ absentFields fs rec
    | .ifLen k l, some x => cx.len = k ∧ leafValid l x ∧ l ≠ .greedy ∧ validFields cx fs rec
    | .ifLen k _, none => cx.len ≠ k ∧ validFields cx fs rec
    | .ifNew l, some x => cx.len % 60 = 0 ∧ leafValid l x ∧ l ≠ .greedy ∧ validFields cx fs rec
    | .ifNew _, none => cx.len % 60 ≠ 0 ∧ validFields cx fs rec
    | .req _, none => False
  | _, _ => False

theorem leafParse_nil {l : Leaf} (h : leafNeedsInput l = true) : ∃ e, leafParse l [] = .error e := by
  cases l <;> simp only [leafNeedsInput, bne_iff_ne, ne_eq, Bool.false_eq_true] at h
  case int w s =>
    exact ⟨_, by simp only [leafParse, intParse_short (show ([] : Bytes).length < w by simp; omega)]; rfl⟩
  case raw n => exact ⟨.streamError, by simp only [leafParse]; rw [if_pos (by simp; omega)]⟩
  all_goals exact ⟨_, rfl⟩

theorem leafBuild_none {l : Leaf} (h : leafNeedsInput l = true) : leafBuild l none = .error .typeError := by
  cases l <;> simp only [leafNeedsInput, Bool.false_eq_true] at h <;> rfl

theorem absent_roundtrip (cx : Ctx) {fs : Fields} {rec : Rec} (h : absentFields fs rec) :
    structBuild cx fs rec = .ok [] ∧ structParse cx fs [] = .ok (rec, []) := by
  induction fs generalizing rec with
  | nil => cases rec with
    | nil => exact ⟨rfl, rfl⟩
    | cons _ _ => simp [absentFields] at h
  | cons nf fs ih =>
    obtain ⟨n, f⟩ := nf
    cases rec with
    | nil => cases f <;> simp [absentFields] at h
    | cons nv rec =>
      obtain ⟨n', v⟩ := nv
      unfold absentFields at h
      split at h
      · next heq => cases heq
      · next heq1 heq2 =>
        cases heq1; cases heq2
        obtain ⟨rfl, hl, hr⟩ := h
        obtain ⟨hb, hp⟩ := ih hr
        obtain ⟨e, he⟩ := leafParse_nil hl
        simp [structBuild, structParse, fldBuild, fldParse, leafBuild_none hl, he, hb, hp]
      · next heq1 heq2 =>
        cases heq1; cases heq2; subst h
        simp [structBuild, structParse, fldBuild, fldParse, leafBuild, leafParse, Except.map]
      · next heq1 heq2 =>
        cases heq1; cases heq2; subst h
        simp [structBuild, structParse, fldBuild, fldParse, leafBuild, leafParse]
      · exact h.elim

/-- Storable records survive build and parse. -/
theorem struct_roundtrip (cx : Ctx) {fs : Fields} {rec : Rec} (h : validFields cx fs rec) :
    ∃ bs, structBuild cx fs rec = .ok bs ∧ structParse cx fs bs = .ok (rec, []) := by
  induction fs generalizing rec with
  | nil => cases rec with
    | nil => exact ⟨[], rfl, rfl⟩
    | cons _ _ => simp [validFields] at h
  | cons nf fs ih =>
    obtain ⟨n, f⟩ := nf
    cases rec with
    | nil => simp [validFields] at h
    | cons nv rec =>
      obtain ⟨n', v⟩ := nv
      simp only [validFields] at h
      obtain ⟨rfl, h⟩ := h
      have key : ∀ l x, leafValid l x → (l = .greedy → fs = []) → validFields cx fs rec →
          ∃ b bs, leafBuild l (some x) = .ok b ∧ structBuild cx fs rec = .ok bs ∧
            structParse cx fs bs = .ok (rec, []) ∧ leafParse l (b ++ bs) = .ok (x, bs) := by
        intro l x hv hg hr
        obtain ⟨b, hb, hp⟩ := leafRT_of_valid hv
        obtain ⟨bs, hbs, hps⟩ := ih hr
        refine ⟨b, bs, hb, hbs, hps, hp bs ?_⟩
        intro hgl
        have := hg hgl
        subst this
        cases rec with
        | nil => simp [structBuild] at hbs; exact hbs
        | cons _ _ => simp [validFields] at hr
      cases f with
      | req l =>
        cases v with
        | none => exact h.elim
        | some x =>
          obtain ⟨b, bs, h1, h2, h3, h4⟩ := key l x h.1 h.2.1 h.2.2
          exact ⟨b ++ bs, by simp [structBuild, fldBuild, h1, h2],
            by simp [structParse, fldParse, h4, h3, Except.map]⟩
      | opt l =>
        cases v with
        | none =>
          obtain ⟨hl, ha⟩ := h
          obtain ⟨hb, hp⟩ := absent_roundtrip cx ha
          obtain ⟨e, he⟩ := leafParse_nil hl
          exact ⟨[], by simp [structBuild, fldBuild, leafBuild_none hl, hb],
            by simp [structParse, fldParse, he, hp]⟩
        | some x =>
          obtain ⟨b, bs, h1, h2, h3, h4⟩ := key l x h.1 h.2.1 h.2.2
          exact ⟨b ++ bs, by simp [structBuild, fldBuild, h1, h2],
            by simp [structParse, fldParse, h4, h3]⟩
      | ifLen k l =>
        cases v with
        | none =>
          obtain ⟨bs, h2, h3⟩ := ih h.2
          exact ⟨bs, by simp [structBuild, fldBuild, h.1, h2], by simp [structParse, fldParse, h.1, h3]⟩
        | some x =>
          obtain ⟨b, bs, h1, h2, h3, h4⟩ := key l x h.2.1 (fun hg => absurd hg h.2.2.1) h.2.2.2
          exact ⟨b ++ bs, by simp [structBuild, fldBuild, h.1, h1, h2],
            by simp [structParse, fldParse, h.1, h4, h3, Except.map]⟩
      | ifNew l =>
        cases v with
        | none =>
          obtain ⟨bs, h2, h3⟩ := ih h.2
          exact ⟨bs, by simp [structBuild, fldBuild, h.1, h2], by simp [structParse, fldParse, h.1, h3]⟩
        | some x =>
          obtain ⟨b, bs, h1, h2, h3, h4⟩ := key l x h.2.1 (fun hg => absurd hg h.2.2.1) h.2.2.2
          exact ⟨b ++ bs, by simp [structBuild, fldBuild, h.1, h1, h2],
            by simp [structParse, fldParse, h.1, h4, h3, Except.map]⟩

/-! ### Bytes that are reproduced -/

/-- Bytes at the front of the stream that PyFLP re-creates exactly from the value
it reads: booleans are `0`/`1`, signed flag words are not negative, and for the
lossy adapters the stored number is a fixed point. -/
def leafCanon : Leaf → Bytes → Prop
  | .flag, bs => bs.head? = some 0 ∨ bs.head? = some 1
  | .fourBool, bs => leNat (bs.take 4) ≤ 1
  | .flagsS _, bs => leNat (bs.take 4) < 2 ^ 31
  | .height, bs => (heightDecode (leNat (bs.take 4))).bind heightEncode = some (leNat (bs.take 4))
  | .log2, bs =>
      (FloatEnv.exp2 (toSigned 4 (leNat (bs.take 4)))).bind FloatEnv.log2
        = some (toSigned 4 (leNat (bs.take 4)))
  | .logNormal, bs =>
      (lnDecode (leNat (bs.take 2)) (leNat ((bs.drop 2).take 2))).bind lnEncode
        = some ((leNat (bs.take 2) : Int), (leNat ((bs.drop 2).take 2) : Int))
  | _, _ => True

omit [FloatEnv] in
theorem intParse_u {w bs v r} (h : intParse w false bs = .ok (v, r)) :
    v = (leNat (bs.take w) : Int) ∧ r = bs.drop w ∧ w ≤ bs.length := by
  unfold intParse at h
  split at h
  · cases h
  · simp at h; exact ⟨h.1.symm, h.2.symm, by omega⟩

omit [FloatEnv] in
theorem intParse_s {w bs v r} (h : intParse w true bs = .ok (v, r)) :
    v = toSigned w (leNat (bs.take w)) ∧ r = bs.drop w ∧ w ≤ bs.length := by
  unfold intParse at h
  split at h
  · cases h
  · simp at h; exact ⟨h.1.symm, h.2.symm, by omega⟩

theorem leaf_canon {l : Leaf} {bs : Bytes} {v : LV} {r : Bytes} (h : leafParse l bs = .ok (v, r))
    (hc : leafCanon l bs) : ∃ pre, bs = pre ++ r ∧ leafBuild l (some v) = .ok pre := by
  cases l <;> simp only [leafParse] at h <;> simp only [leafCanon] at hc
  case int w s =>
    obtain ⟨⟨v', r'⟩, h1, h2⟩ := map_ok h
    cases h2
    obtain ⟨pre, hp, hb⟩ := intBuild_intParse h1
    exact ⟨pre, hp, hb⟩
  case flagsS m =>
    obtain ⟨⟨v', r'⟩, h1, h2⟩ := map_ok h
    cases h2
    obtain ⟨hv, -, -⟩ := intParse_s h1
    obtain ⟨pre, hp, hb⟩ := intBuild_intParse h1
    have hnn : 0 ≤ v' := by
      rw [hv]; unfold toSigned
      rw [if_pos (by omega)]; omega
    refine ⟨pre, hp, ?_⟩
    simp only [leafBuild, intFlagValue, hnn, if_true]; exact hb
  case flag =>
    cases bs with
    | nil => cases h
    | cons b r' =>
      cases h
      refine ⟨[b], rfl, ?_⟩
      simp only [List.head?_cons, Option.some.injEq] at hc
      rcases hc with rfl | rfl <;> rfl
  case raw n =>
    split at h
    · cases h
    · cases h
      exact ⟨_, (List.take_append_drop n bs).symm, by simp [leafBuild]; omega⟩
  case rawC n => cases h; exact ⟨_, (List.take_append_drop n bs).symm, by simp [leafBuild]⟩
  case greedy => cases h; exact ⟨bs, by simp, rfl⟩
  case f32 =>
    obtain ⟨⟨v', r'⟩, h1, h2⟩ := map_ok h
    cases h2
    obtain ⟨hv, -, -⟩ := intParse_u h1
    obtain ⟨pre, hp, hb⟩ := intBuild_intParse h1
    refine ⟨pre, hp, ?_⟩
    simp only [leafBuild]
    rw [show ((v'.toNat : Nat) : Int) = v' by omega]; exact hb
  case f64 =>
    obtain ⟨⟨v', r'⟩, h1, h2⟩ := map_ok h
    cases h2
    obtain ⟨hv, -, -⟩ := intParse_u h1
    obtain ⟨pre, hp, hb⟩ := intBuild_intParse h1
    refine ⟨pre, hp, ?_⟩
    simp only [leafBuild, LV.toFloat]
    rw [show ((v'.toNat : Nat) : Int) = v' by omega]; exact hb
  case fourBool =>
    obtain ⟨⟨v', r'⟩, h1, h2⟩ := map_ok h
    cases h2
    obtain ⟨hv, -, -⟩ := intParse_u h1
    obtain ⟨pre, hp, hb⟩ := intBuild_intParse h1
    refine ⟨pre, hp, ?_⟩
    simp only [leafBuild]
    have : (if (decide (v' ≠ 0)) = true then (1 : Int) else 0) = v' := by
      simp only [ne_eq, decide_not, Bool.not_eq_eq_eq_not, Bool.not_true, decide_eq_false_iff_not]
      split <;> omega
    rw [this]; exact hb
  case height =>
    split at h
    · cases h
    · next v' r' h1 =>
      obtain ⟨hv, -, -⟩ := intParse_u h1
      obtain ⟨pre, hp, hb⟩ := intBuild_intParse h1
      split at h
      · next s hs =>
        cases h
        refine ⟨pre, hp, ?_⟩
        have e : v'.toNat = leNat (bs.take 4) := by omega
        rw [e] at hs
        rw [hs] at hc
        simp only [Option.bind_some] at hc
        simp only [leafBuild, hc]
        rw [← hv]; exact hb
      · cases h
  case pair32 =>
    obtain ⟨⟨a, b, r'⟩, h1, h2⟩ := map_ok h
    cases h2
    obtain ⟨pre, hp, hb⟩ := int2Build_int2Parse h1
    exact ⟨pre, hp, hb⟩
  case musical =>
    obtain ⟨⟨v', r'⟩, h1, h2⟩ := map_ok h
    cases h2
    obtain ⟨pre, hp, hb⟩ := intBuild_intParse h1
    refine ⟨pre, hp, ?_⟩
    have := musicalEncode_decode v' rfl
    simp only [leafBuild, musicalDecode]
    rw [this]; exact hb
  case log2 =>
    split at h
    · cases h
    · next v' r' h1 =>
      obtain ⟨hv, -, -⟩ := intParse_s h1
      obtain ⟨pre, hp, hb⟩ := intBuild_intParse h1
      split at h
      · next x hx =>
        cases h
        refine ⟨pre, hp, ?_⟩
        rw [← hv, hx] at hc
        simp only [Option.bind_some] at hc
        simp only [leafBuild, LV.toFloat, hc]; exact hb
      · cases h
  case logNormal =>
    split at h
    · cases h
    · next a b r' h1 =>
      obtain ⟨m, p1, p2⟩ := int2Parse_ok h1
      obtain ⟨ha, hm, -⟩ := intParse_u p1
      obtain ⟨hb', -, -⟩ := intParse_u p2
      subst hm
      obtain ⟨pre, hp, hb⟩ := int2Build_int2Parse h1
      split at h
      · next x hx =>
        cases h
        refine ⟨pre, hp, ?_⟩
        rw [← ha, ← hb', hx] at hc
        simp only [Option.bind_some] at hc
        simp only [leafBuild, LV.toFloat, hc]; exact hb
      · cases h

/-- The whole payload is reproduced: every field that is read is canonical, no
`c.Flag` is missing, and nothing is left over. -/
def canonFields (cx : Ctx) : Fields → Bytes → Prop
  | [], bs => bs = []
  | (_, f) :: fs, bs =>
    match f with
    | .req l => leafCanon l bs ∧ ∀ v r, leafParse l bs = .ok (v, r) → canonFields cx fs r
    | .opt l =>
      (∀ v r, leafParse l bs = .ok (v, r) → leafCanon l bs ∧ canonFields cx fs r) ∧
      (∀ e, leafParse l bs = .error e → l ≠ .flag ∧ canonFields cx fs bs)
    | .ifLen k l =>
      if cx.len = k then leafCanon l bs ∧ ∀ v r, leafParse l bs = .ok (v, r) → canonFields cx fs r
      else canonFields cx fs bs
    | .ifNew l =>
      if cx.len % 60 = 0 then leafCanon l bs ∧ ∀ v r, leafParse l bs = .ok (v, r) → canonFields cx fs r
      else canonFields cx fs bs

theorem leafBuild_none_error {l : Leaf} (h : l ≠ .flag) : leafBuild l none = .error .typeError := by
  cases l <;> first | rfl | exact absurd rfl h

theorem structParse_cons {cx n f fs bs rec r} (h : structParse cx ((n, f) :: fs) bs = .ok (rec, r)) :
    ∃ v m rec', fldParse cx f bs = .ok (v, m) ∧ structParse cx fs m = .ok (rec', r) ∧
      rec = (n, v) :: rec' := by
  simp only [structParse] at h
  split at h
  · cases h
  · next h1 =>
    split at h
    · cases h
    · next h2 => cases h; exact ⟨_, _, _, h1, h2, rfl⟩

theorem struct_canon (cx : Ctx) {fs : Fields} {bs : Bytes} {rec : Rec} {r : Bytes}
    (h : structParse cx fs bs = .ok (rec, r)) (hc : canonFields cx fs bs) :
    r = [] ∧ structBuild cx fs rec = .ok bs := by
  induction fs generalizing bs rec with
  | nil => cases h; simp only [canonFields] at hc; subst hc; exact ⟨rfl, rfl⟩
  | cons nf fs ih =>
    obtain ⟨n, f⟩ := nf
    obtain ⟨v, m, rec', h1, h2, rfl⟩ := structParse_cons h
    have step : ∀ l x, leafParse l bs = .ok (x, m) → leafCanon l bs → canonFields cx fs m →
        r = [] ∧ ∃ pre bs', leafBuild l (some x) = .ok pre ∧ structBuild cx fs rec' = .ok bs' ∧
          bs = pre ++ bs' := by
      intro l x hp hl hm
      obtain ⟨pre, hpre, hb⟩ := leaf_canon hp hl
      obtain ⟨hr, hb'⟩ := ih h2 hm
      exact ⟨hr, pre, m, hb, hb', hpre⟩
    cases f with
    | req l =>
      simp only [canonFields] at hc
      simp only [fldParse] at h1
      obtain ⟨⟨x, m'⟩, p1, p2⟩ := map_ok h1
      cases p2
      obtain ⟨hr, pre, bs', b1, b2, rfl⟩ := step l x p1 hc.1 (hc.2 _ _ p1)
      exact ⟨hr, by simp [structBuild, fldBuild, b1, b2]⟩
    | opt l =>
      simp only [canonFields] at hc
      simp only [fldParse] at h1
      split at h1
      · next x m' p1 =>
        cases h1
        obtain ⟨hr, pre, bs', b1, b2, rfl⟩ := step l x p1 (hc.1 _ _ p1).1 (hc.1 _ _ p1).2
        exact ⟨hr, by simp [structBuild, fldBuild, b1, b2]⟩
      · next e p1 =>
        cases h1
        obtain ⟨hf, hm⟩ := hc.2 e p1
        obtain ⟨hr, hb⟩ := ih h2 hm
        exact ⟨hr, by simp [structBuild, fldBuild, leafBuild_none_error hf, hb]⟩
    | ifLen k l =>
      simp only [canonFields] at hc
      simp only [fldParse] at h1
      split at h1
      · next hk =>
        rw [if_pos hk] at hc
        obtain ⟨⟨x, m'⟩, p1, p2⟩ := map_ok h1
        cases p2
        obtain ⟨hr, pre, bs', b1, b2, rfl⟩ := step l x p1 hc.1 (hc.2 _ _ p1)
        exact ⟨hr, by simp [structBuild, fldBuild, hk, b1, b2]⟩
      · next hk =>
        rw [if_neg hk] at hc
        cases h1
        obtain ⟨hr, hb⟩ := ih h2 hc
        exact ⟨hr, by simp [structBuild, fldBuild, hk, hb]⟩
    | ifNew l =>
      simp only [canonFields] at hc
      simp only [fldParse] at h1
      split at h1
      · next hk =>
        rw [if_pos hk] at hc
        obtain ⟨⟨x, m'⟩, p1, p2⟩ := map_ok h1
        cases p2
        obtain ⟨hr, pre, bs', b1, b2, rfl⟩ := step l x p1 hc.1 (hc.2 _ _ p1)
        exact ⟨hr, by simp [structBuild, fldBuild, hk, b1, b2]⟩
      · next hk =>
        rw [if_neg hk] at hc
        cases h1
        obtain ⟨hr, hb⟩ := ih h2 hc
        exact ⟨hr, by simp [structBuild, fldBuild, hk, hb]⟩

/-! ### Sizes and stability -/

/-- Number of bytes of a fixed-size primitive. -/
def leafSize : Leaf → Option Nat
  | .int w _ => some w
  | .flag => some 1
  | .raw n => some n
  | .rawC _ | .greedy => none
  | .f64 | .pair32 => some 8
  | .flagsS _ | .f32 | .fourBool | .height | .musical | .log2 | .logNormal => some 4

/-- The adapters that do not keep every stored number. -/
def leafLossy : Leaf → Bool
  | .flagsS _ | .height | .log2 | .logNormal => true
  | _ => false

omit [FloatEnv] in
theorem intParse_size {w s bs v r} (h : intParse w s bs = .ok (v, r)) : bs.length = w + r.length := by
  obtain ⟨pre, rfl, hl, -⟩ := intParse_ok h
  simp; omega

omit [FloatEnv] in
theorem int2Parse_size {w bs a b r} (h : int2Parse w bs = .ok (a, b, r)) :
    bs.length = 2 * w + r.length := by
  obtain ⟨m, h1, h2⟩ := int2Parse_ok h
  have := intParse_size h1
  have := intParse_size h2
  omega

omit [FloatEnv] in
theorem int2Build_size {w a b bs} (h : int2Build w a b = .ok bs) : bs.length = 2 * w := by
  obtain ⟨x, y, h1, h2, rfl⟩ := int2Build_ok h
  have := intBuild_length h1
  have := intBuild_length h2
  simp; omega

theorem leafParse_size {l bs v r k} (h : leafParse l bs = .ok (v, r)) (hk : leafSize l = some k) :
    bs.length = k + r.length := by
  cases l <;> simp only [leafParse] at h <;> simp only [leafSize, Option.some.injEq] at hk <;>
    try subst hk
  case int | flagsS | f32 | f64 | fourBool | musical =>
    obtain ⟨⟨v', r'⟩, h1, h2⟩ := map_ok h
    cases h2; exact intParse_size h1
  case flag =>
    cases bs with
    | nil => cases h
    | cons b r' => cases h; simp; omega
  case raw =>
    split at h
    · cases h
    · cases h; simp; omega
  case rawC | greedy => cases hk
  case height | log2 =>
    split at h
    · cases h
    · next h1 =>
      have := intParse_size h1
      split at h
      · cases h; exact this
      · cases h
  case pair32 =>
    obtain ⟨⟨a, b, r'⟩, h1, h2⟩ := map_ok h
    cases h2
    exact int2Parse_size h1
  case logNormal =>
    split at h
    · cases h
    · next h1 =>
      have := int2Parse_size h1
      split at h
      · cases h; exact this
      · cases h

theorem leafBuild_size {l v bs k} (h : leafBuild l v = .ok bs) (hk : leafSize l = some k) :
    bs.length = k := by
  unfold leafBuild at h
  split at h <;> simp only [leafSize, Option.some.injEq] at hk <;> (try cases hk)
  all_goals first
    | exact intBuild_length h
    | exact int2Build_size h
    | (cases h; done)
    | (cases h; simp; done)
    | (split at h <;> first
        | exact intBuild_length h
        | exact int2Build_size h
        | (cases h; assumption)
        | (cases h; done)
        | (split at h <;> first
            | exact intBuild_length h
            | exact int2Build_size h
            | (cases h; done)))

theorem leafParse_short {l bs k} (hk : leafSize l = some k) (h : bs.length < k) :
    ∃ e, leafParse l bs = .error e := by
  cases hp : leafParse l bs with
  | error e => exact ⟨e, rfl⟩
  | ok vr =>
    obtain ⟨v, r⟩ := vr
    have := leafParse_size hp hk
    omega

/-- Without a lossy adapter, only a shortage of bytes makes a primitive fail. -/
theorem leafParse_error {l bs e} (hl : leafLossy l = false) (h : leafParse l bs = .error e) :
    ∃ k, leafSize l = some k ∧ bs.length < k := by
  have hint : ∀ {w s} {f : Int × Bytes → LV × Bytes},
      (intParse w s bs).map f = .error e → bs.length < w := by
    intro w s f hm
    unfold intParse at hm
    split at hm
    · assumption
    · cases hm
  cases l <;> simp only [leafParse] at h <;> simp only [leafLossy, Bool.true_eq_false] at hl <;>
    simp only [leafSize, Option.some.injEq, exists_eq_left']
  case int | f32 | f64 | fourBool | musical => exact hint h
  case flag =>
    cases bs with
    | nil => simp
    | cons b r => cases h
  case raw =>
    split at h
    · assumption
    · cases h
  case rawC | greedy => cases h
  case pair32 =>
    by_cases h8 : bs.length < 8
    · exact h8
    · exfalso
      have h1 : ¬ bs.length < 4 := by omega
      have h2 : ¬ (bs.drop 4).length < 4 := by simp; omega
      simp only [int2Parse, intParse, if_neg h1, if_neg h2, Except.map, reduceCtorEq] at h

/-- What a field must satisfy so that writing and re-reading it changes nothing
more: values of the lossy adapters are fixed points, a `c.Flag` is not missing,
and a lossy field is only missing for lack of bytes. -/
def fieldSettled : Fld → Option LV → Bytes → Prop
  | .opt l, none, bs => l ≠ .flag ∧ (leafLossy l = true → bs.length < 4)
  | .req l, some x, _ | .opt l, some x, _ | .ifLen _ l, some x, _ | .ifNew l, some x, _ =>
      leafLossy l = true → leafValid l x
  | _, none, _ => True

/-- `fieldSettled` for every field met while parsing. -/
def settledFields (cx : Ctx) : Fields → Bytes → Prop
  | [], _ => True
  | (_, f) :: fs, bs =>
    ∀ v r, fldParse cx f bs = .ok (v, r) → fieldSettled f v bs ∧ settledFields cx fs r

theorem leafCanon_or {l : Leaf} {bs : Bytes} {v : LV} {r : Bytes}
    (h : leafParse l bs = .ok (v, r)) (hl : leafLossy l = false) (hr : ∀ n, l ≠ .rawC n) :
    leafValid l v := by
  cases l <;> simp only [leafParse] at h <;> simp only [leafLossy, Bool.true_eq_false] at hl
  case int w s =>
    obtain ⟨⟨v', r'⟩, h1, h2⟩ := map_ok h
    cases h2
    obtain ⟨pre, -, hb⟩ := intBuild_intParse h1
    exact intBuild_ok_iff.1 ⟨pre, hb⟩
  case flag =>
    cases bs with
    | nil => cases h
    | cons b r' => cases h; trivial
  case raw n =>
    split at h
    · cases h
    · cases h; simp [leafValid]; omega
  case rawC n => exact absurd rfl (hr n)
  case greedy => cases h; trivial
  case f32 =>
    obtain ⟨⟨v', r'⟩, h1, h2⟩ := map_ok h
    cases h2
    obtain ⟨hv, -, hlen⟩ := intParse_u h1
    have := leNat_lt (bs.take 4)
    rw [List.length_take, Nat.min_eq_left hlen] at this
    simp only [leafValid]; omega
  case f64 =>
    obtain ⟨⟨v', r'⟩, h1, h2⟩ := map_ok h
    cases h2
    obtain ⟨hv, -, hlen⟩ := intParse_u h1
    have := leNat_lt (bs.take 8)
    rw [List.length_take, Nat.min_eq_left hlen] at this
    simp only [leafValid]; omega
  case fourBool =>
    obtain ⟨⟨v', r'⟩, h1, h2⟩ := map_ok h
    cases h2; trivial
  case pair32 =>
    obtain ⟨⟨a, b, r'⟩, h1, h2⟩ := map_ok h
    cases h2
    obtain ⟨m, p1, p2⟩ := int2Parse_ok h1
    obtain ⟨_, -, b1⟩ := intBuild_intParse p1
    obtain ⟨_, -, b2⟩ := intBuild_intParse p2
    have f1 := intBuild_ok_iff.1 ⟨_, b1⟩
    have f2 := intBuild_ok_iff.1 ⟨_, b2⟩
    simp only [intFits, Bool.false_eq_true, if_false, decide_eq_true_eq] at f1 f2
    simp only [leafValid]; omega
  case musical =>
    obtain ⟨⟨v', r'⟩, h1, h2⟩ := map_ok h
    cases h2
    obtain ⟨_, -, b1⟩ := intBuild_intParse h1
    have f1 := intBuild_ok_iff.1 ⟨_, b1⟩
    simp only [intFits, Bool.false_eq_true, if_false, decide_eq_true_eq] at f1
    simp only [leafValid, musicalDecode]; omega

theorem leaf_stable {l : Leaf} {bs : Bytes} {v : LV} {r : Bytes}
    (h : leafParse l bs = .ok (v, r)) (hl : leafLossy l = true → leafValid l v) :
    ∃ b, leafBuild l (some v) = .ok b ∧ b.length + r.length = bs.length ∧
      ∀ r' : Bytes, r'.length ≤ r.length → leafParse l (b ++ r') = .ok (v, r') := by
  by_cases hraw : ∃ n, l = .rawC n
  · obtain ⟨n, rfl⟩ := hraw
    simp only [leafParse] at h
    cases h
    refine ⟨_, rfl, by simp; omega, fun r' hr' => ?_⟩
    simp only [leafParse]
    by_cases hn : n ≤ bs.length
    · have : (bs.take n).length = n := by simp; omega
      rw [List.take_left' this, List.drop_left' this]
    · have : r' = [] := by
        apply List.eq_nil_of_length_eq_zero; simp at hr'; omega
      subst this
      simp only [List.append_nil]
      rw [List.take_take, Nat.min_self, List.drop_eq_nil_of_le (by simp; omega)]
  · by_cases hg : l = .greedy
    · subst hg
      simp only [leafParse] at h
      cases h
      refine ⟨bs, rfl, by simp, fun r' hr' => ?_⟩
      have : r' = [] := by
        apply List.eq_nil_of_length_eq_zero; simpa using hr'
      subst this; simp [leafParse]
    · have hv : leafValid l v := by
        cases hll : leafLossy l with
        | true => exact hl hll
        | false => exact leafCanon_or h hll (fun n e => hraw ⟨n, e⟩)
      obtain ⟨b, hb, hp⟩ := leafRT_of_valid hv
      refine ⟨b, hb, ?_, fun r' _ => hp r' (fun e => absurd e hg)⟩
      cases hs : leafSize l with
      | none =>
        cases l <;> simp only [leafSize, reduceCtorEq] at hs
        · exact absurd ⟨_, rfl⟩ hraw
        · exact absurd rfl hg
      | some k =>
        have := leafParse_size h hs
        have := leafBuild_size hb hs
        omega

/-- Writing what was read and reading it again gives the same record. -/
theorem struct_stable (cx : Ctx) {fs : Fields} {bs : Bytes} {rec : Rec} {r : Bytes}
    (h : structParse cx fs bs = .ok (rec, r)) (hs : settledFields cx fs bs) :
    ∃ bs', structBuild cx fs rec = .ok bs' ∧ bs'.length ≤ bs.length ∧
      structParse cx fs bs' = .ok (rec, []) := by
  induction fs generalizing bs rec with
  | nil => cases h; exact ⟨[], rfl, by simp, rfl⟩
  | cons nf fs ih =>
    obtain ⟨n, f⟩ := nf
    obtain ⟨v, m, rec', h1, h2, rfl⟩ := structParse_cons h
    obtain ⟨hf, hm⟩ := hs v m h1
    obtain ⟨bs', hb', hlen', hp'⟩ := ih h2 hm
    have step : ∀ l x, leafParse l bs = .ok (x, m) → (leafLossy l = true → leafValid l x) →
        ∃ b, leafBuild l (some x) = .ok b ∧ (b ++ bs').length ≤ bs.length ∧
          leafParse l (b ++ bs') = .ok (x, bs') := by
      intro l x hp hl
      obtain ⟨b, hb, hlen, hrt⟩ := leaf_stable hp hl
      exact ⟨b, hb, by simp; omega, hrt bs' hlen'⟩
    cases f with
    | req l =>
      simp only [fldParse] at h1
      obtain ⟨⟨x, m'⟩, p1, p2⟩ := map_ok h1
      cases p2
      obtain ⟨b, b1, b2, b3⟩ := step l x p1 hf
      exact ⟨b ++ bs', by simp [structBuild, fldBuild, b1, hb'], b2,
        by simp [structParse, fldParse, b3, hp', Except.map]⟩
    | opt l =>
      simp only [fldParse] at h1
      split at h1
      · next x m' p1 =>
        cases h1
        obtain ⟨b, b1, b2, b3⟩ := step l x p1 hf
        exact ⟨b ++ bs', by simp [structBuild, fldBuild, b1, hb'], b2,
          by simp [structParse, fldParse, b3, hp']⟩
      · next e p1 =>
        cases h1
        obtain ⟨hfl, hlo⟩ := hf
        have hshort : ∃ e', leafParse l bs' = .error e' := by
          cases hll : leafLossy l with
          | true =>
            have h4 := hlo hll
            have : leafSize l = some 4 := by cases l <;> simp_all [leafLossy, leafSize]
            exact leafParse_short this (by omega)
          | false =>
            obtain ⟨k, hk, hlt⟩ := leafParse_error hll p1
            exact leafParse_short hk (by omega)
        obtain ⟨e', he'⟩ := hshort
        exact ⟨bs', by simp [structBuild, fldBuild, leafBuild_none_error hfl, hb'], hlen',
          by simp [structParse, fldParse, he', hp']⟩
    | ifLen k l =>
      simp only [fldParse] at h1
      split at h1
      · next hk =>
        obtain ⟨⟨x, m'⟩, p1, p2⟩ := map_ok h1
        cases p2
        obtain ⟨b, b1, b2, b3⟩ := step l x p1 hf
        exact ⟨b ++ bs', by simp [structBuild, fldBuild, hk, b1, hb'], b2,
          by simp [structParse, fldParse, hk, b3, hp', Except.map]⟩
      · next hk =>
        cases h1
        exact ⟨bs', by simp [structBuild, fldBuild, hk, hb'], hlen',
          by simp [structParse, fldParse, hk, hp']⟩
    | ifNew l =>
      simp only [fldParse] at h1
      split at h1
      · next hk =>
        obtain ⟨⟨x, m'⟩, p1, p2⟩ := map_ok h1
        cases p2
        obtain ⟨b, b1, b2, b3⟩ := step l x p1 hf
        exact ⟨b ++ bs', by simp [structBuild, fldBuild, hk, b1, hb'], b2,
          by simp [structParse, fldParse, hk, b3, hp', Except.map]⟩
      · next hk =>
        cases h1
        exact ⟨bs', by simp [structBuild, fldBuild, hk, hb'], hlen',
          by simp [structParse, fldParse, hk, hp']⟩

end PyFLP
