import Verif.EventLemmas
/-!
# Payload round trips for every event class
-/

namespace PyFLP

variable [FloatEnv]

/-- One of the 256 channel values `n / 255` a colour byte is read as. -/
def isCol (x : Rat) : Prop := ∃ n : UInt8, x = colDecode n

/-- The values an event class can represent: what is written can be read back.
`len` is the length of the data the event was created from. -/
def validValue : Kind → Nat → Value → Prop
  | .u16t, _, .lv (.pair a b) => (0 ≤ a ∧ a < 65536) ∧ (0 ≤ b ∧ b < 65536)
  | .color, _, .color r g b a => isCol r ∧ isCol g ∧ isCol b ∧ isCol a
  | .ascii, _, .str s => (∀ c ∈ s, c < 128) ∧ s.getLast? ≠ some 0
  | .unicode, _, .str s => (∀ c ∈ s, isScalar c) ∧ s.getLast? ≠ some 0
  | .unknown, _, .bytes _ => True
  | .struct s, len, .fields r => validFields ⟨len⟩ s.fields r
  | .list l, len, .items rs =>
      (∀ r ∈ rs, validItem ⟨len⟩ l.fields r) ∧ listUnambiguous l len rs.length
  | .routing, _, .flags _ => True
  | .automation, _, .auto h p _ =>
      validItem ⟨0⟩ autoHead h ∧ (∀ r ∈ p, validItem ⟨0⟩ autoPoint r) ∧ p.length < 2 ^ 32
  | .notebook, _, .notebook u p ps _ => u.length = 4 ∧ (0 ≤ p ∧ p < 2 ^ 32) ∧ ∀ pg ∈ ps, validPage pg
  | .vst, _, .vst t items => (0 ≤ t ∧ t < 2 ^ 32) ∧ ∀ x ∈ items, validVst x
  | k, _, .lv x => ∃ l, k.leaf = some l ∧ leafValid l x
  | _, _, _ => False

/-- The conditional fields of a class. -/
def Kind.ctxFields : Kind → Fields
  | .struct s => s.fields
  | .list l => l.fields
  | _ => []

/-- Value `v` is written as `b` and read back as `v`. -/
def StoredAs (k : Kind) (len : Nat) (v : Value) (b : Bytes) : Prop :=
  k.build len v = .ok b ∧ k.parse b = .ok v ∧ ctxAgree k.ctxFields len b.length

omit [FloatEnv] in
theorem getLast?_append_nul {s : PStr} (h : s.getLast? ≠ some 0) : rstripNul (s ++ [0]) = s := by
  rw [rstripNul_append_nul]
  exact rstripNul_eq_self h

omit [FloatEnv] in
theorem ctxAgree_nil (a b : Nat) : ctxAgree [] a b := by intro nf h; cases h

omit [FloatEnv] in
theorem notebookParse_eq {u p ps t : Bytes} {page : Int} {pages : List Page} {e : Bool}
    (hu : u.length = 4) (hp : intBuild 4 false page = .ok p)
    (ht : manyParse pageParse (ps ++ t) = (pages, t)) (hte : ∃ b r, t = b :: r ∧ e = decide (b ≠ 0)) :
    notebookParse (u ++ p ++ ps ++ t) = .ok (.notebook u page pages e) := by
  obtain ⟨b, r, rfl, rfl⟩ := hte
  unfold notebookParse
  rw [if_neg (by simp; omega)]
  simp only [List.append_assoc]
  rw [List.drop_left' hu, List.take_left' hu, intParse_intBuild hp]
  simp only [ht]

theorem kind_roundtrip {k : Kind} {len : Nat} {v : Value} (h : validValue k len v) :
    ∃ b, StoredAs k len v b := by
  have leafCase : ∀ l x, k.leaf = some l → leafValid l x →
      (∀ b, k.build len (.lv x) = leafBuild l (some x) ∧
        k.parse b = (leafParse l b).map (fun x => .lv x.1) ∧ k.ctxFields = []) →
      ∃ b, StoredAs k len (.lv x) b := by
    intro l x _ hv hk
    obtain ⟨b, h1, h2⟩ := leafRT_of_valid hv
    refine ⟨b, (hk b).1.trans h1, ?_, by rw [(hk b).2.2]; exact ctxAgree_nil _ _⟩
    rw [(hk b).2.1]
    have := h2 [] (fun _ => rfl)
    rw [List.append_nil] at this
    rw [this]; rfl
  cases k
  case bool | i8 | u8 | i16 | u16 | f32 | i32 | u32 =>
    cases v <;> simp only [validValue] at h
    obtain ⟨l, hl, hv⟩ := h
    refine leafCase l _ hl hv (fun b => ?_)
    simp only [Kind.leaf, Option.some.injEq] at hl
    subst hl
    exact ⟨rfl, rfl, rfl⟩
  case u16t =>
    cases v with
    | lv x =>
      cases x with
      | pair a b =>
        simp only [validValue] at h
        have ha : intFits 2 false a = true := by
          simp only [intFits, Bool.false_eq_true, if_false, decide_eq_true_eq]; omega
        have hb : intFits 2 false b = true := by
          simp only [intFits, Bool.false_eq_true, if_false, decide_eq_true_eq]; omega
        obtain ⟨x, hx⟩ := intBuild_ok_iff.2 ha
        obtain ⟨y, hy⟩ := intBuild_ok_iff.2 hb
        have h2 : int2Build 2 a b = .ok (x ++ y) := by simp [int2Build, hx, hy]
        refine ⟨x ++ y, h2, ?_, ctxAgree_nil _ _⟩
        have := int2Parse_int2Build h2 []
        rw [List.append_nil] at this
        simp only [Kind.parse, this]; rfl
      | _ => simp [validValue, Kind.leaf] at h
    | _ => simp [validValue] at h
  case color =>
    cases v <;> simp only [validValue, Kind.leaf, reduceCtorEq, false_and, exists_false] at h
    obtain ⟨⟨r, rfl⟩, ⟨g, rfl⟩, ⟨b, rfl⟩, ⟨a, rfl⟩⟩ := h
    exact ⟨[r, g, b, a], by simp [Kind.build, colEncode_colDecode], rfl, ctxAgree_nil _ _⟩
  case ascii =>
    cases v <;> simp only [validValue, Kind.leaf, reduceCtorEq, false_and, exists_false] at h
    rename_i s
    obtain ⟨b, hb⟩ := asciiEncode_ok_iff (s := s ++ [0]) |>.2 (by
      intro c hc
      rcases List.mem_append.1 hc with hc | hc
      · exact h.1 c hc
      · simp at hc; omega)
    refine ⟨b, hb, ?_, ctxAgree_nil _ _⟩
    simp only [Kind.parse, asciiDecode_asciiEncode hb, Except.map]
    rw [getLast?_append_nul h.2]
  case unicode =>
    cases v <;> simp only [validValue, Kind.leaf, reduceCtorEq, false_and, exists_false] at h
    rename_i s
    obtain ⟨b, hb⟩ := utf16Encode_ok_iff (s := s ++ [0]) |>.2 (by
      intro c hc
      rcases List.mem_append.1 hc with hc | hc
      · exact h.1 c hc
      · simp at hc; subst hc; left; omega)
    refine ⟨b, hb, ?_, ctxAgree_nil _ _⟩
    simp only [Kind.parse, utf16Decode_utf16Encode hb, Except.map]
    rw [getLast?_append_nul h.2]
  case unknown =>
    cases v <;> simp only [validValue, Kind.leaf, reduceCtorEq, false_and, exists_false] at h
    exact ⟨_, rfl, rfl, ctxAgree_nil _ _⟩
  case struct s =>
    cases v <;> simp only [validValue, Kind.leaf, reduceCtorEq, false_and, exists_false] at h
    rename_i rec
    obtain ⟨b, hb, hp⟩ := struct_roundtrip ⟨len⟩ h
    have hc := struct_ctxAgree_valid s h hb
    refine ⟨b, hb, ?_, hc⟩
    simp only [Kind.parse, ← structParse_ctx hc, hp, Except.map]
  case list l =>
    cases v <;> simp only [validValue, Kind.leaf, reduceCtorEq, false_and, exists_false] at h
    rename_i rs
    obtain ⟨h1, h2⟩ := h
    obtain ⟨b, hb, hlen, hp⟩ := greedy_roundtrip ⟨len⟩ (itemSize_list l len) (l.size_pos len) h1
    have hc := list_ctxAgree h2 hlen
    refine ⟨b, hb, ?_, hc⟩
    simp only [Kind.parse, ← greedyParse_ctx hc, hp]
  case routing =>
    cases v <;> simp only [validValue, Kind.leaf, reduceCtorEq, false_and, exists_false] at h
    rename_i fs
    refine ⟨fs.map flagByte, rfl, ?_, ctxAgree_nil _ _⟩
    simp only [Kind.parse, List.map_map]
    congr 2
    have : ((fun x : UInt8 => decide (x ≠ 0)) ∘ flagByte) = id := by
      funext b; cases b <;> rfl
    rw [this, List.map_id]
  case automation =>
    cases v <;> simp only [validValue, Kind.leaf, reduceCtorEq, false_and, exists_false] at h
    rename_i head pts tail
    obtain ⟨h1, h2, h3⟩ := h
    have k1 : itemSize ⟨0⟩ autoHead = some 17 := by
      simp [autoHead, itemSize, leafPlain, leafSize, PyFLP.i32]
    have k2 : itemSize ⟨0⟩ autoPoint = some 24 := by
      simp [autoPoint, itemSize, leafPlain, leafSize]
    obtain ⟨a, a1, -, a3⟩ := item_roundtrip ⟨0⟩ k1 h1
    obtain ⟨p, p1, p2⟩ := times_roundtrip ⟨0⟩ k2 h2
    have hn := intBuild_nat (w := 4) (n := pts.length) (by omega)
    refine ⟨a ++ leBytes 4 pts.length ++ p ++ tail, ?_, ?_, ctxAgree_nil _ _⟩
    · show autoBuild head pts tail = _
      exact seqBuild_ok (seqBuild_ok (seqBuild_ok a1 hn) p1) rfl
    · show autoParse _ = _
      unfold autoParse
      simp only [List.append_assoc]
      rw [a3]; dsimp only; rw [intParse_intBuild hn]; simp only [Int.toNat_natCast]; rw [p2]
  case notebook =>
    cases v <;> simp only [validValue, Kind.leaf, reduceCtorEq, false_and, exists_false] at h
    rename_i u page pages e
    obtain ⟨hu, hpg, hps⟩ := h
    have hf : intFits 4 false page = true := by
      simp only [intFits, Bool.false_eq_true, if_false, decide_eq_true_eq]; omega
    obtain ⟨p, hp⟩ := intBuild_ok_iff.2 hf
    have hstop : ∃ x, pageParse [flagByte e] = .error x := by
      refine ⟨.streamError, ?_⟩
      unfold pageParse
      rw [intParse_short (by simp)]
    obtain ⟨ps, b1, b2⟩ := many_roundtrip hstop (fun pg hpg => page_roundtrip (hps pg hpg))
    refine ⟨u ++ p ++ ps ++ [flagByte e], ?_, ?_, ctxAgree_nil _ _⟩
    · show notebookBuild u page pages e = _
      unfold notebookBuild
      rw [if_neg (by simp [hu]), hp]; dsimp only; rw [b1]; rfl
    · exact notebookParse_eq hu hp b2 ⟨_, _, rfl, by cases e <;> rfl⟩
  case vst =>
    cases v <;> simp only [validValue, Kind.leaf, reduceCtorEq, false_and, exists_false] at h
    rename_i t items
    obtain ⟨ht, hi⟩ := h
    have hf : intFits 4 false t = true := by
      simp only [intFits, Bool.false_eq_true, if_false, decide_eq_true_eq]; omega
    obtain ⟨a, ha⟩ := intBuild_ok_iff.2 hf
    have hstop : ∃ x, vstItemParse [] = .error x := ⟨.streamError, rfl⟩
    obtain ⟨b, b1, b2⟩ := many_roundtrip hstop (fun x hx => vst_roundtrip (hi x hx))
    rw [List.append_nil] at b2
    refine ⟨a ++ b, ?_, ?_, ctxAgree_nil _ _⟩
    · show vstBuild t items = _
      unfold vstBuild; rw [ha]; dsimp only; rw [b1]
    · show vstParse _ = _
      unfold vstParse
      have hne : a ++ b ≠ [] := by
        have := intBuild_length ha
        intro e
        have e := congrArg List.length e
        simp only [List.length_append, List.length_nil] at e; omega
      split
      · next e => exact absurd e hne
      · rw [intParse_intBuild ha]; dsimp only; rw [b2]

end PyFLP
