import Verif.Settle
/-!
# Re-saving settles: kinds of events
-/

namespace PyFLP

/-- Two lists of the same length, related element by element. -/
inductive Pointwise {α : Type} (R : α → α → Prop) : List α → List α → Prop
  | nil : Pointwise R [] []
  | cons {a b : α} {as bs : List α} : R a b → Pointwise R as bs → Pointwise R (a :: as) (b :: bs)

theorem pointwise_settles {α : Type} {R : α → α → Prop} (h : Settles R) : Settles (Pointwise R) := by
  intro s hs
  have key : ∀ n (s : Nat → List α), (s 0).length = n → (∀ i, Pointwise R (s i) (s (i + 1))) →
      ∃ N, ∀ n, N ≤ n → s n = s N := by
    intro n
    induction n with
    | zero =>
      intro s h0 hs
      have : ∀ i, s i = [] := by
        intro i
        induction i with
        | zero => exact List.eq_nil_of_length_eq_zero h0
        | succ i ih =>
          have := hs i
          rw [ih] at this
          generalize s (i + 1) = x at this
          cases this
          rfl
      exact ⟨0, fun n _ => by rw [this n, this 0]⟩
    | succ n ih =>
      intro s h0 hs
      have hex : ∀ i, ∃ x : α × List α, s i = x.1 :: x.2 := by
        intro i
        induction i with
        | zero =>
          cases hc : s 0 with
          | nil => rw [hc] at h0; cases h0
          | cons a as => exact ⟨(a, as), rfl⟩
        | succ i ihi =>
          obtain ⟨x, hx⟩ := ihi
          have := hs i
          rw [hx] at this
          generalize s (i + 1) = y at this
          cases this with
          | cons r t => exact ⟨(_, _), rfl⟩
      have hex : ∃ x : Nat → α × List α, ∀ i, s i = (x i).1 :: (x i).2 := ⟨fun i => (hex i).choose, fun i => (hex i).choose_spec⟩
      obtain ⟨x, hx⟩ := hex
      have hstep : ∀ i, R (x i).1 (x (i + 1)).1 ∧ Pointwise R (x i).2 (x (i + 1)).2 := by
        intro i
        have := hs i
        rw [hx i, hx (i + 1)] at this
        cases this with
        | cons r t => exact ⟨r, t⟩
      have a1 := h (fun i => (x i).1) (fun i => (hstep i).1)
      have a2 := ih (fun i => (x i).2) (by have := hx 0; rw [this] at h0; simpa using h0) (fun i => (hstep i).2)
      obtain ⟨N, hN⟩ := settles_both a1 a2
      refine ⟨N, fun n hn => ?_⟩
      obtain ⟨c1, c2⟩ := hN n hn
      rw [hx n, hx N, c1, c2]
  exact key _ s rfl hs

variable [FloatEnv]

/-- Reading a payload and writing it. -/
def KindStep (k : Kind) (a b : Bytes) : Prop := ∃ v, k.parse a = .ok v ∧ k.build a.length v = .ok b

/-! ### Structs -/

theorem fine_int_leaf (w : Nat) (sg : Bool) : LeafFine (.int w sg) := fine_canon (by simp) (by simp) (fun _ => trivial)
theorem fine_raw (n : Nat) : LeafFine (.raw n) := fine_canon (by simp) (by simp) (fun _ => trivial)
theorem fine_f32 : LeafFine .f32 := fine_canon (by simp) (by simp) (fun _ => trivial)
theorem fine_f64 : LeafFine .f64 := fine_canon (by simp) (by simp) (fun _ => trivial)
theorem fine_pair32 : LeafFine .pair32 := fine_canon (by simp) (by simp) (fun _ => trivial)
theorem fine_musical : LeafFine .musical := fine_canon (by simp) (by simp) (fun _ => trivial)

/-- Every primitive that can be optional. -/
theorem fine_leaf {l : Leaf} (hg : l ≠ .greedy) (hr : ∀ n, l ≠ .rawC n) (hl : (l = .log2 ∨ l = .logNormal) → LogsSettle) :
    LeafFine l := by
  cases l with
  | int w sg => exact fine_int_leaf w sg
  | flagsS m => exact fine_flagsS m
  | flag => exact fine_flag
  | raw n => exact fine_raw n
  | rawC n => exact absurd rfl (hr n)
  | greedy => exact absurd rfl hg
  | f32 => exact fine_f32
  | f64 => exact fine_f64
  | fourBool => exact fine_fourBool
  | height => exact fine_height
  | pair32 => exact fine_pair32
  | musical => exact fine_musical
  | log2 => exact fine_log2 (hl (.inl rfl))
  | logNormal => exact fine_logNormal (hl (.inr rfl))

omit [FloatEnv] in
/-- Whether all fields are optional, apart from the remaining bytes. -/
def optional : Fields → Bool
  | [] => true
  | [(_, .req .greedy)] => true
  | [(_, .opt .greedy)] => true
  | (_, .opt l) :: fs => (match l with | .greedy | .rawC _ => false | _ => true) && optional fs
  | _ :: _ => false

/-- Whether a struct holds logarithms. -/
def hasLogs (fs : Fields) : Bool := fs.any fun nf => nf.2.leaf == .log2 || nf.2.leaf == .logNormal

theorem opts_of {fs : Fields} (h : optional fs = true) (hl : hasLogs fs = true → LogsSettle) : Opts fs := by
  induction fs with
  | nil => exact .nil
  | cons nf fs ih =>
    obtain ⟨n, f⟩ := nf
    unfold optional at h
    split at h
    · next heq => cases heq
    · next heq => cases heq; exact .reqRest _
    · next heq => cases heq; exact .optRest _
    · next heq =>
      cases heq
      rw [Bool.and_eq_true] at h
      refine .cons _ (fine_leaf ?_ ?_ ?_) (ih h.2 ?_)
      · rintro rfl; simp at h
      · rintro n rfl; simp at h
      · intro hor
        apply hl
        simp only [hasLogs, List.any_cons, Fld.leaf]
        rcases hor with rfl | rfl <;> simp
      · intro hh
        apply hl
        simp only [hasLogs, List.any_cons, Bool.or_eq_true] at hh ⊢
        exact .inr hh
    · cases h

omit [FloatEnv] in
theorem opts_ctx {fs : Fields} (h : optional fs = true) (a b : Nat) : ctxAgree fs a b := by
  induction fs with
  | nil => exact ctxAgree_nil a b
  | cons nf fs ih =>
    obtain ⟨n, f⟩ := nf
    unfold optional at h
    intro x hx
    split at h
    · next heq => cases heq
    · next heq =>
      cases heq
      rcases List.mem_singleton.1 hx with rfl
      trivial
    · next heq =>
      cases heq
      rcases List.mem_singleton.1 hx with rfl
      trivial
    · next heq =>
      cases heq
      rw [Bool.and_eq_true] at h
      rcases List.mem_cons.1 hx with rfl | hx
      · trivial
      · exact ih h.2 x hx
    · cases h

/-- Structs of optional fields can always be read. -/
theorem optional_parse (cx : Ctx) {fs : Fields} (h : optional fs = true) (bs : Bytes) :
    ∃ rec r, structParse cx fs bs = .ok (rec, r) := by
  induction fs generalizing bs with
  | nil => exact ⟨_, _, rfl⟩
  | cons nf fs ih =>
    obtain ⟨n, f⟩ := nf
    unfold optional at h
    split at h
    · next heq => cases heq
    · next heq => cases heq; exact ⟨_, _, rfl⟩
    · next heq => cases heq; exact ⟨_, _, rfl⟩
    · next l _ _ heq =>
      cases heq
      rw [Bool.and_eq_true] at h
      cases hp : leafParse l bs with
      | ok x =>
        obtain ⟨rec, r, hr⟩ := ih h.2 x.2
        exact ⟨_, _, by simp only [structParse, fldParse, hp, hr]; rfl⟩
      | error e =>
        obtain ⟨rec, r, hr⟩ := ih h.2 bs
        exact ⟨_, _, by simp only [structParse, fldParse, hp, hr]; rfl⟩
    · cases h

omit [FloatEnv] in
/-- The struct events are of two sorts. -/
theorem struct_sorts : ∀ s : SName, optional s.fields = true ∨
    ((∀ nf ∈ s.fields, leafLossy nf.2.leaf = false) ∧ ∀ nf ∈ s.fields, nf.2 ≠ .opt .flag) := by
  intro s
  cases s <;> first | exact .inl rfl | exact .inr (by decide)

omit [FloatEnv] in
theorem struct_logs : ∀ s : SName, hasLogs s.fields = true → s = .parameters := by
  intro s
  cases s <;> first | (intro _; rfl) | (intro h; exact absurd h (by decide))

/-! ### Kinds whose values are stable -/

theorem stable_once {k : Kind} (h : ∀ bs v, k.parse bs = .ok v → settledPayload k bs) : Settles (KindStep k) := by
  intro s hs
  have key : ∀ i, s (i + 1 + 1) = s (i + 1) := by
    intro i
    obtain ⟨v, h1, h2⟩ := hs i
    obtain ⟨b, q1, q2, q3⟩ := kind_stable h1 (h _ _ h1)
    rw [q1] at h2
    have h2 := Except.ok.inj h2
    obtain ⟨v', h3, h4⟩ := hs (i + 1)
    rw [← h2, q2] at h3
    have h3 := Except.ok.inj h3
    subst h3
    rw [← h2, ← kind_build_ctx q3, q1] at h4
    rw [← h2, Except.ok.inj h4]
  refine settles_const 1 fun i hi => ?_
  have := key (i - 1)
  rwa [show i - 1 + 1 = i by omega] at this

/-! ### VST data -/

/-- Reading the data of a sub-event and writing it. -/
def DataStep (id : Int) (a b : Bytes) : Prop := ∃ d, vstDataParse id a = .ok d ∧ vstDataBuild id d = .ok b

theorem dataStep_settles (id : Int) : Settles (DataStep id) := by
  intro s hs
  have viaStruct : ∀ fs : Fields, optional fs = true → hasLogs fs = false →
      (∀ i, StructStep ⟨0⟩ fs (s i) (s (i + 1))) → ∃ N, ∀ n, N ≤ n → s n = s N :=
    fun fs h1 h2 h3 => opts_settle ⟨0⟩ (opts_of h1 (by rw [h2]; intro h; cases h)) s h3
  by_cases e1 : id = 1
  · subst e1
    refine viaStruct vstMidi rfl rfl fun i => ?_
    obtain ⟨d, h1, h2⟩ := hs i
    simp only [vstDataParse, if_true] at h1
    obtain ⟨⟨rec, r⟩, p1, p2⟩ := map_ok h1
    cases p2
    exact ⟨rec, r, p1, by simpa [vstDataBuild] using h2⟩
  by_cases e2 : id = 2
  · subst e2
    refine viaStruct vstFlags rfl rfl fun i => ?_
    obtain ⟨d, h1, h2⟩ := hs i
    simp [vstDataParse] at h1
    obtain ⟨⟨rec, r⟩, p1, p2⟩ := map_ok h1
    cases p2
    exact ⟨rec, r, p1, by simpa [vstDataBuild] using h2⟩
  refine settles_const 0 fun i _ => ?_
  obtain ⟨d, h1, h2⟩ := hs i
  by_cases e3 : vstIsText id = true
  · simp only [vstDataParse, if_neg e1, if_neg e2, e3, if_true] at h1
    obtain ⟨t, p1, p2⟩ := map_ok h1
    cases p2
    simp only [vstDataBuild, if_neg e1, if_neg e2, e3, if_true, utf8Encode_utf8Decode p1] at h2
    exact (Except.ok.inj h2).symm
  · simp only [vstDataParse, if_neg e1, if_neg e2, e3] at h1
    cases h1
    simp only [vstDataBuild, if_neg e1, if_neg e2, e3] at h2
    exact (Except.ok.inj h2).symm

theorem dataStep_parse {id : Int} {a b : Bytes} (h : DataStep id a b) : ∃ d, vstDataParse id b = .ok d := by
  obtain ⟨d, h1, h2⟩ := h
  unfold vstDataParse
  by_cases e1 : id = 1
  · rw [if_pos e1]
    obtain ⟨rec, r, hr⟩ := optional_parse ⟨0⟩ (fs := vstMidi) rfl b
    rw [hr]; exact ⟨_, rfl⟩
  rw [if_neg e1]
  by_cases e2 : id = 2
  · rw [if_pos e2]
    obtain ⟨rec, r, hr⟩ := optional_parse ⟨0⟩ (fs := vstFlags) rfl b
    rw [hr]; exact ⟨_, rfl⟩
  rw [if_neg e2]
  by_cases e3 : vstIsText id = true
  · rw [if_pos e3]
    simp only [vstDataParse, if_neg e1, if_neg e2, e3, if_true] at h1
    obtain ⟨t, p1, p2⟩ := map_ok h1
    cases p2
    simp only [vstDataBuild, if_neg e1, if_neg e2, e3, if_true, utf8Encode_utf8Decode p1] at h2
    rw [← Except.ok.inj h2, p1]
    exact ⟨_, rfl⟩
  · rw [if_neg e3]; exact ⟨_, rfl⟩

/-- The bytes of a sub-event. -/
def subBytes (x : Int × Bytes) : Bytes := leBytes 4 x.1.toNat ++ leBytes 8 x.2.length ++ x.2

/-- A sub-event that fits its numbers and can be read. -/
def SubOK (x : Int × Bytes) : Prop :=
  intFits 4 false x.1 = true ∧ intFits 8 false x.2.length = true ∧ ∃ d, vstDataParse x.1 x.2 = .ok d

omit [FloatEnv] in
theorem intBuild_u {w : Nat} {n : Int} {b : Bytes} (h : intBuild w false n = .ok b) :
    intFits w false n = true ∧ b = leBytes w n.toNat := by
  have f := intBuild_ok_iff.1 ⟨_, h⟩
  unfold intBuild at h
  rw [if_pos f] at h
  refine ⟨f, ?_⟩
  simp only [intFits, Bool.false_eq_true, if_false, decide_eq_true_eq] at f
  rw [Int.emod_eq_of_lt f.1 f.2] at h
  exact (Except.ok.inj h).symm

omit [FloatEnv] in
theorem build_of_fits {w : Nat} {n : Int} (h : intFits w false n = true) : intBuild w false n = .ok (leBytes w n.toNat) := by
  obtain ⟨b, hb⟩ := intBuild_ok_iff.2 h
  rw [hb, (intBuild_u hb).2]

theorem sub_parse {x : Int × Bytes} (h : SubOK x) : ∃ d, vstDataParse x.1 x.2 = .ok d ∧
    ∀ r, vstItemParse (subBytes x ++ r) = .ok ((x.1, d), r) := by
  obtain ⟨h1, h3, d, h4⟩ := h
  refine ⟨d, h4, fun r => ?_⟩
  have b1 := build_of_fits h1
  have b2 := build_of_fits h3
  rw [Int.toNat_natCast] at b2
  unfold vstItemParse subBytes
  simp only [List.append_assoc]
  rw [intParse_intBuild b1]
  simp only
  rw [intParse_intBuild b2]
  simp only [Int.toNat_natCast]
  rw [if_neg (by simp), List.take_left' rfl, List.drop_left' rfl, h4]

omit [FloatEnv] in
theorem prefixedBuild_inv {A D : Py Bytes} {L : Bytes → Py Bytes} {b : Bytes} (h : prefixedBuild A D L = .ok b) :
    ∃ a d l, A = .ok a ∧ D = .ok d ∧ L d = .ok l ∧ b = a ++ l ++ d := by
  unfold prefixedBuild at h
  split at h
  · cases h
  · split at h
    · cases h
    · split at h
      · cases h
      · next hl => exact ⟨_, _, _, rfl, rfl, hl, (Except.ok.inj h).symm⟩

theorem vstItemBuild_inv {x : Int × VstData} {b : Bytes} (h : vstItemBuild x = .ok b) :
    ∃ c, vstDataBuild x.1 x.2 = .ok c ∧ intFits 4 false x.1 = true ∧ intFits 8 false c.length = true ∧
      b = subBytes (x.1, c) := by
  obtain ⟨a, c, l, h1, h2, h3, h4⟩ := prefixedBuild_inv h
  obtain ⟨i1, i2⟩ := intBuild_u h1
  obtain ⟨j1, j2⟩ := intBuild_u h3
  rw [Int.toNat_natCast] at j2
  refine ⟨c, h2, i1, j1, ?_⟩
  rw [h4, i2, j2, subBytes]

/-- One sub-event is read and written. -/
theorem sub_step {bs r b : Bytes} {x : Int × VstData} (h1 : vstItemParse bs = .ok (x, r)) (h2 : vstItemBuild x = .ok b) :
    ∃ a c, vstDataParse x.1 a = .ok x.2 ∧ DataStep x.1 a c ∧ SubOK (x.1, c) ∧ b = subBytes (x.1, c) := by
  unfold vstItemParse at h1
  split at h1
  · cases h1
  · next id m p1 =>
    split at h1
    · cases h1
    · next n m' p2 =>
      split at h1
      · cases h1
      · split at h1
        · cases h1
        · next d h4 =>
          cases h1
          obtain ⟨c, g1, g2, g3, g4⟩ := vstItemBuild_inv h2
          have hst : DataStep id (m'.take n.toNat) c := ⟨d, h4, g1⟩
          exact ⟨m'.take n.toNat, c, h4, hst, ⟨g2, g3, dataStep_parse hst⟩, g4⟩

/-- Sub-events in a row are read one by one. -/
theorem subs_parse {L : List (Int × Bytes)} (h : ∀ x ∈ L, SubOK x) :
    ∃ ds : List (Int × VstData), manyParse vstItemParse (L.flatMap subBytes) = (ds, []) ∧
      ∀ b, manyBuild vstItemBuild ds = .ok b →
        ∃ L' : List (Int × Bytes), (∀ x ∈ L', SubOK x) ∧ b = L'.flatMap subBytes ∧
          Pointwise (fun x y => y.1 = x.1 ∧ DataStep x.1 x.2 y.2) L L' := by
  induction L with
  | nil =>
    refine ⟨[], ?_, ?_⟩
    · unfold manyParse
      rfl
    · intro b hb
      exact ⟨[], by simp, (Except.ok.inj hb).symm, .nil⟩
  | cons x L ih =>
    obtain ⟨ds, h1, h2⟩ := ih (fun y hy => h y (List.mem_cons_of_mem _ hy))
    obtain ⟨d, d1, d2⟩ := sub_parse (h x (by simp))
    refine ⟨(x.1, d) :: ds, ?_, ?_⟩
    · rw [List.flatMap_cons]
      unfold manyParse
      rw [d2]
      dsimp only
      rw [if_pos (by simp [subBytes]; omega), h1]
    · intro b hb
      simp only [manyBuild] at hb
      split at hb
      · cases hb
      · next c hc =>
        split at hb
        · cases hb
        · next t ht =>
          obtain ⟨L', q1, q2, q3⟩ := h2 t ht
          obtain ⟨c', g1, g2, g3, g4⟩ := vstItemBuild_inv hc
          have hst : DataStep x.1 x.2 c' := ⟨d, d1, g1⟩
          refine ⟨(x.1, c') :: L', ?_, ?_, .cons ⟨rfl, hst⟩ q3⟩
          · intro y hy
            rcases List.mem_cons.1 hy with rfl | hy
            · exact ⟨g2, g3, dataStep_parse hst⟩
            · exact q1 y hy
          · rw [← Except.ok.inj hb, g4, q2, List.flatMap_cons]

/-- Whatever was read is written as sub-events in a row. -/
theorem subs_build {bs r : Bytes} {ds : List (Int × VstData)} (h : Chunks vstItemParse bs ds r) {b : Bytes}
    (hb : manyBuild vstItemBuild ds = .ok b) : ∃ L : List (Int × Bytes), (∀ x ∈ L, SubOK x) ∧ b = L.flatMap subBytes := by
  induction h generalizing b with
  | stop h => exact ⟨[], by simp, (Except.ok.inj hb).symm⟩
  | @step bs a r as r' h hl t ih =>
    simp only [manyBuild] at hb
    split at hb
    · cases hb
    · next c hc =>
      split at hb
      · cases hb
      · next t ht =>
        obtain ⟨L, q1, q2⟩ := ih ht
        obtain ⟨-, c', -, -, s3, s4⟩ := sub_step h hc
        refine ⟨(a.1, c') :: L, ?_, ?_⟩
        · intro y hy
          rcases List.mem_cons.1 hy with rfl | hy
          · exact s3
          · exact q1 y hy
        · rw [← Except.ok.inj hb, s4, q2, List.flatMap_cons]

theorem vst_settles : Settles (KindStep .vst) := by
  intro s hs
  have first : ∀ a b, KindStep .vst a b → ∃ (t : Int) (L : List (Int × Bytes)), intFits 4 false t = true ∧ (∀ x ∈ L, SubOK x) ∧
      b = leBytes 4 t.toNat ++ L.flatMap subBytes := by
    rintro a b ⟨v, h1, h2⟩
    simp only [Kind.parse, vstParse] at h1
    split at h1
    · cases h1
    · split at h1
      · cases h1
      · next t r p1 =>
        cases h1
        obtain ⟨pre, -, hb⟩ := intBuild_intParse p1
        obtain ⟨i1, i3⟩ := intBuild_u hb
        simp only [Kind.build, vstBuild] at h2
        rw [hb] at h2
        dsimp only at h2
        split at h2
        · cases h2
        · next c hc =>
          obtain ⟨L, q1, q2⟩ := subs_build (many_chunks vstItemParse r) hc
          exact ⟨t, L, i1, q1, by rw [← Except.ok.inj h2, i3, q2]⟩
  have next : ∀ (t : Int) (L : List (Int × Bytes)) b, intFits 4 false t = true → (∀ x ∈ L, SubOK x) →
      KindStep .vst (leBytes 4 t.toNat ++ L.flatMap subBytes) b →
      ∃ L' : List (Int × Bytes), (∀ x ∈ L', SubOK x) ∧ b = leBytes 4 t.toNat ++ L'.flatMap subBytes ∧
        Pointwise (fun x y => y.1 = x.1 ∧ DataStep x.1 x.2 y.2) L L' := by
    rintro t L b ht hL ⟨v, h1, h2⟩
    have hb4 := build_of_fits ht
    obtain ⟨ds, d1, d2⟩ := subs_parse hL
    have hv : v = .vst t ds := by
      simp only [Kind.parse, vstParse] at h1
      split at h1
      · cases h1
      · rw [intParse_intBuild hb4] at h1
        simp only [d1] at h1
        exact (Except.ok.inj h1).symm
    subst hv
    simp only [Kind.build, vstBuild, hb4] at h2
    split at h2
    · cases h2
    · next c hc =>
      obtain ⟨L', q1, q2, q3⟩ := d2 c hc
      exact ⟨L', q1, by rw [← Except.ok.inj h2, q2], q3⟩
  obtain ⟨t, L0, ht, hL0, e0⟩ := first _ _ (hs 0)
  have hall : ∀ i, ∃ L : List (Int × Bytes), (∀ x ∈ L, SubOK x) ∧ s (i + 1) = leBytes 4 t.toNat ++ L.flatMap subBytes := by
    intro i
    induction i with
    | zero => exact ⟨L0, hL0, e0⟩
    | succ i ih =>
      obtain ⟨L, h1, h2⟩ := ih
      have := hs (i + 1)
      rw [h2] at this
      obtain ⟨L', q1, q2, -⟩ := next t L _ ht h1 this
      exact ⟨L', q1, q2⟩
  -- the lists of sub-events can be chosen one after the other
  let Sub := { L : List (Int × Bytes) // ∀ x ∈ L, SubOK x }
  have hnext : ∀ (i : Nat) (L : Sub), s (i + 1) = leBytes 4 t.toNat ++ L.1.flatMap subBytes →
      ∃ L' : Sub, s (i + 1 + 1) = leBytes 4 t.toNat ++ L'.1.flatMap subBytes ∧
        Pointwise (fun x y => y.1 = x.1 ∧ DataStep x.1 x.2 y.2) L.1 L'.1 := by
    intro i L hL
    have := hs (i + 1)
    rw [hL] at this
    obtain ⟨L', q1, q2, q3⟩ := next t L.1 _ ht L.2 this
    exact ⟨⟨L', q1⟩, q2, q3⟩
  let chain : (i : Nat) → { L : Sub // s (i + 1) = leBytes 4 t.toNat ++ L.1.flatMap subBytes } := fun i =>
    Nat.rec (motive := fun i => { L : Sub // s (i + 1) = leBytes 4 t.toNat ++ L.1.flatMap subBytes })
      ⟨⟨L0, hL0⟩, e0⟩ (fun i L => ⟨(hnext i L.1 L.2).choose, (hnext i L.1 L.2).choose_spec.1⟩) i
  have hchain : ∀ i, Pointwise (fun x y => y.1 = x.1 ∧ DataStep x.1 x.2 y.2) (chain i).1.1 (chain (i + 1)).1.1 :=
    fun i => (hnext i (chain i).1 (chain i).2).choose_spec.2
  have hR : Settles (fun x y : Int × Bytes => y.1 = x.1 ∧ DataStep x.1 x.2 y.2) := by
    intro s hs
    have hid : ∀ i, (s i).1 = (s 0).1 := by
      intro i
      induction i with
      | zero => rfl
      | succ i ih => rw [(hs i).1, ih]
    obtain ⟨N, hN⟩ := dataStep_settles (s 0).1 (fun i => (s i).2) (fun i => by have := (hs i).2; rw [hid i] at this; exact this)
    exact ⟨N, fun n hn => Prod.ext (by rw [hid n, hid N]) (hN n hn)⟩
  obtain ⟨N, hN⟩ := pointwise_settles hR (fun i => (chain i).1.1) hchain
  refine ⟨N + 1, fun n hn => ?_⟩
  obtain ⟨m, rfl⟩ : ∃ m, n = m + 1 := ⟨n - 1, by omega⟩
  have h3 : (chain m).1.1 = (chain N).1.1 := hN m (by omega)
  rw [(chain m).2, (chain N).2, h3]

/-! ### Lists -/

theorem list_step {l : LName} {a b : Bytes} (h : KindStep (.list l) a b) :
    b = a.take (l.size a.length * (a.length / l.size a.length)) := by
  obtain ⟨v, h1, h2⟩ := h
  cases h1
  obtain ⟨recs, g1, -, -, g4⟩ := greedy_parse ⟨a.length⟩ (itemSize_list l a.length) (l.size_pos _) a
  simp only [Kind.build, g1] at h2
  rw [g4] at h2
  exact (Except.ok.inj h2).symm

omit [FloatEnv] in
theorem list_size_dvd (l : LName) (n : Nat) : l.size (l.size n * (n / l.size n)) ∣ l.size n * (n / l.size n) := by
  cases l
  case controller => exact ⟨_, rfl⟩
  case notes => exact ⟨_, rfl⟩
  case mixerParams => exact ⟨_, rfl⟩
  case playlist =>
    by_cases h : (LName.playlist.size n * (n / LName.playlist.size n)) % 60 = 0
    · have : LName.playlist.size (LName.playlist.size n * (n / LName.playlist.size n)) = 60 := by
        unfold LName.size at h ⊢
        rw [if_pos h]
      rw [this]
      exact Nat.dvd_of_mod_eq_zero h
    · have e : LName.playlist.size (LName.playlist.size n * (n / LName.playlist.size n)) = 32 := by
        unfold LName.size at h ⊢
        rw [if_neg h]
      rw [e]
      by_cases h0 : n % 60 = 0
      · exfalso
        apply h
        have : LName.playlist.size n = 60 := by unfold LName.size; rw [if_pos h0]
        rw [this]
        omega
      · have : LName.playlist.size n = 32 := by unfold LName.size; rw [if_neg h0]
        rw [this]
        exact ⟨_, rfl⟩

theorem list_settles (l : LName) : Settles (KindStep (.list l)) := by
  intro s hs
  refine settles_const 1 fun i hi => ?_
  have h1 := list_step (hs (i - 1))
  rw [show i - 1 + 1 = i by omega] at h1
  have h2 := list_step (hs i)
  have hlen : (s i).length = l.size (s (i - 1)).length * ((s (i - 1)).length / l.size (s (i - 1)).length) := by
    rw [h1, List.length_take]
    have := Nat.mul_div_le (s (i - 1)).length (l.size (s (i - 1)).length)
    omega
  have hd := list_size_dvd l (s (i - 1)).length
  rw [← hlen] at hd
  rw [h2, Nat.mul_div_cancel' hd, List.take_length]

/-! ### Every kind -/

theorem kind_settles (k : Kind) (hk : k = .struct .parameters → LogsSettle) : Settles (KindStep k) := by
  cases k with
  | struct s =>
    rcases struct_sorts s with h | ⟨h1, h2⟩
    · have ho := opts_of h (fun hl => hk (by rw [struct_logs s hl]))
      intro x hx
      refine opts_settle ⟨0⟩ ho x fun i => ?_
      obtain ⟨v, p1, p2⟩ := hx i
      simp only [Kind.parse] at p1
      obtain ⟨⟨rec, r⟩, q1, q2⟩ := map_ok p1
      cases q2
      rw [structParse_ctx (opts_ctx h _ 0)] at q1
      refine ⟨rec, r, q1, ?_⟩
      rw [← structBuild_ctx (opts_ctx h (x i).length 0)]
      exact p2
    · apply stable_once
      intro bs v h
      simp only [Kind.parse] at h
      obtain ⟨⟨rec, r⟩, q1, q2⟩ := map_ok h
      exact settled_nonlossy _ q1 h1 (fun n hn => absurd rfl (h2 _ hn))
  | list l => exact list_settles l
  | vst => exact vst_settles
  | _ => exact stable_once (fun _ _ _ => trivial)

/-- What was saved can be read again. -/
theorem kind_step_parse {k : Kind} {a b : Bytes} (h : KindStep k a b) : ∃ v, k.parse b = .ok v := by
  have stable : (∀ v, k.parse a = .ok v → settledPayload k a) → ∃ v, k.parse b = .ok v := by
    intro hs
    obtain ⟨v, h1, h2⟩ := h
    obtain ⟨c, q1, q2, -⟩ := kind_stable h1 (hs v h1)
    rw [q1] at h2
    rw [← Except.ok.inj h2]
    exact ⟨v, q2⟩
  cases k with
  | struct s =>
    rcases struct_sorts s with ho | ⟨h1, h2⟩
    · obtain ⟨rec, r, hr⟩ := optional_parse ⟨b.length⟩ ho b
      simp only [Kind.parse, hr]
      exact ⟨_, rfl⟩
    · apply stable
      intro v h
      simp only [Kind.parse] at h
      obtain ⟨⟨rec, r⟩, q1, q2⟩ := map_ok h
      exact settled_nonlossy _ q1 h1 (fun n hn => absurd rfl (h2 _ hn))
  | list l => exact ⟨_, rfl⟩
  | vst =>
    obtain ⟨v, h1, h2⟩ := h
    simp only [Kind.parse, vstParse] at h1
    split at h1
    · cases h1
    · split at h1
      · cases h1
      · next t r p1 =>
        cases h1
        obtain ⟨pre, -, hb⟩ := intBuild_intParse p1
        have hl := intBuild_length hb
        simp only [Kind.build, vstBuild] at h2
        rw [hb] at h2
        dsimp only at h2
        split at h2
        · cases h2
        · next c hc =>
          rw [← Except.ok.inj h2]
          simp only [Kind.parse, vstParse]
          split
          · next e => simp at e; rw [e.1] at hl; cases hl
          · rw [intParse_intBuild hb]; exact ⟨_, rfl⟩
  | _ => exact stable (fun _ _ => trivial)

end PyFLP
