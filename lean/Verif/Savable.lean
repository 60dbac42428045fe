import Verif.SettleKinds
import Verif.Chunks
import Verif.FileLemmas
/-!
# What was read can be written

Every value an event class reads from a payload can be written again by that class, and what is written is not much longer
than what was read.
-/

namespace PyFLP

variable [FloatEnv]

/-- Structs of optional fields can be written; every boolean that was missing adds a byte. -/
theorem optional_build (cx : Ctx) {fs : Fields} (ho : optional fs = true) {bs : Bytes} {rec : Rec} {r : Bytes}
    (h : structParse cx fs bs = .ok (rec, r)) :
    ∃ b, structBuild cx fs rec = .ok b ∧ b.length + r.length ≤ bs.length + fs.length := by
  induction fs generalizing bs rec r with
  | nil => cases h; exact ⟨[], rfl, by simp⟩
  | cons nf fs ih =>
    obtain ⟨n, f⟩ := nf
    obtain ⟨v, m, rec', p1, p2, rfl⟩ := structParse_cons h
    have goal : optional fs = true → (∃ c, fldBuild cx f v = .ok c ∧ c.length + m.length ≤ bs.length + 1) →
        ∃ b, structBuild cx ((n, f) :: fs) ((n, v) :: rec') = .ok b ∧ b.length + r.length ≤ bs.length + ((n, f) :: fs).length := by
      rintro ho ⟨c, hc, hl⟩
      obtain ⟨b, hb, hl'⟩ := ih ho p2
      refine ⟨c ++ b, ?_, ?_⟩
      · simp only [structBuild, if_true, hc, hb]
      · simp only [List.length_append, List.length_cons]; omega
    have rest : f = .req .greedy ∨ f = .opt .greedy → ∃ c, fldBuild cx f v = .ok c ∧ c.length + m.length ≤ bs.length + 1 := by
      rintro (rfl | rfl)
      · cases p1; exact ⟨bs, rfl, by simp⟩
      · cases p1; exact ⟨bs, rfl, by simp⟩
    have opt : ∀ l k, f = .opt l → leafSize l = some k → ∃ c, fldBuild cx f v = .ok c ∧ c.length + m.length ≤ bs.length + 1 := by
      rintro l k rfl hk
      simp only [fldParse] at p1
      split at p1
      · next x m' hx =>
        cases p1
        have := leafParse_size hx hk
        cases hb : leafBuild l (some x) with
        | error e => exact ⟨[], by simp only [fldBuild, hb], by simp; omega⟩
        | ok c => exact ⟨c, by simp only [fldBuild, hb], by rw [leafBuild_size hb hk]; omega⟩
      · cases p1
        cases hb : leafBuild l none with
        | error e => exact ⟨[], by simp only [fldBuild, hb], by simp⟩
        | ok c =>
          refine ⟨c, by simp only [fldBuild, hb], ?_⟩
          have : c.length = 1 := by
            cases l
            case flag => rw [← Except.ok.inj hb]; rfl
            all_goals exact absurd hb (by simp [leafBuild])
          omega
    unfold optional at ho
    split at ho
    · next heq => cases heq
    · next heq => cases heq; exact goal rfl (rest (.inl rfl))
    · next heq => cases heq; exact goal rfl (rest (.inr rfl))
    · next n' l fs' _ heq =>
      cases heq
      rw [Bool.and_eq_true] at ho
      cases l
      case greedy => exact absurd ho.1 (by simp)
      case rawC => exact absurd ho.1 (by simp)
      all_goals exact goal ho.2 (opt _ _ rfl rfl)
    · cases ho

omit [FloatEnv] in
theorem optional_midi : optional vstMidi = true := rfl
omit [FloatEnv] in
theorem optional_flags : optional vstFlags = true := rfl

/-- The data of a sub-event. -/
theorem vstData_saves {id : Int} {a : Bytes} {d : VstData} (h : vstDataParse id a = .ok d) :
    ∃ c, vstDataBuild id d = .ok c ∧ c.length ≤ a.length + 6 := by
  unfold vstDataParse at h
  unfold vstDataBuild
  split at h
  · next e =>
    rw [if_pos e]
    obtain ⟨⟨rec, r⟩, p1, p2⟩ := map_ok h
    cases p2
    obtain ⟨b, q1, q2⟩ := optional_build ⟨0⟩ optional_midi p1
    exact ⟨b, q1, by simp [vstMidi] at q2; omega⟩
  · next e =>
    rw [if_neg e]
    split at h
    · next e =>
      rw [if_pos e]
      obtain ⟨⟨rec, r⟩, p1, p2⟩ := map_ok h
      cases p2
      obtain ⟨b, q1, q2⟩ := optional_build ⟨0⟩ optional_flags p1
      exact ⟨b, q1, by simp [vstFlags] at q2; omega⟩
    · next e =>
      rw [if_neg e]
      split at h
      · next e =>
        rw [if_pos e]
        obtain ⟨s, p1, p2⟩ := map_ok h
        cases p2
        exact ⟨a, utf8Encode_utf8Decode p1, by omega⟩
      · next e =>
        rw [if_neg e]
        cases h
        exact ⟨a, rfl, by omega⟩

omit [FloatEnv] in
theorem prefixedBuild_ok {A D : Py Bytes} {L : Bytes → Py Bytes} {a d l : Bytes} (h1 : A = .ok a) (h2 : D = .ok d) (h3 : L d = .ok l) :
    prefixedBuild A D L = .ok (a ++ l ++ d) := by
  unfold prefixedBuild
  rw [h1]; dsimp only; rw [h2]; dsimp only; rw [h3]

omit [FloatEnv] in
theorem fits_eight {n : Nat} (h : n < 2 ^ 63) : intFits 8 false (n : Int) = true := by
  simp only [intFits, Bool.false_eq_true, if_false, decide_eq_true_eq]
  constructor
  · omega
  · have : (256 ^ 8 : Nat) = 2 ^ 64 := by decide
    omega

/-- One sub-event. -/
theorem vstItem_saves {bs r : Bytes} {x : Int × VstData} (h : vstItemParse bs = .ok (x, r)) (hl : bs.length < 2 ^ 62) :
    ∃ b, vstItemBuild x = .ok b ∧ b.length + r.length ≤ bs.length + 6 ∧ 12 + r.length ≤ bs.length := by
  unfold vstItemParse at h
  split at h
  · cases h
  · next id m p1 =>
    split at h
    · cases h
    · next n m' p2 =>
      split at h
      · cases h
      · next p3 =>
        split at h
        · cases h
        · next d p4 =>
          cases h
          obtain ⟨pre, e1, b1⟩ := intBuild_intParse p1
          have s1 := intParse_size p1
          have s2 := intParse_size p2
          obtain ⟨c, q1, q2⟩ := vstData_saves p4
          rw [List.length_take, Nat.min_eq_left (by omega)] at q2
          obtain ⟨l, hl8⟩ := (intBuild_ok_iff (w := 8) (s := false) (v := (c.length : Int))).2 (fits_eight (by omega))
          refine ⟨pre ++ l ++ c, prefixedBuild_ok b1 q1 hl8, ?_, ?_⟩
          · have l1 := intBuild_length b1
            have l2 := intBuild_length hl8
            rw [List.length_append, List.length_append, List.length_drop, l1, l2]
            omega
          · rw [List.length_drop]; omega

theorem vstItems_save {bs r : Bytes} {xs : List (Int × VstData)} (h : Chunks vstItemParse bs xs r) (hl : bs.length < 2 ^ 62) :
    ∃ b, manyBuild vstItemBuild xs = .ok b ∧ b.length ≤ 2 * bs.length := by
  induction h with
  | stop h => exact ⟨[], rfl, by simp⟩
  | @step bs a r as r' h hl' t ih =>
    obtain ⟨b, q1, q2, q3⟩ := vstItem_saves h hl
    obtain ⟨c, p1, p2⟩ := ih (by omega)
    refine ⟨b ++ c, ?_, ?_⟩
    · simp only [manyBuild, q1, p1]
    · rw [List.length_append]; omega

omit [FloatEnv] in
theorem page_saves {bs r : Bytes} {pg : Page} (h : pageParse bs = .ok (pg, r)) :
    ∃ b, pageBuild pg = .ok b ∧ b.length + r.length ≤ bs.length := by
  obtain ⟨b, hb, -, -⟩ := page_roundtrip (pageParse_valid h)
  refine ⟨b, hb, ?_⟩
  unfold pageParse at h
  split at h
  · cases h
  · next i m p1 =>
    have s1 := intParse_size p1
    split at h
    · cases h
      simp only [pageBuild] at hb
      rw [intBuild_length hb]; omega
    · next hi =>
      split at h
      · cases h
      · next n m' p2 =>
        split at h
        · cases h
        · next p3 =>
          split at h
          · cases h
          · next s p4 =>
            cases h
            obtain ⟨pre, e, -⟩ := varParse_exact p2
            have hm := varBuild_minimal (pre := pre) (rest := m') (n := n) (by rw [← e]; exact p2)
            have hlen := congrArg List.length e
            rw [List.length_append] at hlen
            simp only [pageBuild] at hb
            split at hb
            · cases hb
            · next c hc =>
              rw [if_neg hi] at hb
              split at hb
              · cases hb
              · split at hb
                · cases hb
                · have hb := Except.ok.inj hb
                  rw [← hb]
                  simp only [List.length_append, List.length_replicate, List.length_drop, intBuild_length hc]
                  omega

omit [FloatEnv] in
theorem pages_save {bs r : Bytes} {xs : List Page} (h : Chunks pageParse bs xs r) :
    ∃ b, manyBuild pageBuild xs = .ok b ∧ b.length + r.length ≤ bs.length := by
  induction h with
  | stop h => exact ⟨[], rfl, by simp⟩
  | @step bs a r as r' h hl' t ih =>
    obtain ⟨b, q1, q2⟩ := page_saves h
    obtain ⟨c, p1, p2⟩ := ih
    refine ⟨b ++ c, ?_, ?_⟩
    · simp only [manyBuild, q1, p1]
    · rw [List.length_append]; omega

omit [FloatEnv] in
theorem rstripNul_length (s : PStr) : (rstripNul s).length ≤ s.length := by
  obtain ⟨k, hk⟩ := rstripNul_append s
  have := congrArg List.length hk
  rw [List.length_append] at this
  omega

omit [FloatEnv] in
theorem struct_fields_few (s : SName) : s.fields.length ≤ 64 := by
  cases s <;> decide

/-- What a class of events reads, it can write, in about the same space. -/
theorem kind_saves {k : Kind} {a : Bytes} {v : Value} (h : k.parse a = .ok v) (hl : a.length < 2 ^ 62) :
    ∃ b, k.build a.length v = .ok b ∧ b.length ≤ 2 * a.length + 64 := by
  have stable : settledPayload k a → (∀ b, k.build a.length v = .ok b → b.length ≤ 2 * a.length + 64) →
      ∃ b, k.build a.length v = .ok b ∧ b.length ≤ 2 * a.length + 64 := by
    intro hs hb
    obtain ⟨b, q, -, -⟩ := kind_stable h hs
    exact ⟨b, q, hb b q⟩
  cases k
  case bool | i8 | u8 | i16 | u16 | f32 | i32 | u32 | u16t | color =>
    refine stable trivial fun b hb => ?_
    have := build_width rfl hb
    omega
  case ascii =>
    refine stable trivial fun b hb => ?_
    simp only [Kind.parse] at h
    obtain ⟨s, h1, h2⟩ := map_ok h
    cases h2
    simp only [Kind.build] at hb
    have e1 := congrArg List.length (asciiEncode_map (asciiEncode_asciiDecode h1))
    have e2 := congrArg List.length (asciiEncode_map hb)
    have := rstripNul_length s
    simp only [List.length_map, List.length_append, List.length_cons, List.length_nil] at e1 e2
    omega
  case unicode =>
    refine stable trivial fun b hb => ?_
    simp only [Kind.parse] at h
    obtain ⟨s, h1, h2⟩ := map_ok h
    cases h2
    simp only [Kind.build] at hb
    have he := utf16Encode_utf16Decode h1
    have hsc := utf16Encode_ok_iff.1 ⟨_, he⟩
    obtain ⟨n, hn⟩ := rstripNul_append s
    obtain ⟨t, ht⟩ := utf16Encode_ok_iff.2 (show ∀ c ∈ rstripNul s, isScalar c from fun c hc => hsc c (by rw [hn]; simp [hc]))
    obtain ⟨u, hu⟩ := utf16Encode_ok_iff.2 (show ∀ c ∈ List.replicate n 0, isScalar c from fun c hc =>
      hsc c (by rw [hn]; exact List.mem_append_right _ hc))
    have h3 := utf16Encode_append ht hu
    rw [← hn, he] at h3
    have h4 := utf16Encode_append ht (show utf16Encode [0] = .ok [0, 0] by decide)
    rw [hb] at h4
    have e1 := congrArg List.length (Except.ok.inj h3)
    have e2 := congrArg List.length (Except.ok.inj h4)
    simp only [List.length_append, List.length_cons, List.length_nil] at e1 e2
    omega
  case unknown => cases h; exact ⟨a, rfl, by omega⟩
  case struct s =>
    simp only [Kind.parse] at h
    obtain ⟨⟨rec, r⟩, h1, h2⟩ := map_ok h
    cases h2
    rcases struct_sorts s with ho | ⟨n1, n2⟩
    · obtain ⟨b, q1, q2⟩ := optional_build _ ho h1
      have := struct_fields_few s
      exact ⟨b, q1, by omega⟩
    · obtain ⟨b, q1, q2, -⟩ := struct_stable _ h1 (settled_nonlossy _ h1 n1 (fun n hn => absurd rfl (n2 _ hn)))
      exact ⟨b, q1, by omega⟩
  case list l =>
    cases h
    obtain ⟨recs, g1, -, -, g4⟩ := greedy_parse ⟨a.length⟩ (itemSize_list l a.length) (l.size_pos _) a
    exact ⟨_, by simp only [Kind.build, g1]; exact g4, by rw [List.length_take]; omega⟩
  case routing =>
    cases h
    exact ⟨_, rfl, by simp only [List.length_map]; omega⟩
  case automation => exact ⟨a, kind_canon h trivial, by omega⟩
  case notebook =>
    refine stable trivial fun b hb => ?_
    simp only [Kind.parse, notebookParse] at h
    split at h
    · cases h
    · next h4 =>
      split at h
      · cases h
      · next page r h1 =>
        have s1 := intParse_size h1
        have hch := many_chunks pageParse r
        cases hm : manyParse pageParse r with
        | mk pages rest =>
          rw [hm] at h hch
          simp only at h hch
          obtain ⟨c, q1, q2⟩ := pages_save hch
          split at h
          · cases h
          · cases h
            simp only [Kind.build, notebookBuild] at hb
            split at hb
            · cases hb
            · split at hb
              · cases hb
              · next p hp =>
                rw [q1] at hb
                have hb := Except.ok.inj hb
                rw [← hb]
                rw [List.length_drop] at s1
                have := intBuild_length hp
                simp only [List.length_append, List.length_take, List.length_cons, List.length_nil] at q2 ⊢
                omega
  case vst =>
    simp only [Kind.parse, vstParse] at h
    split at h
    · cases h
    · split at h
      · cases h
      · next t r h1 =>
        cases h
        obtain ⟨pre, e1, e2⟩ := intBuild_intParse h1
        have s1 := intParse_size h1
        have hlen := intBuild_length e2
        obtain ⟨c, q1, q2⟩ := vstItems_save (many_chunks vstItemParse r) (by omega)
        refine ⟨pre ++ c, ?_, ?_⟩
        · simp only [Kind.build, vstBuild, e2, q1]
        · rw [List.length_append]; omega

end PyFLP
