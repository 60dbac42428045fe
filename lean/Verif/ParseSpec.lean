import Verif.Chunks
/-!
# The parser meets its declarative specification
-/

namespace PyFLP

open Spec

theorem formats_eq : fileFormats = formats := rfl
theorem ppqs_eq : validPPQs = ppqs := rfl

variable [FloatEnv]

theorem decodesTo_of_step {before : List Event} {st st' : PState} {f : Nat × Bytes} {e : Event}
    (hst : StateAt before st) (h : stepEvent enums st f.1 f.2 = .ok (e, st')) :
    DecodesTo before f e ∧ StateAt (before ++ [e]) st' := by
  obtain ⟨s1, s2, s3⟩ := step_state hst h
  obtain ⟨_, -, -, hm, -, -⟩ := stepEvent_ok h
  obtain ⟨e1, -, e3, e4, e5, e6⟩ := mkEvent_ok hm
  refine ⟨⟨e1, e3, s2, e4, ?_, ?_, ?_, ?_⟩, s1⟩
  · intro h; exact e6 1 (by unfold fixedSize; rw [if_pos h])
  · intro h1 h2; exact e6 2 (by unfold fixedSize; rw [if_neg (by omega), if_pos h2])
  · intro h1 h2
    exact e6 4 (by unfold fixedSize; rw [if_neg (by omega), if_neg (by omega), if_pos h2])
  · intro h; exact s3 (by rw [e1]; exact h)

theorem step_of_decodesTo {before : List Event} {st : PState} {f : Nat × Bytes} {e : Event}
    (hst : StateAt before st) (hid : f.1 < 256) (h : DecodesTo before f e) :
    ∃ st', stepEvent enums st f.1 f.2 = .ok (e, st') ∧ StateAt (before ++ [e]) st' := by
  obtain ⟨e1, e2, hk, hv, z1, z2, z3, hver⟩ := h
  have hres : resolve enums st f.1 = .ok e.kind := (resolve_kindOf hst).2 hk
  have hstr : okStr st.strType := by rw [hst.1]; exact okStr_textKind before
  obtain ⟨ha, hw⟩ := resolve_facts hid hstr hres
  have hmk : mkEvent e.kind f.1 f.2 = .ok e := by
    rw [mkEvent_eq ha ?_ hv]
    · cases e; simp only at e1 e2; subst e1 e2; rfl
    · intro n hn
      unfold fixedSize at hn
      split at hn
      · next h => cases hn; exact z1 h
      · split at hn
        · next h1 h2 => cases hn; exact z2 (by omega) h2
        · split at hn
          · next h1 h2 h3 => cases hn; exact z3 (by omega) h3
          · cases hn
  have hnext : ∃ t, nextStrType st f.1 f.2 = .ok t ∧ (f.1 = 199 ∨ t = st.strType) := by
    unfold nextStrType
    by_cases h199 : f.1 = 199
    · obtain ⟨s, hs1, parts, hp⟩ := hver h199
      have hasc : e.kind = .ascii := by
        unfold kindOf at hk; rw [h199, enum_199] at hk; exact (Option.some.inj hk).symm
      rw [hasc, hs1] at hv
      simp only [Kind.parse] at hv
      obtain ⟨s0, p1, p2⟩ := map_ok hv
      have e2 : rstripNul s0 = s := by injection p2
      rw [if_pos h199, p1]
      dsimp only
      rw [e2, versionKind_eq.2 ⟨parts, hp, rfl⟩]
      exact ⟨_, rfl, .inl h199⟩
    · rw [if_neg h199]
      exact ⟨_, rfl, .inr rfl⟩
  obtain ⟨t, ht, hor⟩ := hnext
  have hres' : resolve enums ⟨st.plugName, t⟩ f.1 = .ok e.kind := by
    rw [← hres]
    exact resolve_199 (st := st) (st' := ⟨st.plugName, t⟩) hor rfl
  have hstep : ∃ st', stepEvent enums st f.1 f.2 = .ok (e, st') := by
    unfold stepEvent
    rw [ht]
    dsimp only
    rw [hres']
    dsimp only
    rw [hmk]
    exact ⟨_, rfl⟩
  obtain ⟨st', hst'⟩ := hstep
  exact ⟨st', hst', (step_state hst hst').1⟩

theorem runs_iff_decoded {before : List Event} {st : PState} {fs : List (Nat × Bytes)} {evs : List Event}
    (hst : StateAt before st) (hid : ∀ f ∈ fs, f.1 < 256) :
    (∃ st', Runs enums st fs evs st') ↔ Decoded before fs evs := by
  constructor
  · rintro ⟨st', h⟩
    induction h generalizing before with
    | nil => exact .nil
    | cons h1 t ih =>
      obtain ⟨d, s⟩ := decodesTo_of_step hst h1
      exact .cons d (ih s (fun x hx => hid x (by simp [hx])))
  · intro h
    induction h generalizing st with
    | nil => exact ⟨st, .nil⟩
    | cons d t ih =>
      obtain ⟨st1, h1, h2⟩ := step_of_decodesTo hst (hid _ (by simp)) d
      obtain ⟨st2, h3⟩ := ih h2 (fun x hx => hid x (by simp [hx]))
      exact ⟨st2, .cons h1 h3⟩

theorem decoded_length {before fs evs} (h : Decoded before fs evs) : evs.length = fs.length := by
  induction h with
  | nil => rfl
  | cons _ _ ih => simp [ih]

theorem decoded_mem {before fs evs} (h : Decoded before fs evs) {e : Event} (he : e ∈ evs) :
    ∃ f ∈ fs, e.id = f.1 := by
  induction h with
  | nil => cases he
  | cons d t ih =>
    rcases List.mem_cons.1 he with rfl | he
    · exact ⟨_, by simp, d.id⟩
    · obtain ⟨f, hf, h⟩ := ih he
      exact ⟨f, by simp [hf], h⟩

/-- Decoding at a position. -/
theorem decoded_split {before fs evs} (h : Decoded before fs evs) {pre post : List Event} {e : Event}
    (he : evs = pre ++ e :: post) :
    ∃ fs1 f fs2, fs = fs1 ++ f :: fs2 ∧ Decoded before fs1 pre ∧ DecodesTo (before ++ pre) f e := by
  induction h generalizing pre with
  | nil => cases pre <;> simp at he
  | @cons before f e' fs evs d t ih =>
    cases pre with
    | nil =>
      simp only [List.nil_append, List.cons.injEq] at he
      obtain ⟨rfl, rfl⟩ := he
      exact ⟨[], f, fs, rfl, .nil, by rwa [List.append_nil]⟩
    | cons p pre =>
      simp only [List.cons_append, List.cons.injEq] at he
      obtain ⟨rfl, he⟩ := he
      obtain ⟨fs1, g, fs2, h1, h2, h3⟩ := ih he
      refine ⟨f :: fs1, g, fs2, by rw [h1]; rfl, .cons d h2, ?_⟩
      simpa using h3

/-- The whole parser. -/
theorem parse_iff {file : Bytes} {p : Project} : parseFile file = .ok p ↔
    ∃ f0 f1 c0 c1 p0 p1 s0 s1 s2 s3 data,
      file = [70, 76, 104, 100, 6, 0, 0, 0, f0, f1, c0, c1, p0, p1, 70, 76, 100, 116, s0, s1, s2, s3]
        ++ data ∧
      sword f0 f1 ∈ formats ∧ word p0 p1 ∈ ppqs ∧ data ≠ [] ∧ dword s0 s1 s2 s3 = data.length ∧
      p.format = sword f0 f1 ∧ p.channelCount = word c0 c1 ∧ p.ppq = word p0 p1 ∧
      ∃ fs, Splits data fs ∧ Decoded [] fs p.events := by
  constructor
  · intro h
    obtain ⟨f0, f1, c0, c1, p0, p1, s0, s1, s2, s3, data, h1, h2, h3, h4, h5, h6, h7, h8, fs, st', hs, hr⟩ :=
      parseFile_ok h
    exact ⟨f0, f1, c0, c1, p0, p1, s0, s1, s2, s3, data, h1, h2 ▸ h3, h5 ▸ h6, h7, h8, h2, h4, h5,
      fs, hs, (runs_iff_decoded stateAt_init (splits_ids hs)).1 ⟨st', hr⟩⟩
  · rintro ⟨f0, f1, c0, c1, p0, p1, s0, s1, s2, s3, data, h1, h2, h3, h4, h5, h6, h7, h8, fs, hs, hd⟩
    have hhdr := parseHeader_layout f0 f1 c0 c1 p0 p1 s0 s1 s2 s3 data h2 h3 h4 h5
    obtain ⟨st', hr⟩ := (runs_iff_decoded stateAt_init (splits_ids hs)).2 hd
    unfold parseFile parseWith
    rw [h1, hhdr]
    dsimp only
    rw [show List.drop 22 ([70, 76, 104, 100, 6, 0, 0, 0, f0, f1, c0, c1, p0, p1, 70, 76, 100, 116,
      s0, s1, s2, s3] ++ data) = data from rfl, parseLoop_splits.2 ⟨fs, st', hs, hr⟩]
    cases p
    simp only at h6 h7 h8
    subst h6 h7 h8
    rfl

/-- The parser refuses a text event that precedes every version event. -/
theorem parse_versionless {file : Bytes} (hh : HeaderOK file) {fs : List (Nat × Bytes)}
    {f : Nat × Bytes} {rest : Bytes} (hd : file.drop 22 = frames fs ++ frame f ++ rest)
    (hok : ∀ g ∈ fs, FrameOK g) (hf : FrameOK f) {evs : List Event} (hdec : Decoded [] fs evs)
    (hv : ∀ g ∈ fs, g.1 ≠ 199) (ht : untypedText f.1) :
    parseFile file = .error .versionNotDetected := by
  obtain ⟨f0, f1, c0, c1, p0, p1, s0, s1, s2, s3, data, h1, h2, h3, h4, h5⟩ := hh
  have hhdr := parseHeader_layout f0 f1 c0 c1 p0 p1 s0 s1 s2 s3 data h2 h3 h4 h5
  have key : ∀ (fs : List (Nat × Bytes)) (before evs : List Event) (st : PState), StateAt before st →
      (∀ g ∈ fs, FrameOK g) → (∀ g ∈ fs, g.1 ≠ 199) → (∀ e ∈ before, e.id ≠ 199) →
      Decoded before fs evs →
      parseLoop enums st (frames fs ++ frame f ++ rest) = .error .versionNotDetected := by
    intro fs
    induction fs with
    | nil =>
      intro before evs st hst _ _ hb _
      rw [show frames [] ++ frame f ++ rest = frame f ++ rest by simp [frames], parseLoop_frame _ _ hf]
      have hne : f.1 ≠ 199 := by
        intro h
        have := ht.1
        rw [h, enum_199] at this
        cases this
      have hlast : lastStr 199 before = none := by
        unfold lastStr
        rw [List.filter_eq_nil_iff.2 (by intro e he; simpa using hb e he)]
        rfl
      have hres : resolve enums ⟨st.plugName, st.strType⟩ f.1 = .error .versionNotDetected := by
        unfold resolve
        rw [ht.1, hst.1]
        have htk : textKind before = none := by unfold textKind; rw [hlast]
        dsimp only
        have h5 := ht.2
        rw [if_neg (by omega), if_neg (by omega), if_neg (by omega), if_pos (by simp [newTextIds]; omega), htk]
      have hstep : stepEvent enums st f.1 f.2 = .error .versionNotDetected := by
        unfold stepEvent nextStrType
        rw [if_neg hne]
        dsimp only
        rw [hres]
      rw [hstep]
    | cons g fs ih =>
      intro before evs st hst hg hv hb hdec
      rw [show frames (g :: fs) ++ frame f ++ rest = frame g ++ (frames fs ++ frame f ++ rest) by
        simp [frames], parseLoop_frame _ _ (hg g (by simp))]
      cases hdec with
      | @cons _ _ e _ evs d t =>
        obtain ⟨st1, q1, q2⟩ := step_of_decodesTo hst (hg g (by simp)).1 d
        rw [q1]
        dsimp only
        rw [ih (before ++ [e]) evs st1 q2 (fun x hx => hg x (by simp [hx])) (fun x hx => hv x (by simp [hx]))
          (by
            intro x hx
            rcases List.mem_append.1 hx with hx | hx
            · exact hb x hx
            · rw [List.mem_singleton.1 hx, d.id]; exact hv g (by simp)) t]
  unfold parseFile parseWith
  rw [h1, hhdr]
  dsimp only
  rw [h1, show List.drop 22 ([70, 76, 104, 100, 6, 0, 0, 0, f0, f1, c0, c1, p0, p1, 70, 76, 100, 116,
      s0, s1, s2, s3] ++ data) = data from rfl] at hd
  rw [show List.drop 22 ([70, 76, 104, 100, 6, 0, 0, 0, f0, f1, c0, c1, p0, p1, 70, 76, 100, 116,
      s0, s1, s2, s3] ++ data) = data from rfl, hd,
    key fs [] evs ⟨none, none⟩ stateAt_init hok hv (by simp) hdec]

/-! ### Registration order -/

omit [FloatEnv] in
theorem enumType_not_mem {es : List IdEnum} {id : Nat} (h : ∀ e ∈ es, e.find? (fun m => m.1 == id) = none) :
    enumType es id = none := by
  induction es with
  | nil => rfl
  | cons e es ih =>
    unfold enumType
    rw [h e (by simp)]
    exact ih (fun x hx => h x (by simp [hx]))

omit [FloatEnv] in
theorem enumType_mem {es : List IdEnum} {id : Nat} {e : IdEnum} {m : Nat × Option Kind} (he : e ∈ es)
    (hf : e.find? (fun m => m.1 == id) = some m)
    (hu : ∀ e' ∈ es, e' ≠ e → e'.find? (fun m => m.1 == id) = none) : enumType es id = m.2 := by
  induction es with
  | nil => cases he
  | cons e' es ih =>
    unfold enumType
    by_cases hee : e' = e
    · subst hee; rw [hf]
    · rw [hu e' (by simp) hee]
      exact ih (by rcases List.mem_cons.1 he with h | h; exact absurd h.symm hee; exact h)
        (fun x hx => hu x (by simp [hx]))

omit [FloatEnv] in
theorem enums_disjoint : ∀ id : Fin 256, ∀ e ∈ enums, ∀ e' ∈ enums,
    (e.find? (fun m => m.1 == id.val)).isSome → (e'.find? (fun m => m.1 == id.val)).isSome → e = e' := by
  decide +kernel

omit [FloatEnv] in
theorem enums_small : ∀ e ∈ enums, ∀ m ∈ e, m.1 < 256 := by decide +kernel

omit [FloatEnv] in
theorem enumType_perm {es : List IdEnum} (h : es.Perm enums) (id : Nat) : enumType es id = enumType enums id := by
  have hdis : ∀ e ∈ enums, ∀ e' ∈ enums,
      (e.find? (fun m => m.1 == id)).isSome → (e'.find? (fun m => m.1 == id)).isSome → e = e' := by
    intro e he e' he' h1 h2
    have hid : id < 256 := by
      obtain ⟨m, hm⟩ := Option.isSome_iff_exists.1 h1
      have := enums_small e he m (List.mem_of_find?_eq_some hm)
      have h3 := List.find?_some hm
      simp at h3
      omega
    exact enums_disjoint ⟨id, hid⟩ e he e' he' h1 h2
  by_cases hex : ∃ e ∈ enums, (e.find? (fun m => m.1 == id)).isSome
  · obtain ⟨e, he, hs⟩ := hex
    obtain ⟨m, hm⟩ := Option.isSome_iff_exists.1 hs
    have hu : ∀ e' ∈ enums, e' ≠ e → e'.find? (fun m => m.1 == id) = none := by
      intro e' he' hne
      cases hc : e'.find? (fun m => m.1 == id) with
      | none => rfl
      | some x => exact absurd (hdis e' he' e he (by rw [hc]; rfl) hs) hne
    rw [enumType_mem he hm hu, enumType_mem (h.mem_iff.2 he) hm (fun x hx => hu x (h.mem_iff.1 hx))]
  · have hn : ∀ e ∈ enums, e.find? (fun m => m.1 == id) = none := by
      intro e he
      cases hc : e.find? (fun m => m.1 == id) with
      | none => rfl
      | some x => exact absurd ⟨e, he, by rw [hc]; rfl⟩ hex
    rw [enumType_not_mem hn, enumType_not_mem (fun x hx => hn x (h.mem_iff.1 hx))]

theorem parseWith_enumType {es es' : List IdEnum} (h : ∀ id, enumType es id = enumType es' id) :
    parseWith es = parseWith es' := by
  have hr : ∀ st id, resolve es st id = resolve es' st id := by
    intro st id; unfold resolve; rw [h]
  have hn : ∀ st ev, nextPlugName es st ev = nextPlugName es' st ev := by
    intro st ev; unfold nextPlugName; rw [h]
  have hs : ∀ st id v, stepEvent es st id v = stepEvent es' st id v := by
    intro st id v
    unfold stepEvent
    simp only [hr, hn]
  have hl : ∀ n bs st, bs.length = n → parseLoop es st bs = parseLoop es' st bs := by
    intro n
    induction n using Nat.strongRecOn with
    | ind n ih =>
      intro bs st hn
      cases bs with
      | nil => rw [parseLoop_nil, parseLoop_nil]
      | cons b rest =>
        rw [parseLoop_cons, parseLoop_cons]
        cases hp : readPayload b.toNat rest with
        | error e => rfl
        | ok x =>
          obtain ⟨v, r⟩ := x
          have hle := readPayload_le hp
          dsimp only
          rw [hs]
          cases hq : stepEvent es' st b.toNat v with
          | error e => rfl
          | ok y =>
            obtain ⟨ev, st'⟩ := y
            dsimp only
            rw [ih r.length (by simp at hn; omega) r st' rfl]
  funext bs
  unfold parseWith
  cases parseHeader bs with
  | error e => rfl
  | ok hd => dsimp only; rw [hl _ _ _ rfl]

end PyFLP
