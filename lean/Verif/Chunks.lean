import Verif.Errors
/-!
# What a successful parse says about the bytes
-/

namespace PyFLP

open Spec

theorem varParse_exact {bs rest : Bytes} {n : Nat} (h : varParse bs = .ok (n, rest)) :
    ∃ pre, bs = pre ++ rest ∧ varParse pre = .ok (n, []) := by
  induction bs generalizing n rest with
  | nil => cases h
  | cons b bs ih =>
    unfold varParse at h
    split at h
    · next hb => cases h; exact ⟨[b], rfl, by unfold varParse; rw [if_pos hb]⟩
    · next hb =>
      split at h
      · cases h
      · next heq =>
        cases h
        obtain ⟨pre, h1, h2⟩ := ih heq
        refine ⟨b :: pre, by rw [h1]; rfl, ?_⟩
        unfold varParse
        rw [if_neg hb, h2]

theorem readPayload_ok {id : Nat} {bs v r : Bytes} (h : readPayload id bs = .ok (v, r)) :
    ∃ pre n, bs = pre ++ (v ++ r) ∧ Announces id pre n ∧ (v.length = n ∨ (v.length < n ∧ r = [])) := by
  have key : ∀ (n : Nat) (l : Bytes), ((l.take n).length = n ∨ ((l.take n).length < n ∧ l.drop n = [])) := by
    intro n l
    rw [List.length_take]
    by_cases hc : n ≤ l.length
    · left; omega
    · right; exact ⟨by omega, List.drop_eq_nil_of_le (by omega)⟩
  unfold readPayload at h
  split at h
  · next h1 =>
    cases h
    exact ⟨[], 1, (List.take_append_drop 1 bs).symm, .inl ⟨h1, rfl, rfl⟩, key 1 bs⟩
  · split at h
    · next h1 h2 =>
      cases h
      exact ⟨[], 2, (List.take_append_drop 2 bs).symm, .inr (.inl ⟨by omega, h2, rfl, rfl⟩), key 2 bs⟩
    · split at h
      · next h1 h2 h3 =>
        cases h
        exact ⟨[], 4, (List.take_append_drop 4 bs).symm,
          .inr (.inr (.inl ⟨by omega, h3, rfl, rfl⟩)), key 4 bs⟩
      · split at h
        · cases h
        · next h1 h2 h3 _ n q hv =>
          split at h
          · cases h
          · next hn =>
            cases h
            obtain ⟨pre, hp, hpre⟩ := varParse_exact hv
            exact ⟨pre, n, by rw [List.take_append_drop]; exact hp,
              .inr (.inr (.inr ⟨by omega, hpre, by omega⟩)), key n q⟩

theorem readPayload_announces {id : Nat} {pre payload rest : Bytes} {n : Nat}
    (ha : Announces id pre n) (hn : payload.length = n ∨ (payload.length < n ∧ rest = [])) :
    readPayload id (pre ++ (payload ++ rest)) = .ok (payload, rest) := by
  have key : (payload ++ rest).take n = payload ∧ (payload ++ rest).drop n = rest := by
    rcases hn with hn | ⟨hn, rfl⟩
    · exact ⟨List.take_left' hn, List.drop_left' hn⟩
    · rw [List.append_nil]
      exact ⟨List.take_of_length_le (by omega), List.drop_eq_nil_of_le (by omega)⟩
  unfold readPayload
  rcases ha with ⟨h, rfl, rfl⟩ | ⟨h1, h2, rfl, rfl⟩ | ⟨h1, h2, rfl, rfl⟩ | ⟨h1, h2, h3⟩
  · rw [if_pos h, List.nil_append, key.1, key.2]
  · rw [if_neg (by omega), if_pos h2, List.nil_append, key.1, key.2]
  · rw [if_neg (by omega), if_neg (by omega), if_pos h2, List.nil_append, key.1, key.2]
  · rw [if_neg (by omega), if_neg (by omega), if_neg (by omega), varParse_append h2]
    dsimp only
    rw [if_neg (by omega), List.nil_append, key.1, key.2]

/-- There is only one way to split bytes into events. -/
theorem splits_unique {bs : Bytes} {fs gs : List (Nat × Bytes)} (h1 : Splits bs fs) (h2 : Splits bs gs) :
    fs = gs := by
  induction h1 generalizing gs with
  | nil => cases h2; rfl
  | @cons id pre payload rest n fs ha hn t ih =>
    generalize hb : id :: (pre ++ (payload ++ rest)) = bs at h2
    cases h2 with
    | nil => cases hb
    | @cons id' pre' payload' rest' n' fs' ha' hn' t' =>
      injection hb with e1 e2
      subst e1
      have r1 := readPayload_announces ha hn
      have r2 := readPayload_announces ha' hn'
      rw [e2, r2] at r1
      injection r1 with r1
      injection r1 with r3 r4
      subst r3 r4
      rw [ih t']

theorem announces_frame {f : Nat × Bytes} (hf : FrameOK f) :
    Announces f.1 (if f.1 < 192 then [] else varBuild f.2.length) f.2.length := by
  obtain ⟨hid, h1, h2, h3, h4⟩ := hf
  unfold Announces
  by_cases c1 : f.1 < 64
  · exact .inl ⟨c1, by rw [if_pos (by omega)], h1 c1⟩
  · by_cases c2 : f.1 < 128
    · exact .inr (.inl ⟨by omega, c2, by rw [if_pos (by omega)], h2 ⟨by omega, c2⟩⟩)
    · by_cases c3 : f.1 < 192
      · exact .inr (.inr (.inl ⟨by omega, c3, by rw [if_pos (by omega)], h3 ⟨by omega, c3⟩⟩))
      · refine .inr (.inr (.inr ⟨by omega, ?_, h4 (by omega)⟩))
        rw [if_neg c3]
        have := varParse_varBuild f.2.length []
        rwa [List.append_nil] at this

theorem splits_frames {fs : List (Nat × Bytes)} (hf : ∀ f ∈ fs, FrameOK f) : Splits (frames fs) fs := by
  induction fs with
  | nil => exact .nil
  | cons f fs ih =>
    have h := hf f (by simp)
    have := Splits.cons (id := UInt8.ofNat f.1) (payload := f.2)
      (by rw [toNat_ofNat_id h.1]; exact announces_frame h) (.inl rfl) (ih (fun x hx => hf x (by simp [hx])))
    rw [toNat_ofNat_id h.1] at this
    have e : frames (f :: fs) = UInt8.ofNat f.1 :: ((if f.1 < 192 then [] else varBuild f.2.length)
        ++ (f.2 ++ frames fs)) := by
      simp [frames, frame]
    rw [e]
    exact this

variable [FloatEnv]

theorem parseLoop_splits {es : List IdEnum} {st : PState} {bs : Bytes} {evs : List Event} :
    parseLoop es st bs = .ok evs ↔ ∃ fs st', Splits bs fs ∧ Runs es st fs evs st' := by
  constructor
  · intro h
    induction hn : bs.length using Nat.strongRecOn generalizing bs st evs with
    | ind n ih =>
      cases bs with
      | nil => rw [parseLoop_nil] at h; cases h; exact ⟨[], st, .nil, .nil⟩
      | cons b rest =>
        rw [parseLoop_cons] at h
        split at h
        · cases h
        · next v r h1 =>
          have hle := readPayload_le h1
          split at h
          · cases h
          · next ev st' h2 =>
            split at h
            · cases h
            · next evs' h3 =>
              cases h
              obtain ⟨fs, st'', hs, hr⟩ := ih r.length (by rw [← hn]; simp; omega) h3 rfl
              obtain ⟨pre, n, e, ha, hl⟩ := readPayload_ok h1
              refine ⟨(b.toNat, v) :: fs, st'', ?_, .cons h2 hr⟩
              rw [e]
              exact .cons ha hl hs
  · rintro ⟨fs, st', hs, hr⟩
    induction hs generalizing st evs with
    | nil => cases hr; exact parseLoop_nil _ _
    | cons ha hn t ih =>
      cases hr with
      | cons h1 h2 =>
        rw [parseLoop_cons, readPayload_announces ha hn]
        dsimp only at h1 ⊢
        rw [h1]
        dsimp only
        rw [ih h2]

/-- Each event of a run comes from its payload. -/
theorem runs_zip {es : List IdEnum} {st st' : PState} {fs : List (Nat × Bytes)} {evs : List Event}
    (h : Runs es st fs evs st') : evs.length = fs.length ∧
    ∀ x ∈ fs.zip evs, x.2.id = x.1.1 ∧ x.2.len = x.1.2.length ∧ x.2.kind.parse x.1.2 = .ok x.2.value ∧
      x.2.kind.allowed x.1.1 = true ∧ ∀ n, fixedSize x.1.1 = some n → x.1.2.length = n := by
  induction h with
  | nil => simp
  | cons h1 t ih =>
    obtain ⟨t', -, -, hm, -, -⟩ := stepEvent_ok h1
    obtain ⟨e1, -, e3, e4, e5, e6⟩ := mkEvent_ok hm
    refine ⟨by simp [ih.1], ?_⟩
    intro x hx
    rw [List.zip_cons_cons] at hx
    rcases List.mem_cons.1 hx with rfl | hx
    · exact ⟨e1, e3, e4, e5, e6⟩
    · exact ih.2 x hx

theorem runs_wellTyped {before : List Event} {st st' : PState} {fs : List (Nat × Bytes)}
    {evs : List Event} (hst : StateAt before st) (hid : ∀ f ∈ fs, f.1 < 256)
    (h : Runs enums st fs evs st') :
    ∀ pre e post, evs = pre ++ e :: post →
      e.id < 256 ∧ kindOf (before ++ pre) e.id = some e.kind ∧
      (e.id = 199 → ∃ s, e.value = .str s ∧ ∃ parts, intParts (pySplit 46 s) = some parts) := by
  induction h generalizing before with
  | nil =>
    intro pre e post he
    cases pre <;> simp at he
  | @cons st f ev st1 fs evs st2 h1 t ih =>
    intro pre e post he
    obtain ⟨s1, s2, s3⟩ := step_state hst h1
    obtain ⟨_, -, -, hm, -, -⟩ := stepEvent_ok h1
    have e1 := (mkEvent_ok hm).1
    cases pre with
    | nil =>
      simp only [List.nil_append, List.cons.injEq] at he
      obtain ⟨rfl, rfl⟩ := he
      rw [List.append_nil]
      refine ⟨by rw [e1]; exact hid f (by simp), by rw [e1]; exact s2, s3⟩
    | cons p pre =>
      simp only [List.cons_append, List.cons.injEq] at he
      obtain ⟨rfl, he⟩ := he
      have := ih s1 (fun x hx => hid x (by simp [hx])) pre e post he
      simpa using this

omit [FloatEnv] in
theorem splits_ids {bs : Bytes} {fs : List (Nat × Bytes)} (h : Splits bs fs) : ∀ f ∈ fs, f.1 < 256 := by
  induction h with
  | nil => simp
  | cons ha hn t ih =>
    intro f hf
    rcases List.mem_cons.1 hf with rfl | hf
    · exact u8_toNat_lt _
    · exact ih f hf

/-- Decomposition of a successful parse. -/
theorem parseFile_ok {bs : Bytes} {p : Project} (h : parseFile bs = .ok p) :
    ∃ f0 f1 c0 c1 p0 p1 s0 s1 s2 s3 data,
      bs = [70, 76, 104, 100, 6, 0, 0, 0, f0, f1, c0, c1, p0, p1, 70, 76, 100, 116, s0, s1, s2, s3]
        ++ data ∧
      p.format = sword f0 f1 ∧ p.format ∈ fileFormats ∧ p.channelCount = word c0 c1 ∧
      p.ppq = word p0 p1 ∧ p.ppq ∈ validPPQs ∧ data ≠ [] ∧
      dword s0 s1 s2 s3 = data.length ∧
      ∃ fs st', Splits data fs ∧ Runs enums ⟨none, none⟩ fs p.events st' := by
  unfold parseFile parseWith at h
  split at h
  · cases h
  · next hd hh =>
    split at h
    · cases h
    · next evs hl =>
      cases h
      obtain ⟨f0, f1, c0, c1, p0, p1, s0, s1, s2, s3, data, h1, h2, h3, h4, h5, rfl⟩ := parseHeader_ok hh
      subst h1
      exact ⟨f0, f1, c0, c1, p0, p1, s0, s1, s2, s3, data, rfl, rfl, h2, rfl, rfl, h3, h4, h5,
        parseLoop_splits.1 hl⟩

theorem parseFile_wellTyped {bs : Bytes} {p : Project} (h : parseFile bs = .ok p) :
    WellTyped p.events := by
  obtain ⟨_, _, _, _, _, _, _, _, _, _, data, -, -, -, -, -, -, -, -, fs, st', hs, hr⟩ := parseFile_ok h
  intro pre e post he
  have := runs_wellTyped stateAt_init (splits_ids hs) hr pre e post he
  simpa using this

/-- Pointwise payloads of a run, when every payload is reproduced. -/
theorem runs_pay {es : List IdEnum} {st st' : PState} {fs : List (Nat × Bytes)} {evs : List Event}
    (h : Runs es st fs evs st')
    (hc : ∀ x ∈ fs.zip evs, x.2.kind.build x.1.2.length x.2.value = .ok x.1.2) :
    evs.map Event.fr = fs ∧ ∀ e ∈ evs, e.payload = .ok e.pay := by
  induction h with
  | nil => simp
  | @cons st f ev st1 fs evs st2 h1 t ih =>
    obtain ⟨t', -, -, hm, -, -⟩ := stepEvent_ok h1
    obtain ⟨e1, -, e3, e4, e5, e6⟩ := mkEvent_ok hm
    obtain ⟨i1, i2⟩ := ih (fun x hx => hc x (by rw [List.zip_cons_cons]; exact List.mem_cons_of_mem _ hx))
    have hb := hc (f, ev) (by rw [List.zip_cons_cons]; simp)
    have hp : ev.payload = .ok f.2 := by
      unfold Event.payload
      rw [e3]; exact hb
    refine ⟨?_, ?_⟩
    · rw [List.map_cons, i1]
      unfold Event.fr
      rw [pay_eq hp, e1]
    · intro e he
      rcases List.mem_cons.1 he with rfl | he
      · rw [pay_eq hp]; exact hp
      · exact i2 e he

omit [FloatEnv] in
theorem build_word (a b : UInt8) : intBuild 2 false (word a b : Nat) = .ok [a, b] := by
  have ha := u8_toNat_lt a
  have hb := u8_toNat_lt b
  rw [intBuild_nat (w := 2) (by unfold word; omega)]
  have := leBytes_leNat [a, b]
  simp only [List.length_cons, List.length_nil, leNat] at this
  rw [← this]
  unfold word
  simp

omit [FloatEnv] in
theorem build_sword (a b : UInt8) : intBuild 2 true (sword a b) = .ok [a, b] := by
  have h : intParse 2 true [a, b] = .ok (sword a b, []) := by
    unfold intParse
    rw [if_neg (by simp)]
    simp only [if_true, List.take_succ_cons, List.take_zero, leNat, List.drop_succ_cons, List.drop_zero]
    congr 2
    unfold toSigned sword word
    by_cases hc : a.toNat + 256 * b.toNat < 32768
    · rw [if_pos hc, if_pos (by omega)]; omega
    · rw [if_neg hc, if_neg (by omega)]; omega
  have := intBuild_intParse h
  simpa using this

omit [FloatEnv] in
theorem leBytes_dword (a b c d : UInt8) : leBytes 4 (dword a b c d) = [a, b, c, d] := by
  have := leBytes_leNat [a, b, c, d]
  simp only [List.length_cons, List.length_nil, leNat] at this
  rw [← this]
  unfold dword
  congr 1
  omega

/-- Parsing then saving, when every payload is reproduced. -/
theorem save_parse {bs : Bytes} {p : Project} (h : parseFile bs = .ok p)
    {fs : List (Nat × Bytes)} (hfs : bs.drop 22 = frames fs) (hok : ∀ f ∈ fs, FrameOK f)
    (hc : p.channelCount = channelStarts p.events) (hpos : channelStarts p.events ≠ 0)
    (hcanon : ∀ x ∈ fs.zip p.events, canonPayload x.2.kind x.1.2) :
    saveBytes p = .ok bs := by
  obtain ⟨f0, f1, c0, c1, p0, p1, s0, s1, s2, s3, data, h1, h2, h3, h4, h5, h6, h7, h8, gs, st', hs, hr⟩ :=
    parseFile_ok h
  have hdata : data = frames fs := by
    rw [← hfs, h1]; rfl
  have hgs : gs = fs := by
    rw [hdata] at hs
    exact splits_unique hs (splits_frames hok)
  subst hgs
  obtain ⟨r1, r2⟩ := runs_zip hr
  obtain ⟨q1, q2⟩ := runs_pay hr (fun x hx => kind_canon (r2 x hx).2.2.1 (hcanon x hx))
  have hid : ∀ e ∈ p.events, e.id < 256 := by
    intro e he
    have : e.fr ∈ gs := by rw [← q1]; exact List.mem_map_of_mem he
    exact splits_ids hs _ this
  have hbody : eventsBytes p.events = .ok data := by
    rw [eventsBytes_eq (fun e he => ⟨hid e he, _, q2 e he⟩), q1, hdata]
  have hlen : channelLen p.events = .ok (word c0 c1) := by
    rw [channelLen_eq, if_neg hpos, ← hc, h4]
  unfold saveBytes
  rw [hlen, hbody]
  dsimp only
  have hpack : packHeader p.format (word c0 c1) p.ppq
      = .ok (magicHd ++ [6, 0, 0, 0] ++ [f0, f1] ++ [c0, c1] ++ [p0, p1]) := by
    unfold packHeader
    rw [h2, h5, build_sword, build_word, build_word]
  rw [hpack]
  dsimp only
  unfold assemble
  have hd := dword_lt s0 s1 s2 s3
  rw [if_pos (by omega), ← h8, leBytes_dword, h1]
  rfl

/-- After one parse and save, a further round changes nothing, when every
payload is settled. -/
theorem resave {bs file : Bytes} {p : Project} (h : parseFile bs = .ok p)
    {fs : List (Nat × Bytes)} (hfs : Splits (bs.drop 22) fs)
    (hset : ∀ x ∈ fs.zip p.events, settledPayload x.2.kind x.1.2) (hsave : saveBytes p = .ok file) :
    ∃ q, parseFile file = .ok q ∧ saveBytes q = .ok file ∧ q.format = p.format ∧ q.ppq = p.ppq ∧
      q.events = p.events.map Event.reread := by
  have hwt := parseFile_wellTyped h
  obtain ⟨f0, f1, c0, c1, p0, p1, s0, s1, s2, s3, data, h1, h2, h3, h4, h5, h6, h7, h8, gs, st', hs, hr⟩ :=
    parseFile_ok h
  have hgs : gs = fs := by
    rw [h1] at hfs
    exact splits_unique hs hfs
  subst hgs
  obtain ⟨r1, r2⟩ := runs_zip hr
  have hst : ∀ e ∈ p.events, e.stored := by
    intro e he
    obtain ⟨i, hi, hie⟩ := List.mem_iff_getElem.1 he
    have hx : (gs[i]'(by omega), p.events[i]) ∈ gs.zip p.events := by
      rw [List.mem_iff_getElem]
      exact ⟨i, by rw [List.length_zip]; omega, by rw [List.getElem_zip]⟩
    obtain ⟨-, q2, q3, -, -⟩ := r2 _ hx
    rw [hie] at q2 q3
    have := hset _ hx
    rw [hie] at this
    apply stored_of
    dsimp only at q2 q3 this
    rw [q2]
    exact kind_stable q3 this
  refine ⟨_, parse_save h3 h6 hwt hst hsave, save_reread hst hsave, rfl, rfl, rfl⟩

end PyFLP
