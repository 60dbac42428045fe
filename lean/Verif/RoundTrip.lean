import Verif.FileLemmas
/-!
# Saving and parsing whole files
-/

namespace PyFLP

open Spec

/-! ### Headers -/

theorem parseHeader_ok {bs : Bytes} {h : Header} (hp : parseHeader bs = .ok h) :
    ∃ f0 f1 c0 c1 p0 p1 s0 s1 s2 s3 data,
      bs = [70, 76, 104, 100, 6, 0, 0, 0, f0, f1, c0, c1, p0, p1, 70, 76, 100, 116, s0, s1, s2, s3]
        ++ data ∧
      sword f0 f1 ∈ fileFormats ∧ word p0 p1 ∈ validPPQs ∧ data ≠ [] ∧
      dword s0 s1 s2 s3 = data.length ∧ h = ⟨sword f0 f1, word c0 c1, word p0 p1⟩ := by
  have key : ∀ bs : Bytes, 14 ≤ bs.length → ∃ a0 a1 a2 a3 b0 b1 b2 b3 f0 f1 c0 c1 p0 p1 t,
      bs = a0 :: a1 :: a2 :: a3 :: b0 :: b1 :: b2 :: b3 :: f0 :: f1 :: c0 :: c1 :: p0 :: p1 :: t := by
    intro bs h
    match bs, h with
    | a0 :: a1 :: a2 :: a3 :: b0 :: b1 :: b2 :: b3 :: f0 :: f1 :: c0 :: c1 :: p0 :: p1 :: t, _ =>
      exact ⟨a0, a1, a2, a3, b0, b1, b2, b3, f0, f1, c0, c1, p0, p1, t, rfl⟩
  unfold parseHeader at hp
  split at hp
  · cases hp
  · next hlen =>
    obtain ⟨a0, a1, a2, a3, b0, b1, b2, b3, f0, f1, c0, c1, p0, p1, t, rfl⟩ := key bs (by omega)
    split at hp
    · cases hp
    · next hm =>
      split at hp
      · cases hp
      · next h6 =>
        simp only at hp
        split at hp
        · cases hp
        · next hf =>
          split at hp
          · cases hp
          · next hq =>
            split at hp
            · cases hp
            · next hd =>
              split at hp
              · cases hp
              · next hz =>
                split at hp
                · cases hp
                · next hl =>
                  cases hp
                  simp only [List.take_succ_cons, List.take_zero, List.drop_succ_cons, List.drop_zero,
                    magicHd, Classical.not_not, List.cons.injEq, and_true] at *
                  have ht : ∃ d0 d1 d2 d3 s0 s1 s2 s3 data,
                      t = d0 :: d1 :: d2 :: d3 :: s0 :: s1 :: s2 :: s3 :: data := by
                    match t with
                    | d0 :: d1 :: d2 :: d3 :: s0 :: s1 :: s2 :: s3 :: data =>
                      exact ⟨d0, d1, d2, d3, s0, s1, s2, s3, data, rfl⟩
                    | [] | [_] | [_, _] | [_, _, _] | [_, _, _, _] | [_, _, _, _, _]
                    | [_, _, _, _, _, _] | [_, _, _, _, _, _, _] =>
                      exfalso; simp at hl
                  obtain ⟨d0, d1, d2, d3, s0, s1, s2, s3, data, rfl⟩ := ht
                  simp only [List.take_succ_cons, List.take_zero, List.drop_succ_cons, List.drop_zero,
                    magicDt, List.cons.injEq, and_true, leNat, List.length_cons] at *
                  obtain ⟨rfl, rfl, rfl, rfl⟩ := hm
                  obtain ⟨rfl, rfl, rfl, rfl⟩ := hd
                  have hb0 := u8_toNat_lt b0
                  have hb1 := u8_toNat_lt b1
                  have hb2 := u8_toNat_lt b2
                  have hb3 := u8_toNat_lt b3
                  have e0 : b0 = 6 := u8_eq_of_toNat (by rw [show (6 : UInt8).toNat = 6 from rfl]; omega)
                  have e1 : b1 = 0 := u8_eq_of_toNat (by rw [show (0 : UInt8).toNat = 0 from rfl]; omega)
                  have e2 : b2 = 0 := u8_eq_of_toNat (by rw [show (0 : UInt8).toNat = 0 from rfl]; omega)
                  have e3 : b3 = 0 := u8_eq_of_toNat (by rw [show (0 : UInt8).toNat = 0 from rfl]; omega)
                  subst e0 e1 e2 e3
                  have es : toSigned 2 (f0.toNat + 256 * (f1.toNat + 256 * 0)) = sword f0 f1 := by
                    unfold toSigned sword word
                    by_cases hc : f0.toNat + 256 * f1.toNat < 32768
                    · rw [if_pos hc, if_pos (by omega)]; omega
                    · rw [if_neg hc, if_neg (by omega)]; omega
                  refine ⟨f0, f1, c0, c1, p0, p1, s0, s1, s2, s3, data, rfl, ?_, ?_, ?_, ?_, ?_⟩
                  · rw [← es]; exact hf
                  · rw [show word p0 p1 = p0.toNat + 256 * (p1.toNat + 256 * 0) by unfold word; omega]
                    exact hq
                  · rintro rfl; simp at hl; omega
                  · unfold dword; omega
                  · rw [es]; simp [word]

theorem parseHeader_layout (f0 f1 c0 c1 p0 p1 s0 s1 s2 s3 : UInt8) (data : Bytes)
    (hf : sword f0 f1 ∈ fileFormats) (hq : word p0 p1 ∈ validPPQs) (hd : data ≠ [])
    (hl : dword s0 s1 s2 s3 = data.length) :
    parseHeader ([70, 76, 104, 100, 6, 0, 0, 0, f0, f1, c0, c1, p0, p1, 70, 76, 100, 116, s0, s1, s2, s3]
        ++ data) = .ok ⟨sword f0 f1, word c0 c1, word p0 p1⟩ := by
  have es : toSigned 2 (f0.toNat + 256 * (f1.toNat + 256 * 0)) = sword f0 f1 := by
    unfold toSigned sword word
    by_cases hc : f0.toNat + 256 * f1.toNat < 32768
    · rw [if_pos hc, if_pos (by omega)]; omega
    · rw [if_neg hc, if_neg (by omega)]; omega
  have ep : p0.toNat + 256 * (p1.toNat + 256 * 0) = word p0 p1 := by unfold word; omega
  have ec : c0.toNat + 256 * (c1.toNat + 256 * 0) = word c0 c1 := by unfold word; omega
  have ed : s0.toNat + 256 * (s1.toNat + 256 * (s2.toNat + 256 * (s3.toNat + 256 * 0)))
    = data.length := by rw [← hl]; unfold dword; omega
  have hpos : data.length ≠ 0 := fun h => hd (List.length_eq_zero_iff.1 h)
  unfold parseHeader
  simp only [List.cons_append, List.nil_append, List.take_succ_cons, List.take_zero,
    List.drop_succ_cons, List.drop_zero, magicHd, magicDt, leNat, List.length_cons, es, ep, ec, ed]
  rw [if_neg (by omega), if_neg (by simp), if_neg (by decide), if_neg (by simpa using hf),
    if_neg (by simpa using hq), if_neg (by simp), if_neg hpos, if_neg (by simp)]

theorem word_leBytes {n : Nat} (h : n < 65536) :
    ∃ a b, leBytes 2 n = [a, b] ∧ word a b = n := by
  refine ⟨_, _, rfl, ?_⟩
  unfold word
  rw [u8_ofNat_toNat (by omega), u8_ofNat_toNat (by omega)]
  omega

theorem dword_leBytes {n : Nat} (h : n < 2 ^ 32) :
    ∃ a b c d, leBytes 4 n = [a, b, c, d] ∧ dword a b c d = n := by
  refine ⟨_, _, _, _, rfl, ?_⟩
  unfold dword
  rw [u8_ofNat_toNat (by omega), u8_ofNat_toNat (by omega), u8_ofNat_toNat (by omega),
    u8_ofNat_toNat (by omega)]
  omega

theorem sword_build {i : Int} {b : Bytes} (h : intBuild 2 true i = .ok b) :
    ∃ x y, b = [x, y] ∧ sword x y = i := by
  have hl := intBuild_length h
  match b, hl with
  | [x, y], _ =>
    refine ⟨x, y, rfl, ?_⟩
    have := intParse_intBuild h []
    unfold intParse at this
    simp only [List.append_nil, List.length_cons, List.length_nil] at this
    rw [if_neg (by omega)] at this
    simp only [if_true, List.take_succ_cons, List.take_zero, leNat, Except.ok.injEq, Prod.mk.injEq] at this
    rw [← this.1]
    unfold toSigned sword word
    by_cases hc : x.toNat + 256 * y.toNat < 32768
    · rw [if_pos hc, if_pos (by omega)]; omega
    · rw [if_neg hc, if_neg (by omega)]; omega

theorem word_build {n : Nat} {b : Bytes} (h : intBuild 2 false n = .ok b) :
    ∃ x y, b = [x, y] ∧ word x y = n := by
  have hl := intBuild_length h
  match b, hl with
  | [x, y], _ =>
    refine ⟨x, y, rfl, ?_⟩
    have := intParse_intBuild h []
    unfold intParse at this
    simp only [List.append_nil, List.length_cons, List.length_nil] at this
    rw [if_neg (by omega)] at this
    simp only [Bool.false_eq_true, if_false, List.take_succ_cons, List.take_zero, leNat, Except.ok.injEq, Prod.mk.injEq] at this
    unfold word
    omega

/-- The saved header, byte by byte. -/
theorem packHeader_ok {fmt : Int} {n ppq : Nat} {hdr : Bytes} (h : packHeader fmt n ppq = .ok hdr) :
    ∃ f0 f1 c0 c1 p0 p1, hdr = [70, 76, 104, 100, 6, 0, 0, 0, f0, f1, c0, c1, p0, p1] ∧
      sword f0 f1 = fmt ∧ word c0 c1 = n ∧ word p0 p1 = ppq := by
  unfold packHeader at h
  split at h
  · next f c p h1 h2 h3 =>
    cases h
    obtain ⟨f0, f1, rfl, hf⟩ := sword_build h1
    obtain ⟨c0, c1, rfl, hc⟩ := word_build h2
    obtain ⟨p0, p1, rfl, hp⟩ := word_build h3
    exact ⟨f0, f1, c0, c1, p0, p1, rfl, hf, hc, hp⟩
  · cases h

theorem assemble_ok {hdr body file : Bytes} (h : assemble hdr body = .ok file) :
    ∃ s0 s1 s2 s3, file = hdr ++ [70, 76, 100, 116, s0, s1, s2, s3] ++ body ∧
      dword s0 s1 s2 s3 = body.length := by
  unfold assemble at h
  split at h
  · next hl =>
    cases h
    obtain ⟨a, b, c, d, h1, h2⟩ := dword_leBytes hl
    refine ⟨a, b, c, d, ?_, h2⟩
    rw [h1]; simp [magicDt]
  · cases h

/-! ### Event bytes -/

variable [FloatEnv]

/-- The payload of an event that can be serialised. -/
def Event.pay (e : Event) : Bytes :=
  match e.payload with
  | .ok b => b
  | .error _ => []

/-- The frame of an event. -/
def Event.fr (e : Event) : Nat × Bytes := (e.id, e.pay)

theorem pay_eq {e : Event} {b : Bytes} (h : e.payload = .ok b) : e.pay = b := by
  unfold Event.pay; rw [h]

theorem toBytes_eq {e : Event} {b : Bytes} (hid : e.id < 256) (h : e.payload = .ok b) :
    e.toBytes = .ok (frame e.fr) := by
  unfold Event.toBytes
  rw [intBuild_nat (w := 1) (by simpa using hid)]
  dsimp only
  rw [h]
  dsimp only
  unfold frame Event.fr
  rw [pay_eq h]
  have : leBytes 1 e.id = [UInt8.ofNat e.id] := by
    simp [leBytes, Nat.mod_eq_of_lt hid]
  rw [this]
  by_cases hc : e.id < 192
  · simp [hc]
  · simp [hc]

theorem toBytes_ok {e : Event} {b : Bytes} (h : e.toBytes = .ok b) :
    e.id < 256 ∧ e.payload = .ok e.pay ∧ b = frame e.fr := by
  have h0 := h
  unfold Event.toBytes at h
  split at h
  · cases h
  · next i hi =>
    split at h
    · cases h
    · next data hd =>
      have hid : e.id < 256 := by
        have := (intBuild_ok_iff).1 ⟨i, hi⟩
        unfold intFits at this
        simp at this
        omega
      refine ⟨hid, by rw [pay_eq hd]; exact hd, ?_⟩
      have := toBytes_eq hid hd
      rw [this] at h0
      exact (Except.ok.inj h0).symm

omit [FloatEnv] in
theorem seqBuild_inv {a b : Py Bytes} {z : Bytes} (h : seqBuild a b = .ok z) :
    ∃ x y, a = .ok x ∧ b = .ok y ∧ z = x ++ y := by
  cases a <;> cases b <;> simp only [seqBuild, reduceCtorEq] at h
  cases h
  exact ⟨_, _, rfl, rfl, rfl⟩

theorem eventsBytes_ok {evs : List Event} {body : Bytes} (h : eventsBytes evs = .ok body) :
    (∀ e ∈ evs, e.id < 256 ∧ e.payload = .ok e.pay) ∧ body = frames (evs.map Event.fr) := by
  induction evs generalizing body with
  | nil => cases h; exact ⟨by simp, rfl⟩
  | cons e evs ih =>
    obtain ⟨b, bs, hb, hbs, rfl⟩ := seqBuild_inv h
    obtain ⟨h1, h2⟩ := ih hbs
    obtain ⟨h3, h4, h5⟩ := toBytes_ok hb
    refine ⟨?_, ?_⟩
    · intro e' he'
      rcases List.mem_cons.1 he' with rfl | he'
      · exact ⟨h3, h4⟩
      · exact h1 e' he'
    · rw [h5, h2]; simp [frames]

theorem eventsBytes_eq {evs : List Event} (h : ∀ e ∈ evs, e.id < 256 ∧ ∃ b, e.payload = .ok b) :
    eventsBytes evs = .ok (frames (evs.map Event.fr)) := by
  induction evs with
  | nil => rfl
  | cons e evs ih =>
    obtain ⟨h1, b, h2⟩ := h e (by simp)
    have := seqBuild_ok (toBytes_eq h1 h2) (ih (fun e' he' => h e' (by simp [he'])))
    rw [show frames ((e :: evs).map Event.fr) = frame e.fr ++ frames (evs.map Event.fr) by simp [frames]]
    exact this

omit [FloatEnv] in
theorem frame_length_ge (f : Nat × Bytes) : f.2.length + 1 ≤ (frame f).length := by
  unfold frame; simp

omit [FloatEnv] in
theorem frames_mem_length {fs : List (Nat × Bytes)} {f : Nat × Bytes} (h : f ∈ fs) :
    f.2.length < (frames fs).length := by
  induction fs with
  | nil => cases h
  | cons g fs ih =>
    have e : frames (g :: fs) = frame g ++ frames fs := by simp [frames]
    rw [e, List.length_append]
    have h1 := frame_length_ge g
    rcases List.mem_cons.1 h with rfl | h
    · omega
    · have := ih h; omega

/-- The event as it is read back: its value was built from `pay`. -/
def Event.reread (e : Event) : Event := { e with len := e.pay.length }

/-- What is needed to read an event back. -/
def Event.stored (e : Event) : Prop := StoredAs e.kind e.len e.value e.pay

theorem stored_of {e : Event} (h : ∃ b, StoredAs e.kind e.len e.value b) : e.stored := by
  obtain ⟨b, hb⟩ := h
  unfold Event.stored
  rw [pay_eq (b := b) hb.1]; exact hb

theorem reread_payload {e : Event} (h : e.stored) : e.reread.payload = e.payload := by
  unfold Event.payload Event.reread
  exact (kind_build_ctx h.2.2 e.value).symm

theorem reread_fr {e : Event} (h : e.stored) : e.reread.fr = e.fr := by
  unfold Event.fr
  rw [show e.reread.pay = e.pay from by unfold Event.pay; rw [reread_payload h]]
  rfl

omit [FloatEnv] in
theorem stateAt_congr {before : List Event} {e e' : Event} {st : PState} (h1 : e'.id = e.id)
    (h2 : e'.value = e.value) (h : StateAt (before ++ [e']) st) : StateAt (before ++ [e]) st := by
  unfold StateAt textKind at *
  rw [lastStr_append, lastStr_append, h1, h2] at h
  rw [lastStr_append, lastStr_append]
  exact h

theorem step_stored {before : List Event} {st : PState} {e : Event} (hst : StateAt before st)
    (hid : e.id < 256) (hk : kindOf before e.id = some e.kind)
    (hv : e.id = 199 → ∃ s, e.value = .str s ∧ ∃ parts, intParts (pySplit 46 s) = some parts)
    (hs : e.stored) :
    ∃ st', stepEvent enums st e.id e.pay = .ok (e.reread, st') ∧ StateAt (before ++ [e]) st' := by
  have hres : resolve enums st e.id = .ok e.kind := (resolve_kindOf hst).2 hk
  have hstr : okStr st.strType := by rw [hst.1]; exact okStr_textKind before
  obtain ⟨ha, hw⟩ := resolve_facts hid hstr hres
  have hmk : mkEvent e.kind e.id e.pay = .ok e.reread :=
    mkEvent_eq ha (fun n hn => build_width (hw n hn) hs.1) hs.2.1
  have hnext : ∃ t, nextStrType st e.id e.pay = .ok t ∧ (e.id = 199 ∨ t = st.strType) := by
    unfold nextStrType
    by_cases h199 : e.id = 199
    · obtain ⟨s, hs1, parts, hp⟩ := hv h199
      have hasc : e.kind = .ascii := by
        unfold kindOf at hk; rw [h199, enum_199] at hk; exact (Option.some.inj hk).symm
      have hpar := hs.2.1
      rw [hasc, hs1] at hpar
      simp only [Kind.parse] at hpar
      obtain ⟨s0, p1, p2⟩ := map_ok hpar
      have e2 : rstripNul s0 = s := by injection p2
      rw [if_pos h199, p1]
      dsimp only
      rw [e2, versionKind_eq.2 ⟨parts, hp, rfl⟩]
      exact ⟨_, rfl, .inl h199⟩
    · rw [if_neg h199]
      exact ⟨_, rfl, .inr rfl⟩
  obtain ⟨t, ht, hor⟩ := hnext
  have hres' : resolve enums ⟨st.plugName, t⟩ e.id = .ok e.kind := by
    rw [← hres]
    exact resolve_199 (st := st) (st' := ⟨st.plugName, t⟩) hor rfl
  have hstep : ∃ st', stepEvent enums st e.id e.pay = .ok (e.reread, st') := by
    unfold stepEvent
    rw [ht]
    dsimp only
    rw [hres']
    dsimp only
    rw [hmk]
    exact ⟨_, rfl⟩
  obtain ⟨st', hst'⟩ := hstep
  exact ⟨st', hst', stateAt_congr (e := e) (e' := e.reread) rfl rfl (step_state hst hst').1⟩

theorem runs_stored {before evs : List Event} {st : PState} (hst : StateAt before st)
    (hwt : ∀ pre e post, evs = pre ++ e :: post →
      e.id < 256 ∧ kindOf (before ++ pre) e.id = some e.kind ∧
      (e.id = 199 → ∃ s, e.value = .str s ∧ ∃ parts, intParts (pySplit 46 s) = some parts))
    (hs : ∀ e ∈ evs, e.stored) :
    ∃ st', Runs enums st (evs.map Event.fr) (evs.map Event.reread) st' := by
  induction evs generalizing before st with
  | nil => exact ⟨st, .nil⟩
  | cons e evs ih =>
    obtain ⟨h1, h2, h3⟩ := hwt [] e evs rfl
    rw [List.append_nil] at h2
    obtain ⟨st', h4, h5⟩ := step_stored hst h1 h2 h3 (hs e (by simp))
    obtain ⟨st'', h6⟩ := ih h5
      (fun pre x post hx => by
        have := hwt (e :: pre) x post (by rw [hx]; rfl)
        simpa using this)
      (fun x hx => hs x (by simp [hx]))
    exact ⟨st'', .cons h4 h6⟩

theorem stored_frameOK {e : Event} (hid : e.id < 256) (hs : e.stored) (hlen : e.pay.length < 2 ^ 63)
    {before : List Event} (hk : kindOf before e.id = some e.kind) : FrameOK e.fr := by
  have hst : StateAt before ⟨lastStr 201 before, textKind before⟩ := ⟨rfl, rfl⟩
  obtain ⟨-, hw⟩ := resolve_facts hid (okStr_textKind before) ((resolve_kindOf hst).2 hk)
  have hb : ∀ n, fixedSize e.id = some n → e.pay.length = n := fun n hn => build_width (hw n hn) hs.1
  refine ⟨hid, ?_, ?_, ?_, fun _ => hlen⟩
  · intro h; exact hb 1 (by simp [fixedSize, show e.id < 64 from h])
  · rintro ⟨h1, h2⟩
    have h1 : 64 ≤ e.id := h1
    have h2 : e.id < 128 := h2
    exact hb 2 (by unfold fixedSize; rw [if_neg (by omega), if_pos h2])
  · rintro ⟨h1, h2⟩
    have h1 : 128 ≤ e.id := h1
    have h2 : e.id < 192 := h2
    exact hb 4 (by unfold fixedSize; rw [if_neg (by omega), if_neg (by omega), if_pos h2])

/-- Decomposition of a successful save. -/
theorem saveBytes_ok {p : Project} {file : Bytes} (h : saveBytes p = .ok file) :
    ∃ f0 f1 c0 c1 p0 p1 s0 s1 s2 s3,
      file = [70, 76, 104, 100, 6, 0, 0, 0, f0, f1, c0, c1, p0, p1, 70, 76, 100, 116, s0, s1, s2, s3]
        ++ frames (p.events.map Event.fr) ∧
      sword f0 f1 = p.format ∧ channelLen p.events = .ok (word c0 c1) ∧ word p0 p1 = p.ppq ∧
      dword s0 s1 s2 s3 = (frames (p.events.map Event.fr)).length ∧
      (∀ e ∈ p.events, e.id < 256 ∧ e.payload = .ok e.pay) := by
  unfold saveBytes at h
  split at h
  · cases h
  · next n hn =>
    split at h
    · cases h
    · next hdr hh =>
      split at h
      · cases h
      · next body hb =>
        obtain ⟨h1, h2⟩ := eventsBytes_ok hb
        obtain ⟨f0, f1, c0, c1, p0, p1, rfl, hf, hc, hp⟩ := packHeader_ok hh
        obtain ⟨s0, s1, s2, s3, h3, h4⟩ := assemble_ok h
        subst h2
        refine ⟨f0, f1, c0, c1, p0, p1, s0, s1, s2, s3, ?_, hf, ?_, hp, h4, h1⟩
        · rw [h3]; simp
        · rw [hc]; exact hn

omit [FloatEnv] in
theorem rack_new {evs : List Event} :
    (rackEvents evs).filter (fun e => e.id = 64) = evs.filter fun e => e.id = 64 := by
  unfold rackEvents
  rw [List.filter_filter]
  apply List.filter_congr
  intro e _
  by_cases h : e.id = 64
  · rw [h]; decide +kernel
  · simp [h]

omit [FloatEnv] in
theorem channelLen_eq {evs : List Event} :
    channelLen evs = if channelStarts evs = 0 then .error .noModelsFound else .ok (channelStarts evs) := by
  unfold channelLen
  rw [rack_new]; rfl

omit [FloatEnv] in
theorem dword_lt (a b c d : UInt8) : dword a b c d < 2 ^ 32 := by
  have := u8_toNat_lt a
  have := u8_toNat_lt b
  have := u8_toNat_lt c
  have := u8_toNat_lt d
  unfold dword; omega

/-- Saving then parsing. -/
theorem parse_save {p : Project} {file : Bytes} (hf : p.format ∈ fileFormats) (hq : p.ppq ∈ validPPQs)
    (hwt : WellTyped p.events) (hs : ∀ e ∈ p.events, e.stored) (h : saveBytes p = .ok file) :
    parseFile file = .ok ⟨p.format, channelStarts p.events, p.ppq, p.events.map Event.reread⟩ := by
  obtain ⟨f0, f1, c0, c1, p0, p1, s0, s1, s2, s3, h1, h2, h3, h4, h5, h6⟩ := saveBytes_ok h
  have hcl : channelStarts p.events ≠ 0 ∧ word c0 c1 = channelStarts p.events := by
    rw [channelLen_eq] at h3
    split at h3
    · cases h3
    · next hz => exact ⟨hz, (Except.ok.inj h3).symm⟩
  have hne : frames (p.events.map Event.fr) ≠ [] := by
    intro he
    cases hev : p.events with
    | nil => exact hcl.1 (by rw [hev]; rfl)
    | cons e evs =>
      have := frames_mem_length (fs := p.events.map Event.fr) (f := e.fr)
        (by rw [hev]; simp)
      rw [he] at this
      simp at this
  have hhdr := parseHeader_layout f0 f1 c0 c1 p0 p1 s0 s1 s2 s3 _ (by rw [h2]; exact hf)
    (by rw [h4]; exact hq) hne h5
  unfold parseFile parseWith
  rw [h1, hhdr]
  dsimp only
  rw [show List.drop 22 ([70, 76, 104, 100, 6, 0, 0, 0, f0, f1, c0, c1, p0, p1, 70, 76, 100, 116, s0, s1, s2, s3]
        ++ frames (p.events.map Event.fr)) = frames (p.events.map Event.fr) from rfl]
  obtain ⟨st', hr⟩ := runs_stored (before := []) (st := ⟨none, none⟩) stateAt_init
    (fun pre e post he => by simpa using hwt pre e post he) hs
  have hfo : ∀ f ∈ p.events.map Event.fr, FrameOK f := by
    intro f hfm
    obtain ⟨e, he, rfl⟩ := List.mem_map.1 hfm
    obtain ⟨pre, post, hpp⟩ := List.append_of_mem he
    obtain ⟨w1, w2, -⟩ := hwt pre e post hpp
    have := frames_mem_length hfm
    have hd := dword_lt s0 s1 s2 s3
    have : e.pay.length < 2 ^ 63 := by
      have h7 : e.fr.2.length = e.pay.length := rfl
      omega
    exact stored_frameOK w1 (hs e he) this w2
  rw [(parseLoop_frames hfo).2 ⟨st', hr⟩]
  dsimp only
  rw [h2, hcl.2, h4]

omit [FloatEnv] in
theorem channelStarts_map {evs : List Event} {g : Event → Event} (hg : ∀ e, (g e).id = e.id) :
    channelStarts (evs.map g) = channelStarts evs := by
  unfold channelStarts
  rw [List.filter_map, List.length_map]
  congr 2
  funext e
  simp [hg]

/-- Re-saving what was read back gives the same bytes. -/
theorem save_reread {p : Project} {file : Bytes} (hs : ∀ e ∈ p.events, e.stored) {n : Nat}
    (h : saveBytes p = .ok file) :
    saveBytes ⟨p.format, n, p.ppq, p.events.map Event.reread⟩ = .ok file := by
  have hc : channelLen (p.events.map Event.reread) = channelLen p.events := by
    rw [channelLen_eq, channelLen_eq, channelStarts_map (g := Event.reread) (fun e => rfl)]
  have hb : eventsBytes (p.events.map Event.reread) = eventsBytes p.events := by
    have : ∀ evs : List Event, (∀ e ∈ evs, e.stored) →
        eventsBytes (evs.map Event.reread) = eventsBytes evs := by
      intro evs
      induction evs with
      | nil => intro _; rfl
      | cons e evs ih =>
        intro hs
        have hto : e.reread.toBytes = e.toBytes := by
          unfold Event.toBytes
          rw [reread_payload (hs e (by simp)), show e.reread.id = e.id from rfl]
        exact congrFun (congrArg seqBuild hto) _ |>.trans
          (congrArg (seqBuild e.toBytes) (ih (fun x hx => hs x (by simp [hx]))))
    exact this _ hs
  unfold saveBytes at *
  dsimp only
  rw [hc, hb]
  exact h

end PyFLP
