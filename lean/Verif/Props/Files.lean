import Verif.Demo
/-!
# Properties of `pyflp.parse` and `pyflp.save`: C01 – C08, C13 – C15, C18

`parseFile` models `pyflp.parse` on the content of a file, `saveBytes` the bytes
`pyflp.save` writes.  The specification is in `Verif/Spec.lean`.
-/

namespace PyFLP

open Spec

variable [FloatEnv]

/-! ## C01 Header validation is exact -/

/-- `parse` raises `HeaderCorrupted` exactly for the files without a well-formed
header and a data chunk of exactly the declared, non-zero size. -/
theorem C01_header_exact (file : Bytes) :
    parseFile file = .error .headerCorrupted ↔ ¬ HeaderOK file := by
  constructor
  · intro h hok
    obtain ⟨f0, f1, c0, c1, p0, p1, s0, s1, s2, s3, data, h1, h2, h3, h4, h5⟩ := hok
    have hhdr := parseHeader_layout f0 f1 c0 c1 p0 p1 s0 s1 s2 s3 data h2 h3 h4 h5
    unfold parseFile parseWith at h
    rw [h1, hhdr] at h
    dsimp only at h
    split at h
    · next e he =>
      cases h
      exact parseLoop_error he rfl
    · cases h
  · intro h
    unfold parseFile parseWith
    cases hp : parseHeader file with
    | ok hd =>
      obtain ⟨f0, f1, c0, c1, p0, p1, s0, s1, s2, s3, data, h1, h2, h3, h4, h5, -⟩ := parseHeader_ok hp
      exact absurd ⟨f0, f1, c0, c1, p0, p1, s0, s1, s2, s3, data, h1, h2, h3, h4, h5⟩ h
    | error e =>
      dsimp only
      unfold parseHeader at hp
      dsimp only at hp
      grind

omit [FloatEnv] in
/-- A header that is accepted, and one that is not (PPQ 97). -/
example : HeaderOK ([70, 76, 104, 100, 6, 0, 0, 0, 0, 0, 1, 0, 96, 0, 70, 76, 100, 116, 2, 0, 0, 0] ++ [0, 1]) :=
  ⟨0, 0, 1, 0, 96, 0, 2, 0, 0, 0, [0, 1], rfl, by decide, by decide, by simp, rfl⟩

omit [FloatEnv] in
example : ¬ HeaderOK ([70, 76, 104, 100, 6, 0, 0, 0, 0, 0, 1, 0, 97, 0, 70, 76, 100, 116, 2, 0, 0, 0] ++ [0, 1]) := by
  rintro ⟨f0, f1, c0, c1, p0, p1, s0, s1, s2, s3, data, h, -, hp, -⟩
  simp only [List.cons_append, List.nil_append, List.cons.injEq] at h
  obtain ⟨-, -, -, -, -, -, -, -, -, -, -, -, rfl, rfl, -⟩ := h
  revert hp
  decide

/-! ## C02 Truncated or padded files are always detected -/

omit [FloatEnv] in
/-- The size field determines the length of a file that passes the checks. -/
theorem headerOK_length {file : Bytes} (h : HeaderOK file) :
    22 ≤ file.length ∧ leNat ((file.drop 18).take 4) + 22 = file.length := by
  obtain ⟨f0, f1, c0, c1, p0, p1, s0, s1, s2, s3, data, h1, h2, h3, h4, h5⟩ := h
  subst h1
  refine ⟨by simp, ?_⟩
  simp only [List.cons_append, List.nil_append, List.drop_succ_cons, List.drop_zero, List.take_succ_cons,
    List.take_zero, leNat, List.length_cons]
  unfold dword at h5
  omega

/-- No strict prefix of a saved file, and no saved file with bytes appended, is
accepted: both raise `HeaderCorrupted`. -/
theorem C02_cut_or_padded_detected (p : Project) (file : Bytes) (h : saveBytes p = .ok file) :
    (∀ k, k < file.length → parseFile (file.take k) = .error .headerCorrupted) ∧
    (∀ extra, extra ≠ [] → parseFile (file ++ extra) = .error .headerCorrupted) := by
  obtain ⟨f0, f1, c0, c1, p0, p1, s0, s1, s2, s3, h1, -, -, -, h5, -⟩ := saveBytes_ok h
  have hlen : 22 ≤ file.length ∧ leNat ((file.drop 18).take 4) + 22 = file.length := by
    rw [h1]
    refine ⟨by simp, ?_⟩
    simp only [List.cons_append, List.nil_append, List.drop_succ_cons, List.drop_zero, List.take_succ_cons,
      List.take_zero, leNat, List.length_cons]
    unfold dword at h5
    omega
  refine ⟨?_, ?_⟩
  · intro k hk
    rw [C01_header_exact]
    intro hc
    obtain ⟨g1, g2⟩ := headerOK_length hc
    rw [List.length_take] at g1 g2
    have e : ((file.take k).drop 18).take 4 = (file.drop 18).take 4 := by
      rw [List.drop_take, List.take_take]
      congr 1
      omega
    rw [e] at g2
    omega
  · intro extra he
    rw [C01_header_exact]
    intro hc
    obtain ⟨g1, g2⟩ := headerOK_length hc
    have e : ((file ++ extra).drop 18).take 4 = (file.drop 18).take 4 := by
      rw [List.drop_append_of_le_length (by omega), List.take_append_of_le_length (by simp; omega)]
    rw [e, List.length_append] at g2
    have := List.length_pos_iff.2 he
    omega

/-- The saved demo project is such a file. -/
example : parseFile (Demo.file.take 98) = .error .headerCorrupted :=
  (C02_cut_or_padded_detected _ _ Demo.saved).1 98 (by decide)

/-! ## C03 Saved files carry a correct header -/

/-- A saved file is `FLhd`, 6, the project's format, the number of channels, the
project's PPQ, `FLdt`, the exact number of event bytes and the events one after
the other; if format and PPQ are valid the header checks accept it. -/
theorem C03_saved_header (p : Project) (file : Bytes) (h : saveBytes p = .ok file) :
    (∃ f0 f1 c0 c1 p0 p1 s0 s1 s2 s3, ∃ raws : List Bytes,
      file = [70, 76, 104, 100, 6, 0, 0, 0, f0, f1, c0, c1, p0, p1, 70, 76, 100, 116, s0, s1, s2, s3]
        ++ raws.flatten ∧
      sword f0 f1 = p.format ∧ word c0 c1 = channelStarts p.events ∧ word p0 p1 = p.ppq ∧
      dword s0 s1 s2 s3 = raws.flatten.length ∧ p.events.map Event.toBytes = raws.map .ok) ∧
    (p.format ∈ formats → p.ppq ∈ ppqs → HeaderOK file) := by
  obtain ⟨f0, f1, c0, c1, p0, p1, s0, s1, s2, s3, h1, h2, h3, h4, h5, h6⟩ := saveBytes_ok h
  rw [channelLen_eq] at h3
  split at h3
  · cases h3
  · next hz =>
    refine ⟨⟨f0, f1, c0, c1, p0, p1, s0, s1, s2, s3, p.events.map (fun e => frame e.fr), ?_, h2,
      (Except.ok.inj h3).symm, h4, ?_, ?_⟩, ?_⟩
    · rw [h1, frames, List.flatMap_def, List.map_map]; rfl
    · rw [h5, frames, List.flatMap_def, List.map_map]; rfl
    · rw [List.map_map]
      apply List.map_congr_left
      intro e he
      exact toBytes_eq (h6 e he).1 (h6 e he).2
    · intro hf hq
      refine ⟨f0, f1, c0, c1, p0, p1, s0, s1, s2, s3, _, h1, by rw [h2]; exact hf, by rw [h4]; exact hq, ?_, h5⟩
      intro he
      cases hev : p.events with
      | nil => rw [hev] at hz; exact hz rfl
      | cons e evs =>
        have := frames_mem_length (fs := p.events.map Event.fr) (f := e.fr) (by rw [hev]; simp)
        rw [he] at this
        simp at this

/-- When saving succeeds: between 1 and 65535 channels, header values in range,
every event can be serialised, less than 4 GiB of events. -/
theorem C03_save_succeeds (p : Project) :
    (∃ file, saveBytes p = .ok file) ↔
      ∃ raws : List Bytes, p.events.map Event.toBytes = raws.map .ok ∧
        (1 ≤ channelStarts p.events ∧ channelStarts p.events < 65536) ∧
        (-32768 ≤ p.format ∧ p.format < 32768) ∧ p.ppq < 65536 ∧ raws.flatten.length < 2 ^ 32 := by
  constructor
  · rintro ⟨file, h⟩
    obtain ⟨⟨f0, f1, c0, c1, p0, p1, s0, s1, s2, s3, raws, h1, h2, h3, h4, h5, h6⟩, -⟩ := C03_saved_header p file h
    have hw : ∀ a b, word a b < 65536 := by
      intro a b
      have := u8_toNat_lt a
      have := u8_toNat_lt b
      unfold word; omega
    refine ⟨raws, h6, ⟨?_, by rw [← h3]; exact hw _ _⟩, ?_, by rw [← h4]; exact hw _ _, by rw [← h5]; exact dword_lt _ _ _ _⟩
    · obtain ⟨_, _, _, _, _, _, _, _, _, _, -, -, g, -, -, -⟩ := saveBytes_ok h
      rw [channelLen_eq] at g
      split at g
      · cases g
      · omega
    · rw [← h2]
      have := hw f0 f1
      unfold sword
      split <;> omega
  · rintro ⟨raws, h1, ⟨h2, h3⟩, ⟨h4, h5⟩, h6, h7⟩
    have hev : ∀ e ∈ p.events, ∃ raw, e.toBytes = .ok raw := by
      intro e he
      have : e.toBytes ∈ raws.map Except.ok := by rw [← h1]; exact List.mem_map_of_mem he
      obtain ⟨r, -, hr⟩ := List.mem_map.1 this
      exact ⟨r, hr.symm⟩
    have hb := eventsBytes_eq (evs := p.events) (fun e he => by
      obtain ⟨raw, hr⟩ := hev e he
      obtain ⟨q1, q2, -⟩ := toBytes_ok hr
      exact ⟨q1, _, q2⟩)
    have hraws : raws = p.events.map (fun e => frame e.fr) := by
      have h8 : p.events.map Event.toBytes = (p.events.map (fun e => frame e.fr)).map Except.ok := by
        rw [List.map_map]
        apply List.map_congr_left
        intro e he
        obtain ⟨raw, hr⟩ := hev e he
        rw [hr, (toBytes_ok hr).2.2]; rfl
      rw [h8] at h1
      exact ((List.map_inj_right (fun a b h => Except.ok.inj h)).1 h1).symm
    have hlen : (frames (p.events.map Event.fr)).length < 2 ^ 32 := by
      rw [hraws] at h7
      rwa [frames, List.flatMap_def, List.map_map]
    obtain ⟨a, ha⟩ := intBuild_ok_iff (w := 2) (s := true) (v := p.format) |>.2
      (by unfold intFits; simp; omega)
    have hb2 := intBuild_nat (w := 2) (n := channelStarts p.events) (by omega)
    have hb3 := intBuild_nat (w := 2) (n := p.ppq) (by omega)
    have hpk : ∃ hdr, packHeader p.format (channelStarts p.events) p.ppq = .ok hdr := by
      unfold packHeader
      rw [ha, hb2, hb3]
      exact ⟨_, rfl⟩
    obtain ⟨hdr, hhdr⟩ := hpk
    unfold saveBytes
    rw [channelLen_eq, if_neg (by omega)]
    dsimp only
    rw [hhdr, hb]
    dsimp only
    unfold assemble
    rw [if_pos hlen]
    exact ⟨_, rfl⟩

/-- The demo project is saved. -/
example : ∃ file, saveBytes Demo.project = .ok file := ⟨_, Demo.saved⟩

/-! ## C04 Saving then parsing returns the same events -/

/-- If the events have the types that belong to their places and hold values
their types can represent, then parsing the saved file gives the same format,
the same PPQ, the number of channels, and the same sequence of events (ids,
types and values); saving it again gives the same file. -/
theorem C04_save_parse (p : Project) (file : Bytes)
    (hf : p.format ∈ formats) (hq : p.ppq ∈ ppqs) (ht : WellTyped p.events)
    (hv : ∀ e ∈ p.events, validValue e.kind e.len e.value) (h : saveBytes p = .ok file) :
    ∃ q, parseFile file = .ok q ∧ q.format = p.format ∧ q.ppq = p.ppq ∧
      q.channelCount = channelStarts p.events ∧ q.events.map observe = p.events.map observe ∧
      saveBytes q = .ok file := by
  have hs : ∀ e ∈ p.events, e.stored := fun e he => stored_of (kind_roundtrip (hv e he))
  refine ⟨_, parse_save hf hq ht hs h, rfl, rfl, rfl, ?_, save_reread hs h⟩
  rw [List.map_map]; rfl

/-- Parsed projects satisfy the typing hypothesis. -/
theorem C04_parsed_wellTyped (file : Bytes) (p : Project) (h : parseFile file = .ok p) :
    WellTyped p.events ∧ p.format ∈ formats ∧ p.ppq ∈ ppqs := by
  refine ⟨parseFile_wellTyped h, ?_⟩
  obtain ⟨f0, f1, c0, c1, p0, p1, s0, s1, s2, s3, data, h1, h2, h3, h4, h5, h6, h7, h8, -⟩ := parse_iff.1 h
  exact ⟨by rw [h6]; exact h2, by rw [h8]; exact h3⟩

/-- The demo project meets the hypotheses. -/
example : ∃ q, parseFile Demo.file = .ok q ∧ q.events.map observe = Demo.events.map observe := by
  obtain ⟨q, h1, -, -, -, h2, -⟩ := C04_save_parse Demo.project Demo.file (by decide) (by decide)
    Demo.wellTyped Demo.valid Demo.saved
  exact ⟨q, h1, h2⟩

/-! ## C05 Parsing then saving a canonical file is byte-identical -/

/-- Parsing a canonical file and saving the project reproduces the file:
the events are framed with minimal prefixes, the channel count in the header is
the number of channel starts, and every payload is canonical (`canonPayload`). -/
theorem C05_parse_save (file : Bytes) (p : Project) (h : parseFile file = .ok p)
    (fs : List (Nat × Bytes)) (hfs : file.drop 22 = frames fs) (hok : ∀ f ∈ fs, FrameOK f)
    (hc : p.channelCount = channelStarts p.events) (hpos : channelStarts p.events ≠ 0)
    (hcanon : ∀ x ∈ fs.zip p.events, canonPayload x.2.kind x.1.2) :
    saveBytes p = .ok file :=
  save_parse h hfs hok hc hpos hcanon

/-! ## C07 The parser terminates and accounts for every byte

Termination is the totality of `parseFile`, accepted by the kernel. -/

/-- `parse` succeeds exactly when the header is well formed and the data chunk is
a sequence of events, each of which can be decoded in its context; the result
is these events, in file order. -/
theorem C07_parse_iff (file : Bytes) (p : Project) : parseFile file = .ok p ↔
    ∃ f0 f1 c0 c1 p0 p1 s0 s1 s2 s3 data,
      file = [70, 76, 104, 100, 6, 0, 0, 0, f0, f1, c0, c1, p0, p1, 70, 76, 100, 116, s0, s1, s2, s3]
        ++ data ∧
      sword f0 f1 ∈ formats ∧ word p0 p1 ∈ ppqs ∧ data ≠ [] ∧ dword s0 s1 s2 s3 = data.length ∧
      p.format = sword f0 f1 ∧ p.channelCount = word c0 c1 ∧ p.ppq = word p0 p1 ∧
      ∃ fs, Splits data fs ∧ Decoded [] fs p.events := parse_iff

theorem decoded_count {before : List Event} {data : Bytes} {fs : List (Nat × Bytes)} {evs : List Event}
    (hs : Splits data fs) (hd : Decoded before fs evs) : 2 * evs.length ≤ data.length := by
  induction hs generalizing before evs with
  | nil => cases hd; simp
  | @cons id pre payload rest n fs ha hn t ih =>
    cases hd with
    | cons d hd' =>
      have := ih hd'
      simp only [List.length_cons, List.length_append]
      have hpos : 1 ≤ pre.length + payload.length := by
        obtain ⟨-, -, -, -, z1, z2, z3, -⟩ := d
        dsimp only at z1 z2 z3
        rcases ha with ⟨h, -, -⟩ | ⟨h1, h2, -, -⟩ | ⟨h1, h2, -, -⟩ | ⟨h1, h2, -⟩
        · have := z1 h; omega
        · have := z2 h1 h2; omega
        · have := z3 h1 h2; omega
        · have := varParse_length h2
          simp only [List.length_nil] at this
          omega
      omega

/-- At most one event per two bytes of data. -/
theorem C07_event_count (file : Bytes) (p : Project) (h : parseFile file = .ok p) :
    p.events.length ≤ (file.length - 22) / 2 := by
  obtain ⟨f0, f1, c0, c1, p0, p1, s0, s1, s2, s3, data, rfl, -, -, -, -, -, -, -, fs, hs, hd⟩ := parse_iff.1 h
  have := decoded_count hs hd
  simp only [List.length_append, List.length_cons, List.length_nil]
  omega

/-- The demo file is accepted (so the statements are not vacuous). -/
example : ∃ q, parseFile Demo.file = .ok q ∧ q.events.length = 10 := by
  obtain ⟨q, h1, -, -, -, h2, -⟩ := C04_save_parse Demo.project Demo.file (by decide) (by decide)
    Demo.wellTyped Demo.valid Demo.saved
  refine ⟨q, h1, ?_⟩
  have := congrArg List.length h2
  simpa [Demo.project, Demo.events] using this

/-! ## C08 Event framing is unambiguous -/

omit [FloatEnv] in
/-- Different sequences of events serialise to different bytes. -/
theorem C08_framing_injective (fs gs : List (Nat × Bytes)) (hf : ∀ f ∈ fs, FrameOK f)
    (hg : ∀ g ∈ gs, FrameOK g) (h : frames fs = frames gs) : fs = gs := by
  have h1 := splits_frames hf
  rw [h] at h1
  exact splits_unique h1 (splits_frames hg)

omit [FloatEnv] in
/-- No serialised event is a prefix of another one, whatever follows. -/
theorem C08_framing_prefix_free (f g : Nat × Bytes) (x y : Bytes) (hf : FrameOK f) (hg : FrameOK g)
    (h : frame f ++ x = frame g ++ y) : f = g ∧ x = y := by
  unfold frame at h
  simp only [List.cons_append, List.cons.injEq] at h
  obtain ⟨h1, h2⟩ := h
  have hid : f.1 = g.1 := by
    rw [← toNat_ofNat_id hf.1, ← toNat_ofNat_id hg.1, h1]
  have r1 := readPayload_frame hf x
  have r2 := readPayload_frame hg y
  rw [h2, hid, r2] at r1
  injection r1 with r1
  injection r1 with r3 r4
  exact ⟨Prod.ext hid r3.symm, r4.symm⟩

omit [FloatEnv] in
example : FrameOK (64, [1, 2]) ∧ FrameOK (210, List.replicate 300 7) := by
  refine ⟨by simp [FrameOK, sizeOK], ?_⟩
  unfold FrameOK sizeOK
  dsimp only
  rw [List.length_replicate]
  omega

/-! ## C13 Unknown events are preserved byte for byte -/

omit [FloatEnv] in
theorem kindOf_unknown {before : List Event} {id : Nat} (h1 : enumType enums id = none) (h2 : 208 ≤ id)
    (h3 : id ≠ 213) (h4 : id ≠ 231) (h5 : id ≠ 239) (h6 : id ≠ 241) :
    kindOf before id = some .unknown := by
  unfold kindOf
  rw [h1]
  dsimp only
  rw [if_neg (by omega), if_neg (by omega), if_neg (by omega), if_neg (by omega), if_neg h3]

/-- In any file that is parsed and saved again, the data chunk of the new file
consists of the same number of events with the same ids, and every event with
an unknown data id has exactly the payload it had. -/
theorem C13_unknown_preserved (file file' : Bytes) (p : Project) (h : parseFile file = .ok p)
    (h' : saveBytes p = .ok file') :
    ∃ fs fs', Splits (file.drop 22) fs ∧ Splits (file'.drop 22) fs' ∧ fs'.map Prod.fst = fs.map Prod.fst ∧
      ∀ x ∈ fs.zip fs', enumType enums x.1.1 = none → 208 ≤ x.1.1 → x.1.1 ∉ [213, 231, 239, 241] →
        x.2 = x.1 := by
  obtain ⟨f0, f1, c0, c1, p0, p1, s0, s1, s2, s3, data, h1, -, -, -, -, -, -, -, fs, hs, hd⟩ := parse_iff.1 h
  obtain ⟨g0, g1, d0, d1, q0, q1, t0, t1, t2, t3, e1, -, -, -, e5, e6⟩ := saveBytes_ok h'
  have key : ∀ before fs evs, Decoded before fs evs → (∀ e ∈ evs, e.id < 256 ∧ e.payload = .ok e.pay) →
      (∀ e ∈ evs, e.pay.length < 2 ^ 63) →
      (∀ f ∈ evs.map Event.fr, FrameOK f) ∧ (evs.map Event.fr).map Prod.fst = fs.map Prod.fst ∧
      ∀ x ∈ fs.zip (evs.map Event.fr), enumType enums x.1.1 = none → 208 ≤ x.1.1 →
        x.1.1 ∉ [213, 231, 239, 241] → x.2 = x.1 := by
    intro before fs evs hd
    induction hd with
    | nil => intro _ _; simp
    | @cons before f e fs evs d t ih =>
      intro hp hl
      obtain ⟨i1, i2, i3⟩ := ih (fun x hx => hp x (by simp [hx])) (fun x hx => hl x (by simp [hx]))
      obtain ⟨pid, ppay⟩ := hp e (by simp)
      have hfo : FrameOK e.fr := by
        have hst : StateAt before ⟨lastStr 201 before, textKind before⟩ := ⟨rfl, rfl⟩
        have hk : kindOf before e.id = some e.kind := by rw [d.id]; exact d.kind
        obtain ⟨-, hw⟩ := resolve_facts pid (okStr_textKind before) ((resolve_kindOf hst).2 hk)
        have hb : ∀ n, fixedSize e.id = some n → e.pay.length = n := fun n hn => build_width (hw n hn) ppay
        refine ⟨pid, ?_, ?_, ?_, fun _ => hl e (by simp)⟩
        · intro h; exact hb 1 (by simp [fixedSize, show e.id < 64 from h])
        · rintro ⟨h1, h2⟩
          have h1 : 64 ≤ e.id := h1
          have h2 : e.id < 128 := h2
          exact hb 2 (by unfold fixedSize; rw [if_neg (by omega), if_pos h2])
        · rintro ⟨h1, h2⟩
          have h1 : 128 ≤ e.id := h1
          have h2 : e.id < 192 := h2
          exact hb 4 (by unfold fixedSize; rw [if_neg (by omega), if_neg (by omega), if_pos h2])
      refine ⟨?_, ?_, ?_⟩
      · intro g hg
        rw [List.map_cons] at hg
        rcases List.mem_cons.1 hg with rfl | hg
        · exact hfo
        · exact i1 g hg
      · rw [List.map_cons, List.map_cons, List.map_cons, i2, ← d.id]; rfl
      · intro x hx
        rw [List.map_cons, List.zip_cons_cons] at hx
        rcases List.mem_cons.1 hx with rfl | hx
        · intro u1 u2 u3
          dsimp only at u1 u2 u3 ⊢
          simp only [List.mem_cons, List.not_mem_nil, or_false, not_or] at u3
          have hk := d.kind
          rw [kindOf_unknown u1 u2 u3.1 u3.2.1 u3.2.2.1 u3.2.2.2] at hk
          have hv := d.value
          rw [← Option.some.inj hk] at hv
          simp only [Kind.parse] at hv
          have hpay : e.payload = .ok f.2 := by
            unfold Event.payload
            rw [← Option.some.inj hk, ← Except.ok.inj hv]; rfl
          unfold Event.fr
          rw [pay_eq hpay, d.id]
        · exact i3 x hx
  have hsz : ∀ e ∈ p.events, e.pay.length < 2 ^ 63 := by
    intro e he
    have h7 := frames_mem_length (fs := p.events.map Event.fr) (f := e.fr) (List.mem_map_of_mem he)
    have h8 : e.fr.2.length = e.pay.length := rfl
    have := dword_lt t0 t1 t2 t3
    omega
  obtain ⟨k1, k2, k3⟩ := key [] fs p.events hd e6 hsz
  refine ⟨fs, p.events.map Event.fr, ?_, ?_, k2, k3⟩
  · rw [h1]; exact hs
  · rw [e1]; exact splits_frames k1

omit [FloatEnv] in
/-- 255 and 214 are unknown data ids. -/
example : ∀ id ∈ [255, 214], enumType enums id = none ∧ 208 ≤ id ∧ id ∉ [213, 231, 239, 241] := by
  decide +kernel

/-! ## C14 Event typing does not depend on enum registration order -/

/-- Parsing gives the same result for every order of registration. -/
theorem C14_registration_order (es : List IdEnum) (h : es.Perm enums) : parseWith es = parseFile :=
  parseWith_enumType (enumType_perm h)

omit [FloatEnv] in
/-- No id is claimed by two enumerations. -/
theorem C14_no_double_claim : ∀ e ∈ enums, ∀ e' ∈ enums, ∀ m ∈ e, ∀ m' ∈ e', m.1 = m'.1 → e = e' := by
  decide +kernel

omit [FloatEnv] in
example : enums.reverse.Perm enums ∧ enums.reverse ≠ enums := by
  exact ⟨List.reverse_perm _, by decide +kernel⟩

/-! ## C15 Text encoding follows the project version -/

omit [FloatEnv] in
theorem untypedText_kind {before : List Event} {id : Nat} (h : untypedText id) :
    kindOf before id = textKind before := by
  unfold kindOf
  rw [h.1]
  dsimp only
  have := h.2
  rw [if_neg (by omega), if_neg (by omega), if_neg (by omega), if_pos (by omega)]

/-- In a parsed project every text event without a fixed type comes after a
version event; it is UTF-16 if the closest one says 11.5 or newer, else ASCII. -/
theorem C15_text_by_version (file : Bytes) (p : Project) (h : parseFile file = .ok p)
    (before after : List Event) (e : Event) (he : p.events = before ++ e :: after) (ht : untypedText e.id) :
    ∃ pre v mid s parts, before = pre ++ v :: mid ∧ v.id = 199 ∧ (∀ m ∈ mid, m.id ≠ 199) ∧
      v.value = .str s ∧ intParts (pySplit 46 s) = some parts ∧
      e.kind = if AtLeast11_5 parts then .unicode else .ascii := by
  have hwt := parseFile_wellTyped h
  obtain ⟨-, hk, -⟩ := hwt before e after he
  rw [untypedText_kind ht] at hk
  unfold textKind lastStr at hk
  cases hl : (before.filter fun e => e.id = 199).getLast? with
  | none => rw [hl] at hk; simp at hk
  | some v =>
    obtain ⟨pre, mid, h1, h2, h3⟩ : ∃ pre mid, before = pre ++ v :: mid ∧ v.id = 199 ∧ ∀ m ∈ mid, m.id ≠ 199 := by
      clear hk he hwt
      induction before with
      | nil => simp at hl
      | cons b before ih =>
        by_cases hb : b.id = 199
        · cases hf : before.filter (fun e => e.id = 199) with
          | nil =>
            rw [List.filter_cons_of_pos (by simpa using hb), hf] at hl
            simp only [List.getLast?_singleton, Option.some.injEq] at hl
            subst hl
            exact ⟨[], before, rfl, hb, by
              intro m hm hc
              have : m ∈ before.filter (fun e => e.id = 199) := List.mem_filter.2 ⟨hm, by simpa using hc⟩
              rw [hf] at this
              cases this⟩
          | cons x xs =>
            rw [List.filter_cons_of_pos (by simpa using hb), hf, List.getLast?_cons_cons, ← hf] at hl
            obtain ⟨pre, mid, h1, h2, h3⟩ := ih hl
            exact ⟨b :: pre, mid, by rw [h1]; rfl, h2, h3⟩
        · rw [List.filter_cons_of_neg (by simpa using hb)] at hl
          obtain ⟨pre, mid, h1, h2, h3⟩ := ih hl
          exact ⟨b :: pre, mid, by rw [h1]; rfl, h2, h3⟩
    obtain ⟨-, -, hver⟩ := hwt pre v (mid ++ e :: after) (by rw [he, h1]; simp)
    obtain ⟨s, hs, parts, hp⟩ := hver h2
    refine ⟨pre, v, mid, s, parts, h1, h2, h3, hs, hp, ?_⟩
    rw [hl] at hk
    simp only [Option.bind_some, hs, strOf, hp, Option.some.injEq] at hk
    exact hk.symm

/-- A file in which a text event without a fixed type precedes every version
event is refused with `VersionNotDetected` (provided the events before it can
be decoded, otherwise they fail first). -/
theorem C15_version_not_detected (file : Bytes) (hh : HeaderOK file) (fs : List (Nat × Bytes))
    (f : Nat × Bytes) (rest : Bytes) (hd : file.drop 22 = frames fs ++ frame f ++ rest)
    (hok : ∀ g ∈ fs, FrameOK g) (hf : FrameOK f) (evs : List Event) (hdec : Decoded [] fs evs)
    (hv : ∀ g ∈ fs, g.1 ≠ 199) (ht : untypedText f.1) :
    parseFile file = .error .versionNotDetected :=
  parse_versionless hh hd hok hf hdec hv ht

/-- A file with a channel name and no version. -/
example : parseFile ([70, 76, 104, 100, 6, 0, 0, 0, 0, 0, 1, 0, 96, 0, 70, 76, 100, 116, 6, 0, 0, 0]
    ++ [64, 0, 0, 203, 1, 0]) = .error .versionNotDetected := by
  refine C15_version_not_detected _
    ⟨0, 0, 1, 0, 96, 0, 6, 0, 0, 0, _, rfl, by decide, by decide, by simp, rfl⟩ [(64, [0, 0])] (203, [0]) []
    ?_ ?_ ?_ [⟨64, .u16, .lv (.int 0), 2⟩] ?_ ?_ ?_
  · simp [frames, frame, Demo.varBuild_small]
  · simp [FrameOK, sizeOK]
  · simp [FrameOK, sizeOK]
  · exact .cons ⟨rfl, rfl, by decide +kernel, rfl, by simp, by simp, by simp, by simp⟩ .nil
  · simp
  · exact ⟨by decide +kernel, by decide⟩

omit [FloatEnv] in
/-- Versions on both sides of the boundary. -/
example : AtLeast11_5 [11, 5, 0] ∧ AtLeast11_5 [20] ∧ ¬ AtLeast11_5 [11, 4, 9] ∧ ¬ AtLeast11_5 [11] ∧
    ¬ AtLeast11_5 [9, 9] := by decide

/-! ## C18 Plugin data is typed by the closest preceding internal name -/

/-- The plugins whose data PyFLP understands. -/
def Spec.knownPlugins : List (String × Kind) := [
  ("Fruity Wrapper", .vst), ("BooBass", .struct .booBass), ("Fruit Kick", .struct .fruitKick),
  ("Fruity Balance", .struct .fruityBalance), ("Fruity Blood Overdrive", .struct .fruityBloodOverdrive),
  ("Fruity Center", .struct .fruityCenter), ("Fruity Fast Dist", .struct .fruityFastDist),
  ("Fruity NoteBook 2", .notebook), ("Fruity Send", .struct .fruitySend),
  ("Fruity Soft Clipper", .struct .fruitySoftClipper),
  ("Fruity Stereo Enhancer", .struct .fruityStereoEnhancer), ("Plucked!", .struct .plucked),
  ("Soundgoodizer", .struct .soundgoodizer)]

omit [FloatEnv] in
theorem kindByName_spec (n : PStr) :
    (∃ x ∈ knownPlugins, n = PStr.lit x.1 ∧ kindByName n = x.2) ∨
    ((∀ x ∈ knownPlugins, n ≠ PStr.lit x.1) ∧ kindByName n = .unknown) := by
  have htab : nativePlugins = knownPlugins.map fun x => (PStr.lit x.1, x.2) := rfl
  unfold kindByName
  rw [htab]
  split
  · next q hq =>
    left
    have hm := List.mem_of_find?_eq_some hq
    have hn := List.find?_some hq
    obtain ⟨x, hx, rfl⟩ := List.mem_map.1 hm
    exact ⟨x, hx, (by simpa using hn : PStr.lit x.1 = n).symm, rfl⟩
  · next hq =>
    right
    refine ⟨fun x hx hc => ?_, rfl⟩
    have := List.find?_eq_none.1 hq (PStr.lit x.1, x.2) (List.mem_map.2 ⟨x, hx, rfl⟩)
    simp [hc] at this

/-- In a parsed project the type of a plugin data event is that of the closest
preceding internal name if it is a known one, and raw data otherwise (also if
there is no internal name before it). -/
theorem C18_plugin_data_type (file : Bytes) (p : Project) (h : parseFile file = .ok p)
    (before after : List Event) (e : Event) (he : p.events = before ++ e :: after) (hid : e.id = 213) :
    (∃ pre v mid n, before = pre ++ v :: mid ∧ v.id = 201 ∧ (∀ m ∈ mid, m.id ≠ 201) ∧ v.value = .str n ∧
      ((∃ x ∈ knownPlugins, n = PStr.lit x.1 ∧ e.kind = x.2) ∨
       ((∀ x ∈ knownPlugins, n ≠ PStr.lit x.1) ∧ e.kind = .unknown))) ∨
    ((∀ v ∈ before, v.id ≠ 201) ∧ e.kind = .unknown) := by
  have hwt := parseFile_wellTyped h
  obtain ⟨-, hk, -⟩ := hwt before e after he
  have hk' : e.kind = pluginKind before := by
    unfold kindOf at hk
    rw [hid, enum_213] at hk
    simp only [show ¬ (213 : Nat) < 64 by omega, show ¬ (213 : Nat) < 128 by omega,
      show ¬ (213 : Nat) < 192 by omega, show ¬ (213 : Nat) < 208 by omega, if_false, if_true, false_or,
      show (213 : Nat) ≠ 231 by omega, show (213 : Nat) ≠ 239 by omega, show (213 : Nat) ≠ 241 by omega] at hk
    exact (Option.some.inj hk).symm
  by_cases hex : ∃ v ∈ before, v.id = 201
  · left
    have hlast : ∀ l : List Event, (∃ v ∈ l, v.id = 201) →
        ∃ pre v mid, l = pre ++ v :: mid ∧ v.id = 201 ∧ ∀ m ∈ mid, m.id ≠ 201 := by
      intro l
      induction l with
      | nil => rintro ⟨v, hv, -⟩; cases hv
      | cons b l ih =>
        intro hv
        by_cases ht : ∃ v ∈ l, v.id = 201
        · obtain ⟨pre, v, mid, h1, h2, h3⟩ := ih ht
          exact ⟨b :: pre, v, mid, by rw [h1]; rfl, h2, h3⟩
        · obtain ⟨v, hv, hv2⟩ := hv
          rcases List.mem_cons.1 hv with rfl | hv
          · exact ⟨[], v, l, rfl, hv2, fun m hm hc => ht ⟨m, hm, hc⟩⟩
          · exact absurd ⟨v, hv, hv2⟩ ht
    obtain ⟨pre, v, mid, h1, h2, h3⟩ := hlast before hex
    -- the value of an internal name is text
    obtain ⟨-, hkv, -⟩ := hwt pre v (mid ++ e :: after) (by rw [he, h1]; simp)
    rw [untypedText_kind ⟨by rw [h2]; exact enum_unknown_201, by omega⟩] at hkv
    have hval : ∃ n, v.value = .str n := by
      obtain ⟨_, _, _, _, _, _, _, _, _, _, data, -, -, -, -, -, -, -, -, fs, hs, hd⟩ := parse_iff.1 h
      obtain ⟨_, f, _, -, -, hdec⟩ := decoded_split hd (pre := pre) (e := v) (post := mid ++ e :: after)
        (by rw [he, h1]; simp)
      have hp := hdec.value
      rcases okStr_textKind pre with hh | hh | hh <;> rw [hh] at hkv
      · cases hkv
      · rw [← Option.some.inj hkv] at hp
        simp only [Kind.parse] at hp
        obtain ⟨s, -, q⟩ := map_ok hp
        exact ⟨_, q.symm⟩
      · rw [← Option.some.inj hkv] at hp
        simp only [Kind.parse] at hp
        obtain ⟨s, -, q⟩ := map_ok hp
        exact ⟨_, q.symm⟩
    obtain ⟨n, hn⟩ := hval
    refine ⟨pre, v, mid, n, h1, h2, h3, hn, ?_⟩
    have hls : lastStr 201 before = some n := by
      unfold lastStr
      rw [h1, List.filter_append, List.filter_cons_of_pos (by simpa using h2),
        (List.filter_eq_nil_iff (l := mid)).2 (by intro m hm; simpa using h3 m hm), List.getLast?_append]
      simp [hn, strOf]
    have hpk : e.kind = kindByName n := by
      rw [hk']; unfold pluginKind; rw [hls]
    rw [hpk]
    exact kindByName_spec n
  · right
    refine ⟨fun v hv hc => hex ⟨v, hv, hc⟩, ?_⟩
    rw [hk']
    unfold pluginKind lastStr
    rw [List.filter_eq_nil_iff.2 (by intro m hm; simpa using fun hc => hex ⟨m, hm, hc⟩)]
    rfl

/-- The demo project contains a typed plugin data event. -/
example : (⟨213, .struct .booBass, .fields [("_u1", some (.bytes [1, 0, 0, 0])), ("bass", some (.int 7)),
    ("mid", some (.int 65535)), ("high", some (.int 0))], 16⟩ : Event) ∈ Demo.project.events := by
  simp [Demo.project, Demo.events]

end PyFLP
