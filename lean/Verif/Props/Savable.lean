import Verif.Savable
import Verif.Props.Settles
/-!
# C122: what was opened can be saved
-/

namespace PyFLP

open Spec

theorem varBuild_length {n k : Nat} (hk : 0 < k) (h : n < 128 ^ k) : (varBuild n).length ≤ k := by
  induction k generalizing n with
  | zero => omega
  | succ k ih =>
    unfold varBuild
    split
    · simp
    · next h1 =>
      rw [List.length_cons]
      rcases Nat.eq_zero_or_pos k with rfl | hk'
      · simp at h; omega
      · have := ih hk' (n := n / 128) (by rw [Nat.pow_succ] at h; omega)
        omega

variable [FloatEnv]

/-- Every event that was read can be written. -/
theorem decoded_saves {before : List Event} {fs : List (Nat × Bytes)} {evs : List Event} (h : Decoded before fs evs)
    {data : Bytes} (hsp : Splits data fs) (hl : data.length < 2 ^ 61) :
    (∀ e ∈ evs, e.id < 256 ∧ ∃ b, e.payload = .ok b) ∧ (frames (evs.map Event.fr)).length ≤ 37 * data.length := by
  induction h generalizing data with
  | nil => exact ⟨by simp, by simp [frames]⟩
  | @cons before f e fs evs d t ih =>
    have hid := splits_ids hsp f (by simp)
    cases hsp with
    | @cons id pre payload rest n _ ha hn ht =>
      simp only [List.length_cons, List.length_append] at hl
      obtain ⟨i1, i2⟩ := ih ht (by omega)
      obtain ⟨b, q1, q2⟩ := kind_saves d.value (show payload.length < 2 ^ 62 by omega)
      dsimp only at q2
      have hpay : e.payload = .ok b := by
        unfold Event.payload
        rw [d.len]; exact q1
      have hbp : e.pay = b := pay_eq hpay
      have hp' : e.payload = .ok e.pay := by rw [hbp]; exact hpay
      have hw := fun m => saved_width (n := m) hid d hp'
      have hide : e.id = id.toNat := d.id
      refine ⟨?_, ?_⟩
      · intro x hx
        rcases List.mem_cons.1 hx with rfl | hx
        · exact ⟨by rw [hide]; exact hid, _, hpay⟩
        · exact i1 x hx
      · rw [List.map_cons]
        show (frame e.fr ++ frames _).length ≤ _
        simp only [List.length_append, List.length_cons]
        have hfr : (frame e.fr).length ≤ 37 * (1 + pre.length + payload.length) := by
          have e0 : (frame e.fr).length = 1 + (if e.id < 192 then ([] : Bytes) else varBuild e.pay.length).length + e.pay.length := by
            show (_ :: (_ ++ _) : Bytes).length = _
            rw [List.length_cons, List.length_append]
            show (if e.id < 192 then ([] : Bytes) else varBuild e.pay.length).length + e.pay.length + 1 = _
            omega
          rw [e0]
          by_cases h192 : e.id < 192
          · rw [if_pos h192, List.length_nil]
            have h4 : e.pay.length ≤ 4 := by
              by_cases h1 : e.id < 64
              · rw [hw 1 (by unfold fixedSize; rw [if_pos h1])]; omega
              · by_cases h2 : e.id < 128
                · rw [hw 2 (by unfold fixedSize; rw [if_neg h1, if_pos h2])]; omega
                · rw [hw 4 (by unfold fixedSize; rw [if_neg h1, if_neg h2, if_pos h192])]
            omega
          · rw [if_neg h192]
            have hv := varBuild_length (n := e.pay.length) (k := 9) (by omega) (by rw [hbp]; omega)
            have hpre : 1 ≤ pre.length := by
              rcases ha with a | a | a | ⟨-, a, -⟩
              · omega
              · omega
              · omega
              · cases pre with
                | nil => cases a
                | cons x xs => simp
            rw [hbp] at hv ⊢
            omega
        omega

/-- The header of a project that was opened. -/
theorem opened_header {file : Bytes} {p : Project} (h : parseFile file = .ok p) (n : Nat) :
    (n < 65536 → ∃ hdr, packHeader p.format n p.ppq = .ok hdr) ∧ (65536 ≤ n → packHeader p.format n p.ppq = .error .structError) := by
  obtain ⟨f0, f1, c0, c1, p0, p1, s0, s1, s2, s3, data, g1, g2, g3, g4, g5, g6, g7, g8, fs, hsp, hd⟩ := parse_iff.1 h
  have a1 : intFits 2 true p.format = true := by
    rw [g6]; revert g2; generalize sword f0 f1 = x; intro g2
    simp only [formats, List.mem_cons, List.not_mem_nil, or_false] at g2
    rcases g2 with rfl | rfl | rfl | rfl | rfl | rfl | rfl | rfl | rfl | rfl <;> decide
  have a3 : intFits 2 false (p.ppq : Int) = true := by
    have := p0.toNat_lt
    have := p1.toNat_lt
    rw [g8]
    unfold word
    simp only [intFits, Bool.false_eq_true, if_false, decide_eq_true_eq]; omega
  obtain ⟨x, hx⟩ := intBuild_ok_iff.2 a1
  obtain ⟨z, hz⟩ := intBuild_ok_iff.2 a3
  constructor
  · intro h2
    have a2 : intFits 2 false (n : Int) = true := by
      simp only [intFits, Bool.false_eq_true, if_false, decide_eq_true_eq]; omega
    obtain ⟨y, hy⟩ := intBuild_ok_iff.2 a2
    exact ⟨_, by unfold packHeader; rw [hx, hy, hz]⟩
  · intro h2
    have a2 : ¬ intFits 2 false (n : Int) = true := by
      simp only [intFits, Bool.false_eq_true, if_false, decide_eq_true_eq]; omega
    have : ∃ e, intBuild 2 false (n : Int) = .error e := by
      unfold intBuild; rw [if_neg a2]; exact ⟨_, rfl⟩
    obtain ⟨e, he⟩ := this
    unfold packHeader; rw [hx, he, hz]

/-- **C122.** Every file of at most 100 MB that opens as a project with at least one and at most 65535 channels can be saved
again, whatever else is in it. -/
theorem C122_opened_saves (file : Bytes) (p : Project) (h : parseFile file = .ok p) (hs : file.length ≤ 100000000)
    (h1 : channelStarts p.events ≠ 0) (h2 : channelStarts p.events < 65536) : ∃ saved, saveBytes p = .ok saved := by
  obtain ⟨f0, f1, c0, c1, p0, p1, s0, s1, s2, s3, data, g1, g2, g3, g4, g5, g6, g7, g8, fs, hsp, hd⟩ := parse_iff.1 h
  have hdl : data.length ≤ 100000000 := by rw [g1, List.length_append] at hs; omega
  obtain ⟨d1, d2⟩ := decoded_saves hd hsp (by omega)
  obtain ⟨hdr, hh⟩ := (opened_header h _).1 h2
  unfold saveBytes
  rw [channelLen_eq, if_neg h1]
  dsimp only
  rw [hh]
  dsimp only
  rw [eventsBytes_eq d1]
  exact ⟨_, by unfold assemble; dsimp only; rw [if_pos (by omega)]⟩

/-- When and how saving what was opened fails, exactly: there is no channel, there are more channels than the header can
count, or the events take 4 GiB or more.  No event makes it fail. -/
theorem C122_save_fails_exact (file : Bytes) (p : Project) (h : parseFile file = .ok p) (err : Exc) :
    saveBytes p = .error err ↔
      (channelStarts p.events = 0 ∧ err = .noModelsFound) ∨
      (65536 ≤ channelStarts p.events ∧ err = .structError) ∨
      (channelStarts p.events ≠ 0 ∧ channelStarts p.events < 65536 ∧ err = .overflowError ∧
        ∃ body, eventsBytes p.events = .ok body ∧ 2 ^ 32 ≤ body.length) := by
  obtain ⟨f0, f1, c0, c1, p0, p1, s0, s1, s2, s3, data, g1, g2, g3, g4, g5, g6, g7, g8, fs, hsp, hd⟩ := parse_iff.1 h
  have hdl : data.length < 2 ^ 32 := by rw [← g5]; exact dword_lt s0 s1 s2 s3
  obtain ⟨d1, -⟩ := decoded_saves hd hsp (by omega)
  have hb := eventsBytes_eq d1
  unfold saveBytes
  rw [channelLen_eq]
  by_cases h0 : channelStarts p.events = 0
  · rw [if_pos h0]
    dsimp only
    constructor
    · intro he; exact .inl ⟨h0, (Except.error.inj he).symm⟩
    · rintro (⟨-, rfl⟩ | ⟨h1, -⟩ | ⟨h1, -⟩)
      · rfl
      · omega
      · exact absurd h0 h1
  · rw [if_neg h0]
    dsimp only
    by_cases h2 : channelStarts p.events < 65536
    · obtain ⟨hdr, hh⟩ := (opened_header h _).1 h2
      rw [hh]
      dsimp only
      rw [hb]
      unfold assemble
      dsimp only
      split
      · next hl =>
        constructor
        · intro he; cases he
        · rintro (⟨h1, -⟩ | ⟨h1, -⟩ | ⟨-, -, -, body, h3, h4⟩)
          · exact absurd h1 h0
          · omega
          · rw [Except.ok.inj h3] at hl; omega
      · next hl =>
        constructor
        · intro he
          exact .inr (.inr ⟨h0, h2, (Except.error.inj he).symm, _, rfl, by omega⟩)
        · rintro (⟨h1, -⟩ | ⟨h1, -⟩ | ⟨-, -, rfl, -⟩)
          · exact absurd h1 h0
          · omega
          · rfl
    · rw [(opened_header h _).2 (by omega)]
      dsimp only
      constructor
      · intro he; exact .inr (.inl ⟨by omega, (Except.error.inj he).symm⟩)
      · rintro (⟨h1, -⟩ | ⟨-, rfl⟩ | ⟨-, h1, -⟩)
        · exact absurd h1 h0
        · rfl
        · exact absurd h1 h2

/-- A project with a track of height 0.39, which is not stored exactly: it can be saved. -/
example : ∃ saved, saveBytes (Drift.project (PStr.lit "38%")) = .ok saved :=
  C122_opened_saves (Drift.file 20 174 199 62) _ (Drift.parse_file (by decide +kernel))
    (by simp [Drift.file, frames, frame, Demo.varBuild_small, Drift.payload, Drift.tail])
    (by decide) (by decide)

/-- A file with just a version. -/
def Demo.onlyVersion : Bytes :=
  [70, 76, 104, 100, 6, 0, 0, 0, 0, 0, 0, 0, 96, 0, 70, 76, 100, 116, 7, 0, 0, 0] ++ frames [(199, [50, 48, 46, 56, 0])]

/-- It opens and cannot be saved. -/
example : ∃ p, parseFile Demo.onlyVersion = .ok p ∧ saveBytes p = .error .noModelsFound := by
  have h : parseFile Demo.onlyVersion = .ok ⟨0, 0, 96, [⟨199, .ascii, .str (PStr.lit "20.8"), 5⟩]⟩ := by
    refine parse_iff.2 ⟨0, 0, 0, 0, 96, 0, 7, 0, 0, 0, _, rfl, by decide, by decide, ?_, ?_, rfl, rfl, rfl, _,
      splits_frames ?_, ?_⟩
    · simp [frames, frame]
    · simp [frames, frame, Demo.varBuild_small, dword]
    · simp [FrameOK, sizeOK]
    · exact .cons ⟨rfl, rfl, by decide +kernel, rfl, by simp, by simp, by simp, fun _ => ⟨_, rfl, [20, 8], by decide +kernel⟩⟩ .nil
  exact ⟨_, h, (C122_save_fails_exact _ _ h _).2 (.inl ⟨rfl, rfl⟩)⟩

end PyFLP
