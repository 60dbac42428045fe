import Verif.Props.Files
/-!
# C05 (example) and C06: saving again
-/

namespace PyFLP

open Spec

variable [FloatEnv]

namespace Demo

/-- The ids and payloads of the demo file. -/
def frs : List (Nat × Bytes) := [
  (199, [50, 48, 46, 56, 46, 51, 0]), (64, [0, 0]), (21, [2]),
  (201, [66, 0, 111, 0, 111, 0, 66, 0, 97, 0, 115, 0, 115, 0, 0, 0]),
  (213, [1, 0, 0, 0, 7, 0, 0, 0, 255, 255, 0, 0, 0, 0, 0, 0]), (128, [0, 128, 255, 0]),
  (203, [66, 0, 97, 0, 115, 0, 115, 0, 0, 0]), (64, [1, 0]), (0, [1]), (255, [1, 2, 3])]

theorem frs_eq : project.events.map Event.fr = frs := by
  show [_, _, _, _, _, colour.fr, _, _, _, _] = _
  rw [colour_fr]
  rfl

omit [FloatEnv] in
theorem frs_frames : file.drop 22 = frames frs := by
  simp [frames, frame, varBuild_small, file, frs]

omit [FloatEnv] in
theorem frs_ok : ∀ f ∈ frs, FrameOK f := by
  simp [frs, FrameOK, sizeOK]

theorem reread_events : project.events.map Event.reread = project.events := by
  have h : ∀ e ∈ project.events, e.reread = e := by
    intro e he
    simp only [project, events, List.mem_cons, List.not_mem_nil, or_false] at he
    rcases he with rfl | rfl | rfl | rfl | rfl | rfl | rfl | rfl | rfl | rfl
    all_goals first
      | rfl
      | (unfold Event.reread; rw [pay_eq colour_payload]; rfl)
  rw [List.map_congr_left h]; simp

theorem parsed : parseFile file = .ok project := by
  have hs : ∀ e ∈ project.events, e.stored := fun e he => stored_of (kind_roundtrip (valid e he))
  have := parse_save (p := project) (by decide) (by decide) wellTyped hs saved
  rw [reread_events] at this
  exact this

theorem canon_booBass : canonFields ⟨16⟩ SName.booBass.fields
    [1, 0, 0, 0, 7, 0, 0, 0, 255, 255, 0, 0, 0, 0, 0, 0] := by
  simp [SName.fields, canonFields, leafCanon, leafParse, intParse, PyFLP.u32, Except.map]

/-- Every payload of the demo file is canonical. -/
theorem canon : ∀ x ∈ frs.zip project.events, canonPayload x.2.kind x.1.2 := by
  intro x hx
  simp only [frs, project, events, List.zip_cons_cons, List.zip_nil_right, List.mem_cons, List.not_mem_nil,
    or_false] at hx
  rcases hx with rfl | rfl | rfl | rfl | rfl | rfl | rfl | rfl | rfl | rfl
  · exact ⟨[50, 48, 46, 56, 46, 51], rfl, by decide⟩
  · intro l hl; cases hl; exact ⟨trivial, rfl⟩
  · intro l hl; cases hl; exact ⟨trivial, rfl⟩
  · exact ⟨[66, 0, 111, 0, 111, 0, 66, 0, 97, 0, 115, 0, 115, 0], rfl, by decide +kernel⟩
  · exact canon_booBass
  · trivial
  · exact ⟨[66, 0, 97, 0, 115, 0, 115, 0], rfl, by decide +kernel⟩
  · intro l hl; cases hl; exact ⟨trivial, rfl⟩
  · intro l hl; cases hl; exact ⟨.inr rfl, rfl⟩
  · trivial

end Demo

/-- C05 is not vacuous: the demo file is canonical. -/
example : saveBytes Demo.project = .ok Demo.file :=
  C05_parse_save Demo.file Demo.project Demo.parsed Demo.frs Demo.frs_frames Demo.frs_ok rfl (by decide)
    Demo.canon

/-! ## C06 Re-saving is idempotent

Full statement: if a file is parsed and saved, then parsing the saved file and
saving again gives the same bytes.  It is false: the height of a playlist track
is shown as a truncated percentage, so every save lowers it (0.39 is shown as
"38%", written as 0.38, shown as "37%", written as 0.37, ...). -/

namespace Drift

/-- The fields after the height. -/
def tail : Bytes := [0, 0, 0, 0, 0, 16, 0, 0, 0, 1, 0, 0, 0, 5, 0, 0, 0, 0, 0, 0, 0, 1, 0, 0, 0, 0, 0, 0, 0, 0, 0]

/-- A track (id 238) whose height field holds these four bytes. -/
def payload (h0 h1 h2 h3 : UInt8) : Bytes :=
  [1, 0, 0, 0, 72, 81, 86, 0, 0, 0, 0, 0, 1] ++ ([h0, h1, h2, h3] ++ tail)

/-- What PyFLP sees of it. -/
def record (s : PStr) : Rec := [
  ("iid", some (.int 1)), ("color", some (.int 5656904)), ("icon", some (.int 0)),
  ("enabled", some (.bool true)), ("height", some (.str s)), ("locked_height", some (.int 0)),
  ("content_locked", some (.bool false)),
  ("motion", some (.int 16)), ("press", some (.int 1)), ("trigger_sync", some (.int 5)),
  ("queued", some (.bool false)), ("tolerant", some (.bool true)), ("position_sync", some (.int 0)),
  ("grouped", some (.bool false)), ("locked", some (.bool false)), ("_u1", some (.bytes []))]

theorem structParse_step {cx n f fs bs v m rec r} (h1 : fldParse cx f bs = .ok (v, m))
    (h2 : structParse cx fs m = .ok (rec, r)) :
    structParse cx ((n, f) :: fs) bs = .ok ((n, v) :: rec, r) := by
  unfold structParse
  rw [h1]; dsimp only; rw [h2]

theorem structBuild_step {cx n f fs v b rec r} (h1 : fldBuild cx f v = .ok b)
    (h2 : structBuild cx fs rec = .ok r) :
    structBuild cx ((n, f) :: fs) ((n, v) :: rec) = .ok (b ++ r) := by
  unfold structBuild
  rw [if_pos rfl, h1]; dsimp only; rw [h2]

omit [FloatEnv] in
theorem intParse_dword (h0 h1 h2 h3 : UInt8) (r : Bytes) :
    intParse 4 false ([h0, h1, h2, h3] ++ r) = .ok (((dword h0 h1 h2 h3 : Nat) : Int), r) := by
  have : leNat [h0, h1, h2, h3] = dword h0 h1 h2 h3 := by
    unfold dword
    simp only [leNat]
    omega
  unfold intParse
  rw [if_neg (by simp)]
  simp [this]

omit [FloatEnv] in
theorem intBuild_dword (h0 h1 h2 h3 : UInt8) :
    intBuild 4 false ((dword h0 h1 h2 h3 : Nat) : Int) = .ok [h0, h1, h2, h3] := by
  have := dword_lt h0 h1 h2 h3
  rw [intBuild_nat (w := 4) (by omega), leBytes_dword]

theorem optU32 (cx : Ctx) (a b c d : UInt8) (r : Bytes) (v : Int) (h : (dword a b c d : Nat) = v) :
    fldParse cx (.opt u32) ([a, b, c, d] ++ r) = .ok (some (.int v), r) := by
  simp only [fldParse, leafParse, PyFLP.u32]
  rw [intParse_dword, h]; rfl

theorem optI32 (cx : Ctx) (r : Bytes) : fldParse cx (.opt i32) ([0, 0, 0, 0] ++ r) = .ok (some (.int 0), r) := by
  simp only [fldParse, leafParse, PyFLP.i32]
  unfold intParse
  rw [if_neg (by simp)]
  rfl

theorem optFour (cx : Ctx) (a b c d : UInt8) (r : Bytes) (v : Bool) (h : (decide (dword a b c d ≠ 0)) = v) :
    fldParse cx (.opt .fourBool) ([a, b, c, d] ++ r) = .ok (some (.bool v), r) := by
  simp only [fldParse, leafParse]
  rw [intParse_dword]
  simp only [Except.map]
  rw [← h]
  simp

theorem optFlag (cx : Ctx) (a : UInt8) (r : Bytes) :
    fldParse cx (.opt .flag) ([a] ++ r) = .ok (some (.bool (decide (a ≠ 0))), r) := rfl

theorem optGreedy (cx : Ctx) : fldParse cx (.opt .greedy) [] = .ok (some (.bytes []), []) := rfl

theorem parse_track {h0 h1 h2 h3 : UInt8} {s : PStr} (h : heightDecode (dword h0 h1 h2 h3) = some s) :
    Kind.parse (.struct .track) (payload h0 h1 h2 h3) = .ok (.fields (record s)) := by
  have key : structParse ⟨48⟩ SName.track.fields (payload h0 h1 h2 h3) = .ok (record s, []) := by
    refine structParse_step (optU32 _ 1 0 0 0 _ _ (by decide)) (structParse_step (optU32 _ 72 81 86 0 _ _ (by decide))
      (structParse_step (optU32 _ 0 0 0 0 _ _ (by decide)) (structParse_step (optFlag _ 1 _)
      (structParse_step (m := tail) ?_ (structParse_step (optI32 _ _) (structParse_step (optFlag _ 0 _)
      (structParse_step (optU32 _ 16 0 0 0 _ _ (by decide)) (structParse_step (optU32 _ 1 0 0 0 _ _ (by decide))
      (structParse_step (optU32 _ 5 0 0 0 _ _ (by decide)) (structParse_step (optFour _ 0 0 0 0 _ _ (by decide))
      (structParse_step (optFour _ 1 0 0 0 _ _ (by decide)) (structParse_step (optU32 _ 0 0 0 0 _ _ (by decide))
      (structParse_step (optFlag _ 0 _) (structParse_step (optFlag _ 0 _) (structParse_step (optGreedy _) rfl
      )))))))))))))))
    show fldParse _ _ ([h0, h1, h2, h3] ++ tail) = _
    simp only [fldParse, leafParse]
    rw [intParse_dword]
    dsimp only
    rw [Int.toNat_natCast, h]
  have hl : (payload h0 h1 h2 h3).length = 48 := rfl
  simp only [Kind.parse]
  rw [hl, key]; rfl

theorem optU32B (cx : Ctx) (a b c d : UInt8) (v : Int) (h : (dword a b c d : Nat) = v) :
    fldBuild cx (.opt u32) (some (.int v)) = .ok [a, b, c, d] := by
  simp only [fldBuild, leafBuild, PyFLP.u32]
  rw [← h, intBuild_dword]

theorem optI32B (cx : Ctx) : fldBuild cx (.opt i32) (some (.int 0)) = .ok [0, 0, 0, 0] := by
  simp only [fldBuild, leafBuild, PyFLP.i32]
  rw [show intBuild 4 true 0 = .ok [0, 0, 0, 0] by decide +kernel]

theorem optFourB (cx : Ctx) (a b c d : UInt8) (v : Bool) (h : dword a b c d = if v then 1 else 0) :
    fldBuild cx (.opt .fourBool) (some (.bool v)) = .ok [a, b, c, d] := by
  simp only [fldBuild, leafBuild]
  rw [show (if v = true then (1 : Int) else 0) = ((dword a b c d : Nat) : Int) by rw [h]; split <;> rfl,
    intBuild_dword]

theorem fldBuild_opt {cx : Ctx} {l : Leaf} {v : Option LV} {b : Bytes} (h : leafBuild l v = .ok b) :
    fldBuild cx (.opt l) v = .ok b := by
  simp only [fldBuild]; rw [h]

theorem leafBuild_height {s : PStr} {n : Nat} {b : Bytes} (h : heightEncode s = some n)
    (h' : intBuild 4 false n = .ok b) : leafBuild .height (some (.str s)) = .ok b := by
  simp only [leafBuild]; rw [h]; exact h'

theorem optFlagB (cx : Ctx) (v : Bool) :
    fldBuild cx (.opt .flag) (some (.bool v)) = .ok [if v then 1 else 0] := by
  cases v <;> rfl

theorem optGreedyB (cx : Ctx) : fldBuild cx (.opt .greedy) (some (.bytes [])) = .ok [] := rfl

theorem structBuild_end {cx : Ctx} : structBuild cx [] [] = .ok [] := rfl

theorem build_track {h0 h1 h2 h3 : UInt8} {s : PStr} (h : heightEncode s = some (dword h0 h1 h2 h3)) :
    Kind.build (.struct .track) 48 (.fields (record s)) = .ok (payload h0 h1 h2 h3) := by
  have hh : fldBuild ⟨48⟩ (.opt .height) (some (.str s)) = .ok [h0, h1, h2, h3] := by
    have h' := intBuild_dword h0 h1 h2 h3
    generalize dword h0 h1 h2 h3 = n at h h'
    exact fldBuild_opt (leafBuild_height h h')
  have key := structBuild_step (n := "iid") (optU32B ⟨48⟩ 1 0 0 0 1 (by decide))
    (structBuild_step (n := "color") (optU32B ⟨48⟩ 72 81 86 0 5656904 (by decide))
    (structBuild_step (n := "icon") (optU32B ⟨48⟩ 0 0 0 0 0 (by decide))
    (structBuild_step (n := "enabled") (optFlagB ⟨48⟩ true)
    (structBuild_step (n := "height") hh (structBuild_step (n := "locked_height") (optI32B ⟨48⟩)
    (structBuild_step (n := "content_locked") (optFlagB ⟨48⟩ false)
    (structBuild_step (n := "motion") (optU32B ⟨48⟩ 16 0 0 0 16 (by decide))
    (structBuild_step (n := "press") (optU32B ⟨48⟩ 1 0 0 0 1 (by decide))
    (structBuild_step (n := "trigger_sync") (optU32B ⟨48⟩ 5 0 0 0 5 (by decide))
    (structBuild_step (n := "queued") (optFourB ⟨48⟩ 0 0 0 0 false (by decide))
    (structBuild_step (n := "tolerant") (optFourB ⟨48⟩ 1 0 0 0 true (by decide))
    (structBuild_step (n := "position_sync") (optU32B ⟨48⟩ 0 0 0 0 0 (by decide))
    (structBuild_step (n := "grouped") (optFlagB ⟨48⟩ false) (structBuild_step (n := "locked") (optFlagB ⟨48⟩ false)
    (structBuild_step (n := "_u1") (optGreedyB ⟨48⟩) structBuild_end)))))))))))))))
  simp only [Kind.build]
  exact (congr (congrArg (structBuild ⟨48⟩) rfl) rfl).trans (key.trans (congrArg Except.ok rfl))

/-- Version, channel and track. -/
def project (s : PStr) : Project := ⟨0, 1, 96, [
  ⟨199, .ascii, .str (PStr.lit "20.8"), 5⟩, ⟨64, .u16, .lv (.int 0), 2⟩,
  ⟨238, .struct .track, .fields (record s), 48⟩]⟩

/-- A file with this project. -/
def file (h0 h1 h2 h3 : UInt8) : Bytes :=
  [70, 76, 104, 100, 6, 0, 0, 0, 0, 0, 1, 0, 96, 0, 70, 76, 100, 116, 60, 0, 0, 0] ++
  frames [(199, [50, 48, 46, 56, 0]), (64, [0, 0]), (238, payload h0 h1 h2 h3)]

theorem parse_file {h0 h1 h2 h3 : UInt8} {s : PStr} (h : heightDecode (dword h0 h1 h2 h3) = some s) :
    parseFile (file h0 h1 h2 h3) = .ok (project s) := by
  refine parse_iff.2 ⟨0, 0, 1, 0, 96, 0, 60, 0, 0, 0, _, rfl, by decide, by decide, ?_, ?_, rfl, rfl, rfl, _,
    splits_frames ?_, ?_⟩
  · simp [frames, frame]
  · simp [frames, frame, Demo.varBuild_small, payload, tail, dword]
  · simp [FrameOK, sizeOK, payload, tail]
  · refine .cons ⟨rfl, rfl, by decide +kernel, rfl, by simp, by simp, by simp, ?_⟩
      (.cons ⟨rfl, rfl, by decide +kernel, rfl, by simp, by simp, by simp, by simp⟩
      (.cons ⟨rfl, rfl, ?_, parse_track h, by simp, by simp, by simp, by simp⟩ .nil))
    · intro _
      exact ⟨_, rfl, [20, 8], by decide +kernel⟩
    · unfold kindOf
      rw [show enumType enums 238 = some (.struct .track) by decide +kernel]

theorem save_file {h0 h1 h2 h3 : UInt8} {s : PStr} (h : heightEncode s = some (dword h0 h1 h2 h3)) :
    saveBytes (project s) = .ok (file h0 h1 h2 h3) := by
  have hp : ∀ e ∈ (project s).events, e.id < 256 ∧ ∃ b, e.payload = .ok b := by
    intro e he
    simp only [project, List.mem_cons, List.not_mem_nil, or_false] at he
    rcases he with rfl | rfl | rfl
    · exact ⟨by decide, _, rfl⟩
    · exact ⟨by decide, _, rfl⟩
    · exact ⟨(by decide : 238 < 256), _, build_track h⟩
  have hf : (project s).events.map Event.fr =
      [(199, [50, 48, 46, 56, 0]), (64, [0, 0]), (238, payload h0 h1 h2 h3)] := by
    have : (⟨238, .struct .track, .fields (record s), 48⟩ : Event).fr = (238, payload h0 h1 h2 h3) := by
      unfold Event.fr
      rw [pay_eq (show Event.payload ⟨238, .struct .track, .fields (record s), 48⟩ = _ from build_track h)]
    show [_, _, Event.fr _] = _
    rw [this]; rfl
  unfold saveBytes
  rw [show channelLen (project s).events = .ok 1 from rfl]
  dsimp only
  rw [show packHeader (project s).format 1 (project s).ppq
    = .ok [70, 76, 104, 100, 6, 0, 0, 0, 0, 0, 1, 0, 96, 0] from (by decide +kernel :
      packHeader 0 1 96 = .ok [70, 76, 104, 100, 6, 0, 0, 0, 0, 0, 1, 0, 96, 0]), eventsBytes_eq hp, hf]
  dsimp only
  have hl : (frames [(199, [50, 48, 46, 56, 0]), (64, [0, 0]), (238, payload h0 h1 h2 h3)]).length = 60 := by
    simp [frames, frame, Demo.varBuild_small, payload, tail]
  unfold assemble
  rw [if_pos (by rw [hl]; omega), hl]
  rfl

end Drift

/-- Re-saving is not idempotent: a file with a playlist track of height 0.39 is
parsed and saved, and parsing and saving the result gives a different file. -/
theorem C06_resave_idempotent_refuted : ∃ file p file1 p1 file2,
    parseFile file = .ok p ∧ saveBytes p = .ok file1 ∧
    parseFile file1 = .ok p1 ∧ saveBytes p1 = .ok file2 ∧ file1 ≠ file2 := by
  refine ⟨_, _, _, _, _,
    Drift.parse_file (h0 := 20) (h1 := 174) (h2 := 199) (h3 := 62) (s := PStr.lit "38%") (by decide +kernel),
    Drift.save_file (h0 := 92) (h1 := 143) (h2 := 194) (h3 := 62) (by decide +kernel),
    Drift.parse_file (s := PStr.lit "37%") (by decide +kernel),
    Drift.save_file (h0 := 164) (h1 := 112) (h2 := 189) (h3 := 62) (by decide +kernel), ?_⟩
  unfold Drift.file
  simp [frames, frame, Drift.payload]

/-- If every payload of the file holds only settled values (`settledPayload`:
no playlist track height or logarithmic value that changes when written, no
missing boolean, no ambiguous playlist size), then parsing the saved file gives the
same events as parsing the original and saving again gives the same bytes.
Missing from the full statement: exactly the unsettled payloads. -/
theorem C06_resave_idempotent_partial (file file1 : Bytes) (p : Project) (h : parseFile file = .ok p)
    (fs : List (Nat × Bytes)) (hfs : Splits (file.drop 22) fs)
    (hset : ∀ x ∈ fs.zip p.events, settledPayload x.2.kind x.1.2) (hsave : saveBytes p = .ok file1) :
    ∃ p1, parseFile file1 = .ok p1 ∧ saveBytes p1 = .ok file1 ∧ p1.format = p.format ∧ p1.ppq = p.ppq ∧
      p1.events.map observe = p.events.map observe := by
  obtain ⟨q, h1, h2, h3, h4, h5⟩ := resave h hfs hset hsave
  exact ⟨q, h1, h2, h3, h4, by rw [h5, List.map_map]; rfl⟩

/-- The demo file is settled. -/
example : ∀ x ∈ Demo.frs.zip Demo.project.events, settledPayload x.2.kind x.1.2 := by
  intro x hx
  simp only [Demo.frs, Demo.project, Demo.events, List.zip_cons_cons, List.zip_nil_right, List.mem_cons,
    List.not_mem_nil, or_false] at hx
  rcases hx with rfl | rfl | rfl | rfl | rfl | rfl | rfl | rfl | rfl | rfl
  case inr.inr.inr.inr.inl =>
    simp [settledPayload, settledFields, SName.fields, fldParse, leafParse, intParse, PyFLP.u32, Except.map,
      fieldSettled, leafLossy]
  all_goals trivial

end PyFLP
