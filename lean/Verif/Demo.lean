import Verif.SaveSteps
/-!
# A small project used in the examples
-/

namespace PyFLP.Demo

open PyFLP Spec

variable [FloatEnv]

/-- Checks `WellTyped` event by event. -/
def typedFrom (before : List Event) : List Event → Bool
  | [] => true
  | e :: es =>
    decide (e.id < 256) && decide (kindOf before e.id = some e.kind) &&
    (e.id != 199 || (match e.value with
      | .str s => (intParts (pySplit 46 s)).isSome
      | _ => false)) && typedFrom (before ++ [e]) es

omit [FloatEnv] in
theorem typedFrom_spec {before evs : List Event} (h : typedFrom before evs = true) :
    ∀ pre e post, evs = pre ++ e :: post →
      e.id < 256 ∧ kindOf (before ++ pre) e.id = some e.kind ∧
      (e.id = 199 → ∃ s, e.value = .str s ∧ ∃ parts, intParts (pySplit 46 s) = some parts) := by
  induction evs generalizing before with
  | nil => intro pre e post he; cases pre <;> simp at he
  | cons a evs ih =>
    intro pre e post he
    unfold typedFrom at h
    simp only [Bool.and_eq_true, decide_eq_true_eq] at h
    obtain ⟨⟨⟨h1, h2⟩, h3⟩, h4⟩ := h
    cases pre with
    | nil =>
      simp only [List.nil_append, List.cons.injEq] at he
      obtain ⟨rfl, rfl⟩ := he
      rw [List.append_nil]
      refine ⟨h1, h2, fun h199 => ?_⟩
      rw [h199] at h3
      simp only [bne_self_eq_false, Bool.false_or] at h3
      split at h3
      · next s hs => exact ⟨s, hs, Option.isSome_iff_exists.1 h3⟩
      · cases h3
    | cons p pre =>
      simp only [List.cons_append, List.cons.injEq] at he
      obtain ⟨rfl, he⟩ := he
      have := ih h4 pre e post he
      simpa using this

omit [FloatEnv] in
theorem wellTyped_of {evs : List Event} (h : typedFrom [] evs = true) : WellTyped evs := by
  intro pre e post he
  have := typedFrom_spec h pre e post he
  simpa using this

/-- A colour event. -/
def colour : Event :=
  ⟨128, .color, .color (colDecode 0) (colDecode 128) (colDecode 255) (colDecode 0), 4⟩

theorem colour_payload : colour.payload = .ok [0, 128, 255, 0] := by
  simp only [Event.payload, colour, Kind.build, colEncode_colDecode]
  rfl

theorem colour_fr : colour.fr = (128, [0, 128, 255, 0]) := by
  unfold Event.fr
  rw [pay_eq colour_payload]; rfl

/-- Version, two channels with a name and colour-coded plugin, an unknown event. -/
def events : List Event := [
  ⟨199, .ascii, .str (PStr.lit "20.8.3"), 7⟩,
  ⟨64, .u16, .lv (.int 0), 2⟩,
  ⟨21, .u8, .lv (.int 2), 1⟩,
  ⟨201, .unicode, .str (PStr.lit "BooBass"), 16⟩,
  ⟨213, .struct .booBass, .fields [("_u1", some (.bytes [1, 0, 0, 0])), ("bass", some (.int 7)),
    ("mid", some (.int 65535)), ("high", some (.int 0))], 16⟩,
  colour,
  ⟨203, .unicode, .str (PStr.lit "Bass"), 10⟩,
  ⟨64, .u16, .lv (.int 1), 2⟩,
  ⟨0, .bool, .lv (.bool true), 1⟩,
  ⟨255, .unknown, .bytes [1, 2, 3], 3⟩]

/-- The project. -/
def project : Project := ⟨0, 2, 96, events⟩

omit [FloatEnv] in
theorem wellTyped : WellTyped project.events := wellTyped_of (by decide +kernel)

/-- Its file. -/
def file : Bytes := [
  70, 76, 104, 100, 6, 0, 0, 0, 0, 0, 2, 0, 96, 0, 70, 76, 100, 116, 77, 0, 0, 0, 199, 7, 50, 48, 46, 56, 46,
  51, 0, 64, 0, 0, 21, 2, 201, 16, 66, 0, 111, 0, 111, 0, 66, 0, 97, 0, 115, 0, 115, 0, 0, 0, 213, 16, 1, 0,
  0, 0, 7, 0, 0, 0, 255, 255, 0, 0, 0, 0, 0, 0, 128, 0, 128, 255, 0, 203, 10, 66, 0, 97, 0, 115, 0, 115, 0,
  0, 0, 64, 1, 0, 0, 1, 255, 3, 1, 2, 3]

omit [FloatEnv] in
theorem varBuild_small {n : Nat} (h : n < 128) : varBuild n = [UInt8.ofNat n] := by
  unfold varBuild; rw [dif_pos h]

/-- Serialised events of the project. -/
theorem framed : eventsBytes project.events = .ok (file.drop 22) := by
  have hp : ∀ e ∈ project.events, e.id < 256 ∧ ∃ b, e.payload = .ok b := by
    intro e he
    simp only [project, events, List.mem_cons, List.not_mem_nil, or_false] at he
    rcases he with rfl | rfl | rfl | rfl | rfl | rfl | rfl | rfl | rfl | rfl <;>
      first
        | exact ⟨by decide, _, colour_payload⟩
        | exact ⟨by decide, _, rfl⟩
  rw [eventsBytes_eq hp]
  have hf : project.events.map Event.fr = [
      (199, [50, 48, 46, 56, 46, 51, 0]), (64, [0, 0]), (21, [2]),
      (201, [66, 0, 111, 0, 111, 0, 66, 0, 97, 0, 115, 0, 115, 0, 0, 0]),
      (213, [1, 0, 0, 0, 7, 0, 0, 0, 255, 255, 0, 0, 0, 0, 0, 0]), (128, [0, 128, 255, 0]),
      (203, [66, 0, 97, 0, 115, 0, 115, 0, 0, 0]), (64, [1, 0]), (0, [1]), (255, [1, 2, 3])] := by
    show [_, _, _, _, _, colour.fr, _, _, _, _] = _
    rw [colour_fr]
    rfl
  rw [hf]
  simp [frames, frame, varBuild_small, file]

theorem saved : saveBytes project = .ok file := by
  unfold saveBytes
  rw [show channelLen project.events = .ok 2 from rfl]
  dsimp only
  rw [show packHeader project.format 2 project.ppq = .ok (file.take 14) from rfl, framed]
  rfl

theorem valid : ∀ e ∈ project.events, validValue e.kind e.len e.value := by
  intro e he
  simp only [project, events, List.mem_cons, List.not_mem_nil, or_false] at he
  rcases he with rfl | rfl | rfl | rfl | rfl | rfl | rfl | rfl | rfl | rfl
  · exact ⟨by decide, by decide⟩
  · exact ⟨_, rfl, rfl⟩
  · exact ⟨_, rfl, rfl⟩
  · exact ⟨by simp [PStr.lit, isScalar], by decide⟩
  · refine ⟨rfl, rfl, rfl, by simp, rfl, rfl, by simp [PyFLP.u32], rfl, rfl, by simp [PyFLP.u32], rfl, rfl,
      by simp, ?_⟩
    trivial
  · exact ⟨⟨_, rfl⟩, ⟨_, rfl⟩, ⟨_, rfl⟩, ⟨_, rfl⟩⟩
  · exact ⟨by simp [PStr.lit, isScalar], by decide⟩
  · exact ⟨_, rfl, rfl⟩
  · exact ⟨_, rfl, trivial⟩
  · trivial

end PyFLP.Demo
