import Verif.Props.Tempo
import Verif.Props.ProjectValues
/-!
# The file format (C42), the tempo that is read (C100) and the build number (C101)
-/

namespace PyFLP

open Spec Heap

/-! ### C42: the file format -/

/-- C42. `project.format = value` changes only the format; if it is one of FL Studio's formats, the saved
file has it and reads the same. -/
theorem C42_format [FloatEnv] [UniEnv] {w : World} {L : Nat → Prop} (r : WReach w L) (value : Int) :
    WReach (w.setFormat value) L ∧ (w.setFormat value).format = value ∧
    (w.setFormat value).project = { w.project with format := value } ∧
    (value ∈ formats → w.ppq ∈ ppqs → WellTyped w.project.events →
      (∀ e ∈ w.project.events, validValue e.kind e.len e.value) →
      ∀ file, saveBytes (w.setFormat value).project = .ok file →
        ∃ q, parseFile file = .ok q ∧ q.format = value ∧ q.ppq = w.ppq ∧
          q.events.map observe = w.project.events.map observe) := by
  refine ⟨.header r value w.channelCount w.ppq, rfl, rfl, ?_⟩
  intro hf hq ht hv file h
  obtain ⟨q, h1, h2, h3, _, h5, _⟩ := C04_save_parse (w.setFormat value).project file hf hq ht hv h
  exact ⟨q, h1, h2, h3, h5⟩

/-- The numbers that are not formats of FL Studio are not refused: they are stored, and the file that
`save` then writes is refused by `parse`. -/
theorem C42_format_unreadable [FloatEnv] [UniEnv] (w : World) (value : Int) (hf : value ∉ formats) (file : Bytes)
    (h : saveBytes (w.setFormat value).project = .ok file) : parseFile file = .error .headerCorrupted := by
  rw [C01_header_exact]
  rintro ⟨f0, f1, c0, c1, p0, p1, s0, s1, s2, s3, data, h1, h2, _⟩
  obtain ⟨⟨g0, g1, _, _, _, _, _, _, _, _, raws, k1, k2, _⟩, _⟩ := C03_saved_header _ _ h
  rw [h1] at k1
  simp only [List.cons_append, List.cons.injEq, true_and] at k1
  obtain ⟨rfl, rfl, _⟩ := k1
  exact hf (by rw [k2] at h2; exact h2)

/-- C42 is false for `format`: the value 7 is accepted, and saved into a file that cannot be parsed. -/
theorem C42_format_refuted [FloatEnv] [UniEnv] : ¬ ∀ (w : World) (L : Nat → Prop) (_ : WReach w L) (value : Int) (file : Bytes),
    w.ppq ∈ ppqs → saveBytes (w.setFormat value).project = .ok file →
    ∃ q, parseFile file = .ok q ∧ q.format = value := by
  intro h
  have hp : (Demo.start.setFormat 7).project = { Demo.project with format := 7 } := by
    show Project.mk _ _ _ Demo.start.project.events = _
    rw [show Demo.start.project = Demo.project from ofProject_project _]; rfl
  obtain ⟨raws, k1, k2, k3, k4, k5⟩ := (C03_save_succeeds Demo.project).1 ⟨_, Demo.saved⟩
  obtain ⟨file, hs⟩ : ∃ file, saveBytes (Demo.start.setFormat 7).project = .ok file := by
    rw [hp]
    exact (C03_save_succeeds _).2 ⟨raws, k1, k2, ⟨by decide, by decide⟩, k4, k5⟩
  obtain ⟨q, h1, _⟩ := h _ _ Demo.start_reach 7 file (by decide) hs
  rw [C42_format_unreadable _ 7 (by decide) file hs] at h1
  cases h1

/-! ### C100: the tempo that is read -/

/-- C100. The tempo of a project is the stored number of thousandths, to the precision of a float;
without it the whole tempo, to which the stored thousandths are added; without both there is none. -/
theorem C100_tempo_partial {w : World} {L : Nat → Prop} (r : WReach w L) :
    (∀ n : Int, valueOf w.project.events 156 = some (.lv (.int n)) →
      ∃ q, w.tempo = .ok (some (.float q)) ∧ |q - n / 1000| ≤ |(n : Rat) / 1000| / 2 ^ 53) ∧
    ((∀ e ∈ w.project.events, e.id ≠ 156) →
      (∀ c n : Int, valueOf w.project.events 66 = some (.lv (.int c)) →
        valueOf w.project.events 93 = some (.lv (.int n)) → 0 ≤ c → 0 ≤ n →
        ∃ q, w.tempo = .ok (some (.float q)) ∧ |q - (c + n / 1000)| ≤ ((c : Rat) + n / 1000) / 2 ^ 51) ∧
      ((∀ e ∈ w.project.events, e.id ≠ 93) →
        (∀ c : Int, valueOf w.project.events 66 = some (.lv (.int c)) → w.tempo = .ok (some (.int c))) ∧
        ((∀ e ∈ w.project.events, e.id ≠ 66) → w.tempo = .ok none))) := by
  have hno : ∀ {id}, (∀ e ∈ w.project.events, e.id ≠ id) → valueOf w.project.events id = none := by
    intro id h
    unfold valueOf
    rw [Option.map_eq_none_iff, List.find?_eq_none]
    simpa using h
  rw [tempo_eq r]
  refine ⟨?_, fun h156 => ⟨?_, fun h93 => ⟨?_, fun h66 => ?_⟩⟩⟩
  · intro n hn
    rw [hn]
    exact ⟨_, rfl, fl_err _⟩
  · intro c n hc hn c0 n0
    rw [hno h156, hc, hn]
    refine ⟨_, rfl, ?_⟩
    unfold addMilli
    have c0' : (0 : Rat) ≤ c := by exact_mod_cast c0
    have n0' : (0 : Rat) ≤ n := by exact_mod_cast n0
    generalize (c : Rat) = c at *
    generalize (n : Rat) = n at *
    have e2 := fl_err (n / 1000)
    rw [abs_of_nonneg (by positivity : 0 ≤ n / 1000), abs_le] at e2
    have hg : 0 ≤ fl (n / 1000) := fl_nonneg (by positivity)
    generalize fl (n / 1000) = g at *
    have e3 := fl_err (c + g)
    rw [abs_of_nonneg (by linarith : 0 ≤ c + g), abs_le] at e3
    generalize fl (c + g) = y at *
    rw [abs_le]
    constructor <;> norm_num at * <;> linarith [e2.1, e2.2, e3.1, e3.2]
  · intro c hc
    rw [hno h156, hno h93, hc]
    rfl
  · rw [hno h156, hno h93, hno h66]
    rfl

/-- With stored thousandths and no whole tempo, reading the tempo and setting it raise `TypeError`. -/
theorem C100_fine {w : World} {L : Nat → Prop} (r : WReach w L) {n : Int}
    (h156 : ∀ e ∈ w.project.events, e.id ≠ 156) (h66 : ∀ e ∈ w.project.events, e.id ≠ 66)
    (hn : valueOf w.project.events 93 = some (.lv (.int n))) :
    w.tempo = .error .typeError ∧ ∀ x, w.setTempo x = (w, .error .typeError) := by
  have hno : ∀ {id}, (∀ e ∈ w.project.events, e.id ≠ id) → valueOf w.project.events id = none := by
    intro id h
    unfold valueOf
    rw [Option.map_eq_none_iff, List.find?_eq_none]
    simpa using h
  have ht : w.tempo = .error .typeError := by
    rw [tempo_eq r, hno h156, hno h66, hn]
    rfl
  refine ⟨ht, fun x => ?_⟩
  unfold World.setTempo
  rw [ht]

/-- C100 is false for a project with thousandths and no whole tempo. -/
theorem C100_fine_refuted : ¬ ∀ (w : World) (L : Nat → Prop), WReach w L → ∃ t, w.tempo = .ok t := by
  intro h
  obtain ⟨t, ht⟩ := h (World.ofProject ⟨0, 0, 96, [⟨93, .u16, .lv (.int 500), 2⟩]⟩) _ (.parsed _)
  rw [(C100_fine (n := 500) (.parsed _) (by decide) (by decide) (by decide)).1] at ht
  cases ht

/-- The tempo events of C100. -/
example : ∃ w L, WReach w L ∧ (∀ e ∈ w.project.events, e.id ≠ 156) ∧
    valueOf w.project.events 66 = some (.lv (.int 120)) ∧ valueOf w.project.events 93 = some (.lv (.int 500)) :=
  ⟨World.ofProject ⟨0, 0, 96, [⟨66, .u16, .lv (.int 120), 2⟩, ⟨93, .u16, .lv (.int 500), 2⟩]⟩, _, .parsed _,
    by decide, by decide, by decide⟩

/-! ### C101: the build number -/

/-- C101. After assigning a version with four parts, the build event holds the fourth one. -/
theorem C101_build_partial {w : World} {L : Nat → Prop} (r : WReach w L) (v : FLVersion) (b : Int) (hb : v.build = some b)
    (hex : ∃ e ∈ w.project.events, e.id = 199) (h159 : ∃ e ∈ w.project.events, e.id = 159)
    {a : VersionArg} (ha : a = .version v ∨ a = .str v.repr ∨ a = .tuple [v.major, v.minor, v.patch, b]) :
    ∃ w', w.setVersion a = (w', .ok ()) ∧ w'.version = .ok v ∧
      valueOf w'.project.events 159 = some (.lv (.int b)) := by
  obtain ⟨w', h1, _, h3, h4⟩ := C44_version r v hex (a := a) (by
    rcases ha with rfl | rfl | rfl
    · exact .inl rfl
    · exact .inr (.inl rfl)
    · exact .inr (.inr (by unfold versionParts; rw [hb])))
  refine ⟨w', h1, h3, ?_⟩
  rw [h4, hb]
  refine valueOf_setFirst_self ?_
  rw [valueOf_setFirst_other (by decide)]
  unfold valueOf
  rw [Option.isSome_map, List.find?_isSome]
  simpa using h159

/-- C101. With three parts, the build event keeps its old number. -/
theorem C101_build_kept {w : World} {L : Nat → Prop} (r : WReach w L) (v : FLVersion) (hb : v.build = none)
    (hex : ∃ e ∈ w.project.events, e.id = 199)
    {a : VersionArg} (ha : a = .version v ∨ a = .str v.repr ∨ a = .tuple [v.major, v.minor, v.patch]) :
    ∃ w', w.setVersion a = (w', .ok ()) ∧ w'.version = .ok v ∧
      valueOf w'.project.events 159 = valueOf w.project.events 159 := by
  obtain ⟨w', h1, _, h3, h4⟩ := C44_version r v hex (a := a) (by
    rcases ha with rfl | rfl | rfl
    · exact .inl rfl
    · exact .inr (.inl rfl)
    · exact .inr (.inr (by unfold versionParts; rw [hb])))
  refine ⟨w', h1, h3, ?_⟩
  rw [h4, hb]
  exact valueOf_setFirst_other (by decide)

namespace Demo

/-- A project of FL Studio 20.8.3.2304. -/
def built : World := World.ofProject ⟨0, 0, 96, [⟨199, .ascii, .str (PStr.lit "20.8.3.2304"), 12⟩,
  ⟨159, .u32, .lv (.int 2304), 4⟩]⟩

theorem built_reach : WReach built (· = 0) := .parsed _

example : (∃ e ∈ built.project.events, e.id = 199) ∧ (∃ e ∈ built.project.events, e.id = 159) := by
  decide +kernel

end Demo

/-- C101 is false for versions with three parts: the build event contradicts the version. -/
theorem C101_build_refuted : ¬ ∀ (w w' : World) (L : Nat → Prop) (v : FLVersion), WReach w L →
    w.setVersion (.version v) = (w', .ok ()) → ∀ b : Int, valueOf w'.project.events 159 = some (.lv (.int b)) →
    v.build = some b := by
  intro h
  obtain ⟨w', h1, _, h3⟩ := C101_build_kept Demo.built_reach ⟨21, 0, 0, none⟩ rfl (by decide +kernel) (.inl rfl)
  have := h _ w' _ _ Demo.built_reach h1 2304 (by rw [h3]; decide +kernel)
  cases this

end PyFLP
