import Verif.Props.Exact3
import Verif.Props.ItemsSaved
/-!
# C104 exactly: all flags of a note after an assignment of `slide`
-/

namespace PyFLP

open Spec

/-- **C104**: assigning `note.slide` always succeeds and changes nothing but the flag word of this note; afterwards bit 3 is the
value assigned, bits 0 to 2 are as before, and the higher bits are as before if `True` was assigned or Python is older than 3.11;
otherwise they are all 0. -/
theorem C104_exact {l : List Rec} {s : ListObj} {hs : List Item} {es : List Edit} (r : IReach l s hs es) {it : Item}
    (hm : it ∈ hs) {n : Nat} (hn : s.get it "flags" = .ok (some (.int n))) (ver : PyVer) (b : Bool) :
    ∃ s', ∃ m : Nat, s.setNoteSlide ver it b = (s', .ok ()) ∧
      (∀ it' ∈ hs, it'.index = it.index → s'.get it' "flags" = .ok (some (.int m))) ∧
      s'.value = s.value.modify it.index (fun r => Rec.put r "flags" (some (.int m))) ∧
      (∀ it' ∈ hs, ∀ key', it'.index ≠ it.index ∨ key' ≠ "flags" → s'.get it' key' = s.get it' key') ∧
      ∀ i, m.testBit i = if i = 3 then b else n.testBit i && (b || decide (ver = .upTo310) || decide (i < 3)) := by
  obtain ⟨s', m, h1, _, h2, h3, h4, h5⟩ := slide_set r hm hn ver b
  refine ⟨s', m, h1, h4, h2, h5, fun i => ?_⟩
  have h := flag_bits_exact (ver := ver) (members := 8) (flag := 8) (by decide) (by decide) h3 i
  have t8 : Nat.testBit 8 i = decide (i = 3) := by
    rw [show 8 = 2 ^ 3 from rfl, Nat.testBit_two_pow]
    simp [eq_comm]
  have l8 : Nat.log2 8 = 3 := by decide
  rw [h, t8, l8]
  by_cases e : i = 3
  · subst e
    cases b <;> simp
  · rw [if_neg e]
    cases b
    · have : decide (i ≤ 3) = decide (i < 3) := decide_eq_decide.2 (by omega)
      simp [e, this]
    · simp [e]

/-- Flag 0x4000 of a note is lost with Python 3.11 and kept with 3.10. -/
example : ∃ s hs it, IReach [[("flags", some (.int 0x4008))]] s hs [] ∧ it ∈ hs ∧ s.get it "flags" = .ok (some (.int (0x4008 : Nat))) ∧
    (s.setNoteSlide .from311 it false).1.get it "flags" = .ok (some (.int 0)) ∧
    (s.setNoteSlide .upTo310 it false).1.get it "flags" = .ok (some (.int 0x4000)) :=
  ⟨.parse [[("flags", some (.int 0x4008))]], _, ⟨0, 0⟩, .fetch .parsed, by decide +kernel, by decide +kernel, by decide +kernel,
    by decide +kernel⟩

end PyFLP
