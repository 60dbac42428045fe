import Verif.Props.Bits
import Verif.Props.Exact13
/-!
# Switching `slide` of a note changes one bit of the saved file (C146)
-/

namespace PyFLP

open Spec

variable [FloatEnv]

theorem word_of_means {c : Bytes} {n : Nat} (h : FieldMeans (.int 2 false) c [] (.int n)) : c = leBytes 2 n ∧ n < 2 ^ 16 := by
  obtain ⟨h1, v, h2, h3, h4⟩ := h
  cases h2
  have h5 : (littleEndian c : Int) = n := by have := h4; simp [Encodes] at this; omega
  have h6 : littleEndian c = n := by omega
  refine ⟨?_, by have := h3; simp [InRange] at this; omega⟩
  rw [← h6, littleEndian_eq, leBytes_leNat' h1]

/-- **C146** for notes, all bits of the file: after any edits of the notes of a pattern, assigning `note.slide` sets or clears bit 3 of
the flag word of this note in the saved file: a note has 24 bytes, and the flag word is the fifth and the sixth of them.  From
Python 3.11 on clearing it also clears every higher bit of the word.  All other bits of the file, and its size, stay. -/
theorem C146_slide {p : Project} {before : Bytes} (hb : saveBytes p = .ok before) {i : Nat} {e : Event} (hi : p.events[i]? = some e)
    (hk : e.kind = .list .notes) {l : List Rec} {s : ListObj} {hs : List Item} {es : List Edit} (r : IReach l s hs es)
    (hval : e.value = .items s.value) (hv : validValue e.kind e.len e.value) {it : Item} (hm : it ∈ hs) {n : Nat}
    (hn : s.get it "flags" = .ok (some (.int n))) (ver : PyVer) (b : Bool) :
    ∃ s' start after, s.setNoteSlide ver it b = (s', .ok ()) ∧ DataStart p i start ∧
      saveBytes { p with events := p.events.set i { e with value := .items s'.value } } = .ok after ∧ after.length = before.length ∧
      ∀ x, fileBit after x =
        if x = 8 * (start + 24 * it.index + 4) + 3 then b
        else if (b = false ∧ ver = .from311) ∧
            8 * (start + 24 * it.index + 4) + 3 < x ∧ x < 8 * (start + 24 * it.index + 4) + 16 then false
        else fileBit before x := by
  obtain ⟨s', m, h1, -, h3, -, h5⟩ := C104_exact r hm hn ver b
  obtain ⟨rec, hj, hy⟩ : ∃ rec, s.value[it.index]? = some rec ∧ rec.lookup "flags" = some (some (.int n)) := by
    obtain ⟨i1, i2, i3⟩ := ireach_inv r
    obtain ⟨j1, j2⟩ := i3 it hm
    have hlen : it.index < s.objs.length := by rw [i1, applyEdits_length]; exact j2
    refine ⟨s.objs[it.index], by rw [ireach_value r, ← i1]; exact List.getElem?_eq_getElem hlen, ?_⟩
    unfold ListObj.get at hn
    rw [j1, List.getD_eq_getElem?_getD, List.getElem?_eq_getElem hlen, Option.getD_some] at hn
    split at hn
    · next v hv' => rw [hv']; cases hn; rfl
    · cases hn
  have hset : s'.value = s.value.set it.index (Rec.put rec "flags" (some (.int m))) := by
    rw [h3, List.modify_eq_set, hj]
    rfl
  have place : ("flags", 4, Leaf.int 2 false) ∈ listLayout .notes := by simp [listLayout]
  obtain ⟨_, _, _, _, _, o2, _⟩ := C134_item hb hi hk hval hv hj place rfl hy (x := .int (0 : Nat)) ((word_valid 2 0).2 (by decide))
  have hnlt := (word_of_means o2).2
  have hmlt : m < 2 ^ 16 := Nat.lt_pow_two_of_testBit m fun k hk => by
    rw [h5, if_neg (by omega), Nat.testBit_lt_two_pow (Nat.lt_of_lt_of_le hnlt (Nat.pow_le_pow_right (by omega) hk))]
    rfl
  obtain ⟨after, start, f1, f2, f3, f4, f5⟩ := C134_item hb hi hk hval hv hj place rfl hy (x := .int m) ((word_valid 2 m).2 hmlt)
  rw [← hset] at f1
  refine ⟨s', start, after, h1, f2, f1, f3.size, fun x => ?_⟩
  have hpl : start + (recordSize .notes e.len * it.index + 4) = start + 24 * it.index + 4 := by
    show start + (24 * it.index + 4) = _
    omega
  rw [hpl] at f3 f4 f5
  generalize start + 24 * it.index + 4 = a at *
  obtain ⟨q1, q2⟩ := overwritten_bits f3 (word_of_means f4).1 (word_of_means f5).1 x
  by_cases hin : 8 * a ≤ x ∧ x < 8 * (a + 2)
  · obtain ⟨p1, p2⟩ := q1 hin.1 hin.2
    rw [p1, p2, h5]
    obtain ⟨d, rfl⟩ : ∃ d, x = 8 * a + d := ⟨x - 8 * a, by omega⟩
    rw [Nat.add_sub_cancel_left]
    by_cases hd : d = 3
    · subst hd; simp
    · rw [if_neg hd, if_neg (by omega)]
      cases b with
      | true => simp
      | false =>
        cases ver with
        | upTo310 => simp
        | from311 =>
          by_cases hlt : d < 3
          · have : ¬ 8 * a + 3 < 8 * a + d := by omega
            simp [hlt]
            omega
          · have g1 : 8 * a + 3 < 8 * a + d := by omega
            have g2 : 8 * a + d < 8 * a + 16 := by omega
            simp [hlt, g1, g2]
  · rw [if_neg (by omega), if_neg (by omega)]
    exact q2 (by omega)

/-- The second note of a pattern with two notes that have bit 14 of the flag word: setting `slide` changes one bit of the file, and
clearing it on Python 3.11 clears bit 14 too. -/
example : ∃ s it hs before start, IReach [Demo.note, Demo.note] s hs [] ∧ it ∈ hs ∧ saveBytes Demo.played = .ok before ∧
    DataStart Demo.played 3 start ∧
    (∀ ver, ∃ s' after, s.setNoteSlide ver it true = (s', .ok ()) ∧
      saveBytes { Demo.played with events := Demo.played.events.set 3 ⟨224, .list .notes, .items s'.value, 48⟩ } = .ok after ∧
      ∀ x, fileBit after x = if x = 8 * (start + 28) + 3 then true else fileBit before x) ∧
    ∃ s' after, s.setNoteSlide .from311 it false = (s', .ok ()) ∧
      saveBytes { Demo.played with events := Demo.played.events.set 3 ⟨224, .list .notes, .items s'.value, 48⟩ } = .ok after ∧
      fileBit after (8 * (start + 28) + 14) = false := by
  have hv : validValue (.list .notes) 48 (.items (ListObj.parse [Demo.note, Demo.note]).value) := by
    refine ⟨fun r hr => ?_, nofun⟩
    have hr : r ∈ [Demo.note, Demo.note] := hr
    simp only [List.mem_cons, List.not_mem_nil, or_false, or_self] at hr
    subst hr
    exact ⟨rfl, rfl, rfl, rfl, rfl, rfl, rfl, rfl, rfl, rfl, rfl, rfl, rfl, rfl, rfl, rfl, rfl, rfl, rfl, rfl, rfl,
      rfl, rfl, rfl, rfl, rfl, rfl, rfl, trivial⟩
  obtain ⟨before, hb⟩ : ∃ file, saveBytes Demo.played = .ok file := by
    rw [C03_save_succeeds]
    refine ⟨[frame (199, [50, 48, 46, 56, 46, 51, 0]), frame (64, [0, 0]), frame (65, [1, 0]),
      frame (224, Demo.noteBytes ++ Demo.noteBytes)], ?_, by decide, by decide, by decide,
      by simp [frame, Demo.varBuild_small, Demo.noteBytes]⟩
    simp only [Demo.played, List.map_cons, List.map_nil]
    rw [Demo.toBytes_frame (b := [50, 48, 46, 56, 46, 51, 0]) (by decide) rfl, Demo.toBytes_frame (b := [0, 0]) (by decide) rfl,
      Demo.toBytes_frame (b := [1, 0]) (by decide) rfl, Demo.toBytes_frame (b := Demo.noteBytes ++ Demo.noteBytes) (by decide) rfl]
  have key := fun ver b => C146_slide hb (i := 3) (e := ⟨224, .list .notes, .items [Demo.note, Demo.note], 48⟩) rfl rfl
    (s := .parse [Demo.note, Demo.note]) (.fetch .parsed) rfl hv (it := ⟨1, 1⟩) (by decide) (n := 16384) (by decide) ver b
  obtain ⟨s0, start, a0, -, d0, -, -, -⟩ := key .from311 true
  refine ⟨_, ⟨1, 1⟩, _, before, start, .fetch .parsed, by decide, hb, d0, fun ver => ?_, ?_⟩
  · obtain ⟨s', start', after, k1, k2, k3, -, k5⟩ := key ver true
    cases dataStart_unique k2 d0
    refine ⟨s', after, k1, k3, fun x => ?_⟩
    rw [k5, if_neg (c := (_ ∧ _) ∧ _) (by simp), show start + 24 * (⟨1, 1⟩ : Item).index + 4 = start + 28 by show start + 24 * 1 + 4 = _; omega]
  · obtain ⟨s', start', after, k1, k2, k3, -, k5⟩ := key .from311 false
    cases dataStart_unique k2 d0
    refine ⟨s', after, k1, k3, ?_⟩
    rw [k5, show start + 24 * (⟨1, 1⟩ : Item).index + 4 = start + 28 by show start + 24 * 1 + 4 = _; omega, if_neg (by omega),
      if_pos ⟨⟨rfl, rfl⟩, by omega, by omega⟩]

end PyFLP
