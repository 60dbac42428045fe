import Verif.Props.Bytewise
import Verif.Props.Exact3
import Verif.Props.PropSaved
/-!
# Switching a flag changes one bit of the saved file (C146)
-/

namespace PyFLP

open Spec Heap

namespace Spec

/-- The bits of a file: bit 0 is the lowest bit of the first byte, bit 8 the lowest bit of the second one. -/
def fileBit (file : Bytes) (i : Nat) : Bool := (file.getD (i / 8) 0).toNat.testBit (i % 8)

/-- The flag word that a flag property uses is a field at this place of the data of the event, or the only number in it. -/
def WordAt (e : Event) (key : String) (place : Nat) (l : Leaf) : Prop :=
  (∃ s, e.kind = .struct s ∧ (key, place, l) ∈ structLayout s e.len) ∨ (e.kind.leaf = some l ∧ place = 0)

end Spec

theorem leBytes_bit {w k : Nat} (h : k < w) (n : Nat) {i : Nat} (hi : i < 8) :
    ((leBytes w n).getD k 0).toNat.testBit i = n.testBit (8 * k + i) := by
  induction w generalizing k n with
  | zero => omega
  | succ w ih =>
    cases k with
    | zero =>
      have : (UInt8.ofNat (n % 256)).toNat = n % 2 ^ 8 := by
        simp
      simp only [leBytes, List.getD_cons_zero, this, Nat.testBit_mod_two_pow, hi, decide_true, Bool.true_and, Nat.mul_zero, Nat.zero_add]
    | succ k =>
      simp only [leBytes, List.getD_cons_succ]
      rw [ih (by omega), show (256 : Nat) = 2 ^ 8 from rfl, Nat.testBit_div_two_pow]
      congr 1
      omega

/-- The bits of a file of which some bytes are overwritten. -/
theorem overwritten_bits {before after : Bytes} {at' w n m : Nat} (h : Overwritten before after at' w)
    (hb : bytesAt before at' w = leBytes w n) (ha : bytesAt after at' w = leBytes w m) (x : Nat) :
    (8 * at' ≤ x → x < 8 * (at' + w) → fileBit before x = n.testBit (x - 8 * at') ∧ fileBit after x = m.testBit (x - 8 * at')) ∧
    ((x < 8 * at' ∨ 8 * (at' + w) ≤ x) → fileBit after x = fileBit before x) := by
  obtain ⟨h1, h2, h3, h4⟩ := h
  constructor
  · intro g1 g2
    have key : ∀ {file : Bytes} {z : Nat}, bytesAt file at' w = leBytes w z → fileBit file x = z.testBit (x - 8 * at') := by
      intro file z hz
      have hk : x / 8 - at' < w := by omega
      have : file.getD (x / 8) 0 = (leBytes w z).getD (x / 8 - at') 0 := by
        rw [← hz]
        unfold bytesAt
        simp only [List.getD_eq_getElem?_getD, List.getElem?_take, if_pos hk, List.getElem?_drop]
        congr 2
        omega
      unfold fileBit
      rw [this, leBytes_bit hk z (Nat.mod_lt _ (by omega))]
      congr 1
      omega
    exact ⟨key hb, key ha⟩
  · rintro (g | g)
    · have : after.getD (x / 8) 0 = before.getD (x / 8) 0 := by
        have e1 : (after.take at')[x / 8]? = (before.take at')[x / 8]? := by rw [h3]
        rw [List.getElem?_take, List.getElem?_take, if_pos (by omega), if_pos (by omega)] at e1
        simp only [List.getD_eq_getElem?_getD, e1]
      unfold fileBit
      rw [this]
    · have : after.getD (x / 8) 0 = before.getD (x / 8) 0 := by
        have e1 : (after.drop (at' + w))[x / 8 - (at' + w)]? = (before.drop (at' + w))[x / 8 - (at' + w)]? := by rw [h4]
        rw [List.getElem?_drop, List.getElem?_drop, show at' + w + (x / 8 - (at' + w)) = x / 8 by omega] at e1
        simp only [List.getD_eq_getElem?_getD, e1]
      unfold fileBit
      rw [this]

theorem bits_lt {n k : Nat} (h : ∀ i, k ≤ i → n.testBit i = false) : n < 2 ^ k := Nat.lt_pow_two_of_testBit n h

variable [FloatEnv]

theorem word_bytes {l : Leaf} {n : Nat} {c : Bytes} {w : Nat} (h0 : wordBits l ≠ 0) (hw : fieldWidth l = some w)
    (hv : leafValid l (.int n)) (h : leafBuild l (some (.int n)) = .ok c) : c = leBytes w n ∧ n < 2 ^ wordBits l ∧ wordBits l ≤ 8 * w := by
  have h256 : ∀ w, 256 ^ w = 2 ^ (8 * w) := fun w => by rw [Nat.pow_mul]
  have fin : ∀ {w s}, intBuild w s (n : Int) = .ok c → n < 256 ^ w → c = leBytes w n := by
    intro w s hb hlt
    unfold intBuild at hb
    split at hb
    · cases hb
      congr 1
      rw [← Int.natCast_emod, Int.toNat_natCast, Nat.mod_eq_of_lt hlt]
    · cases hb
  cases l with
  | int w' s =>
    cases hw
    cases s with
    | false =>
      have := (word_valid w n).1 hv
      refine ⟨fin h ?_, this, Nat.le_refl _⟩
      rw [h256]; exact this
    | true => exact absurd rfl h0
  | flagsS m =>
    cases hw
    have := (word_valid_flags m n).1 hv
    refine ⟨fin (s := true) h ?_, this, by simp [wordBits]⟩
    simp only [wordBits] at this
    omega
  | _ => exact absurd rfl h0

/-- The file when a flag word changes. -/
theorem word_patch {p : Project} {file : Bytes} (hs : saveBytes p = .ok file) {i : Nat} {e : Event} (hi : p.events[i]? = some e)
    {key : String} {n m place w : Nat} {l : Leaf} (hw : FlagWord e key n) (hv : validValue e.kind e.len e.value) (hp : WordAt e key place l)
    (h0 : wordBits l ≠ 0) (hl : fieldWidth l = some w) (hm : leafValid l (.int n) → leafValid l (.int m)) :
    ∃ v, (∀ ver members flag ids inverted default b, (m : Int) = (if b != inverted then flagOr n flag else flagAndNot ver members n flag) →
        (flagProp ver members flag ids key inverted default).set e b = .ok { e with value := v }) ∧
      ∃ file' start, saveBytes { p with events := p.events.set i { e with value := v } } = .ok file' ∧ DataStart p i start ∧
      Overwritten file file' (start + place) w ∧ bytesAt file (start + place) w = leBytes w n ∧
      bytesAt file' (start + place) w = leBytes w m := by
  rcases hp with ⟨s, hk, hn⟩ | ⟨hk, rfl⟩
  · rcases hw with ⟨h1, -⟩ | ⟨h1, rec, h2, h3⟩
    · rw [hk] at h1; cases h1
    rw [hk, h2] at hv
    have hplace := (structLayout_places s e.len).1 _ hn
    obtain ⟨f, f1, f2⟩ := fieldPlaces_leaf hplace
    have hn' : leafValid l (.int n) := f2 ▸ validFields_lookup (fields_nodup s) hv h3 f1
    obtain ⟨a, c, c', b, g1, g2, g3, g4, g5, -, -, g6, g7⟩ := struct_patch (fields_nodup s) hv hplace hl h3 (hm hn')
    refine ⟨.fields (Rec.update rec key (some (.int m))), ?_, ?_⟩
    · intro ver members flag ids inverted default b he
      simp only [flagProp, h1, if_true, structGet, structSet, h2, h3, flagWrite, flagWord, Except.map, ← he]
    · have e1 : e.payload = .ok (a ++ c ++ b) := by
        unfold Event.payload; rw [hk, h2]; exact g1
      have e2 : Event.payload { e with value := .fields (Rec.update rec key (some (.int m))) } = .ok (a ++ c' ++ b) := by
        unfold Event.payload; dsimp only; rw [hk]; exact g2
      obtain ⟨file', start, f1, f2, f3, f4, f5⟩ := file_patch hs hi e1 e2 (g5.trans g4.symm)
      rw [Nat.zero_add] at g3
      rw [g3, g4] at f3 f4 f5
      exact ⟨file', start, f1, f2, f3, f4.trans (word_bytes h0 hl hn' g6).1, f5.trans (word_bytes h0 hl (hm hn') g7).1⟩
  · rcases hw with ⟨h1, h2⟩ | ⟨h1, -⟩
    · have hn' : leafValid l (.int n) := by
        rw [h2] at hv
        cases hkk : e.kind <;> rw [hkk] at hk hv <;> simp only [Kind.leaf, reduceCtorEq, Option.some.injEq] at hk <;> subst hk <;>
          first | exact absurd rfl h0 | (obtain ⟨l', q1, q2⟩ := hv; cases q1; exact q2)
      obtain ⟨c, g1, g2, -⟩ := valid_width hl hn'
      obtain ⟨c', g1', g2', -⟩ := valid_width hl (hm hn')
      have build : ∀ {z : LV} {d : Bytes}, leafBuild l (some z) = .ok d → Kind.build e.kind e.len (.lv z) = .ok d := by
        intro z d hd
        cases hkk : e.kind <;> rw [hkk] at hk <;> simp only [Kind.leaf, reduceCtorEq, Option.some.injEq] at hk <;> subst hk <;>
          (unfold Kind.build; exact hd)
      refine ⟨.lv (.int m), ?_, ?_⟩
      · intro ver members flag ids inverted default b he
        simp only [flagProp, h1, h2, Bool.false_eq_true, if_false, flagWrite, flagWord, Except.map, ← he]
      · have e1 : e.payload = .ok ([] ++ c ++ []) := by
          unfold Event.payload; rw [h2]; simpa using build g1
        have e2 : Event.payload { e with value := .lv (.int m) } = .ok ([] ++ c' ++ []) := by
          unfold Event.payload; dsimp only; simpa using build g1'
        obtain ⟨file', start, f1, f2, f3, f4, f5⟩ := file_patch hs hi e1 e2 (g2'.trans g2.symm)
        simp only [List.length_nil, Nat.add_zero, g2] at f3 f4 f5
        exact ⟨file', start, f1, f2, f3, f4.trans (word_bytes h0 hl hn' g1).1, f5.trans (word_bytes h0 hl (hm hn') g1').1⟩
    · cases hkk : e.kind <;> rw [hkk] at hk h1 <;> simp [Kind.leaf, Kind.isStruct] at hk h1

/-- **C146**, all bits of the file: switching a flag property sets or clears the bit of the flag in the saved file.  From Python 3.11 on
clearing it also clears every bit of the same flag word above the highest one that the enumeration names.  All other bits of the file,
and its size, stay. -/
theorem C146_exact {w : World} {L : Nat → Prop} (r : WReach w L) {t : Nat} (ht : L t) (ver : PyVer) (members : Nat) (ids : List Nat)
    (key : String) (inverted : Bool) (default : Option Bool) {k : Nat} {e : Event} {n : Nat} (hT : Target (w.events t) ids k e)
    (hw : FlagWord e key n) (hv : validValue e.kind e.len e.value) {place width : Nat} {l : Leaf} (hp : WordAt e key place l)
    (hl : fieldWidth l = some width) {j : Nat} (hj : j < wordBits l) (member : members.testBit j = true) (b : Bool) {before : Bytes}
    (hb : saveBytes w.project = .ok before) :
    ∃ w' i start after, (flagProp ver members (2 ^ j) ids key inverted default).write w t b = (w', .ok ()) ∧
      w.project.events[i]? = some e ∧ DataStart w.project i start ∧ saveBytes w'.project = .ok after ∧ after.length = before.length ∧
      ∀ x, fileBit after x =
        if x = 8 * (start + place) + j then b != inverted
        else if ((b != inverted) = false ∧ ver = .from311) ∧
            8 * (start + place) + Nat.log2 members < x ∧ x < 8 * (start + place) + 8 * width then false
        else fileBit before x := by
  have h0 : wordBits l ≠ 0 := by omega
  have hf : 2 ^ j ≠ 0 := Nat.ne_of_gt (Nat.two_pow_pos j)
  have hsub : 2 ^ j &&& members = 2 ^ j := by
    apply Nat.eq_of_testBit_eq
    intro i
    rw [Nat.testBit_and, Nat.testBit_two_pow]
    by_cases e : j = i
    · subst e; simp [member]
    · simp [e]
  obtain ⟨ref, -, -, -, -, ⟨i, i1, i2, i3⟩, g5⟩ :=
    write_spec r ht (flagProp ver members (2 ^ j) ids key inverted default) rfl b hT
  obtain ⟨-, m, -, hm, -⟩ := flag_set (ver := ver) (members := members) (flag := 2 ^ j) (ids := ids) (inverted := inverted)
    (default := default) hw b
  obtain ⟨v, k1, after, start, k2, k3, k4, k5, k6⟩ := word_patch hb i2 hw hv hp h0 hl fun hn =>
    (word_update (l := l) (by
      cases l with
      | int w s => cases s with
        | false => rfl
        | true => exact absurd rfl h0
      | flagsS => rfl
      | _ => exact absurd rfl h0) hm hn (Nat.pow_lt_pow_right (by omega) hj)).1
  rw [k1 _ _ _ _ _ _ _ hm] at g5
  have hwide : wordBits l ≤ 8 * width := by
    cases l with
    | int w s => cases hl; cases s <;> simp [wordBits]
    | flagsS => cases hl; simp [wordBits]
    | _ => exact absurd rfl h0
  refine ⟨_, i, start, after, g5, i2, k3, by rw [i3]; exact k2, k4.size, fun x => ?_⟩
  obtain ⟨o1, o2⟩ := overwritten_bits k4 k5 k6 x
  have hbits := flag_bits_exact hf hsub hm
  by_cases hin : 8 * (start + place) ≤ x ∧ x < 8 * (start + place + width)
  · obtain ⟨p1, p2⟩ := o1 hin.1 hin.2
    rw [p1, p2, hbits, Nat.testBit_two_pow]
    obtain ⟨d, rfl⟩ : ∃ d, x = 8 * (start + place) + d := ⟨x - 8 * (start + place), by omega⟩
    rw [Nat.add_sub_cancel_left]
    have hlog : j ≤ Nat.log2 members := by
      have h1 : members ≠ 0 := by rintro rfl; simp at member
      exact (Nat.le_log2 h1).2 (Nat.ge_two_pow_of_testBit member)
    by_cases hd : d = j
    · subst hd
      cases b != inverted <;> simp
    · have hx : ¬ 8 * (start + place) + d = 8 * (start + place) + j := by omega
      rw [if_neg hx]
      have hjd : ¬ j = d := fun h => hd h.symm
      by_cases hon : (b != inverted) = true
      · simp [hon, hjd]
      · have hoff : (b != inverted) = false := by simpa using hon
        rw [hoff]
        simp only [Bool.false_eq_true, if_false, hjd, decide_false, Bool.not_false, Bool.and_true, true_and]
        cases ver with
        | upTo310 => simp
        | from311 =>
          by_cases hlt : d ≤ Nat.log2 members
          · have hx : ¬ 8 * (start + place) + Nat.log2 members < 8 * (start + place) + d := by omega
            simp [hlt]
          · have hx : 8 * (start + place) + d < 8 * (start + place) + 8 * width := by omega
            have hx' : 8 * (start + place) + Nat.log2 members < 8 * (start + place) + d := by omega
            simp [hlt, hx, hx']
  · rw [if_neg (by omega), if_neg (by omega)]
    exact o2 (by omega)

/-- **C146**: switching a flag property changes at most one bit of the saved file, the bit of this flag, which then says what was
assigned.  On Python 3.11 and later, when the bit is cleared: if the flag word has no bits above those that the enumeration names. -/
theorem C146_flag_partial {w : World} {L : Nat → Prop} (r : WReach w L) {t : Nat} (ht : L t) (ver : PyVer) (members : Nat) (ids : List Nat)
    (key : String) (inverted : Bool) (default : Option Bool) {k : Nat} {e : Event} {n : Nat} (hT : Target (w.events t) ids k e)
    (hw : FlagWord e key n) (hv : validValue e.kind e.len e.value) {place width : Nat} {l : Leaf} (hp : WordAt e key place l)
    (hl : fieldWidth l = some width) {j : Nat} (hj : j < wordBits l) (member : members.testBit j = true) (b : Bool) {before : Bytes}
    (hb : saveBytes w.project = .ok before)
    (known : (b != inverted) = true ∨ ver = .upTo310 ∨ n < 2 ^ (Nat.log2 members + 1)) :
    ∃ w' i start after, (flagProp ver members (2 ^ j) ids key inverted default).write w t b = (w', .ok ()) ∧
      w.project.events[i]? = some e ∧ DataStart w.project i start ∧ saveBytes w'.project = .ok after ∧ after.length = before.length ∧
      ∀ x, fileBit after x = if x = 8 * (start + place) + j then b != inverted else fileBit before x := by
  obtain ⟨w', i, start, after, h1, h2, h3, h4, h5, h6⟩ := C146_exact r ht ver members ids key inverted default hT hw hv hp hl hj member b hb
  refine ⟨w', i, start, after, h1, h2, h3, h4, h5, fun x => ?_⟩
  rw [h6 x]
  by_cases hx : x = 8 * (start + place) + j
  · rw [if_pos hx, if_pos hx]
  rw [if_neg hx, if_neg hx]
  split
  · next hc =>
    obtain ⟨⟨c1, c2⟩, c3, c4⟩ := hc
    rcases known with k | k | k
    · rw [c1] at k; cases k
    · rw [c2] at k; cases k
    · obtain ⟨v, -, after', start', -, q3, q4, q5, q6⟩ := word_patch (m := n) hb h2 hw hv hp (by omega) hl id
      have hst : start' = start := dataStart_unique q3 h3
      subst hst
      rw [((overwritten_bits q4 q5 q6 x).1 (by omega) (by omega)).1]
      exact (Nat.testBit_lt_two_pow (Nat.lt_of_lt_of_le k (Nat.pow_le_pow_right (by omega) (by omega)))).symm
  · rfl

omit [FloatEnv] in
/-- **C146**: every flag property of the table is such a flag: it has one bit, which the enumeration names, and whatever event the
property finds has the flag word at some place, with room for the bit.  The exception is `directx` (C77). -/
theorem C146_placed : ∀ p ∈ propTable, ∀ members bits key inverted, p.acc = .flag members bits key inverted → p.attr ≠ "directx" →
    ∃ j, bits = 2 ^ j ∧ members.testBit j = true ∧ ∀ id ∈ p.idsOf, ∀ e : Event, p.kindAt id = some e.kind →
      ∃ place l width, WordAt e key place l ∧ fieldWidth l = some width ∧ j < wordBits l := by
  have fin : ∀ p ∈ propTable, (match p.acc with
      | .flag members bits key _ => decide (p.attr = "directx") || (decide (bits = 2 ^ Nat.log2 bits) && members.testBit (Nat.log2 bits) &&
        p.idsOf.all fun id => match p.kindAt id with
          | some (.struct s) => ((structLayout s 0).filter fun x => x.1 == key).any fun x =>
              (fieldWidth x.2.2).isSome && decide (Nat.log2 bits < wordBits x.2.2)
          | some k => match k.leaf with
            | some l => (fieldWidth l).isSome && decide (Nat.log2 bits < wordBits l)
            | none => false
          | none => true)
      | _ => true) = true := by decide +kernel
  have same : ∀ s len, (structLayout s len).map (fun x => (x.1, x.2.2)) = (structLayout s 0).map fun x => (x.1, x.2.2) := by
    intro s len
    cases s <;> rfl
  intro p hp members bits key inverted hacc hne
  have := fin p hp
  rw [hacc] at this
  simp only [hne, decide_false, Bool.false_or, Bool.and_eq_true, decide_eq_true_eq, List.all_eq_true] at this
  obtain ⟨⟨h1, h2⟩, h3⟩ := this
  refine ⟨Nat.log2 bits, h1, h2, fun id hid e hk => ?_⟩
  have h4 := h3 id hid
  rw [hk] at h4
  have some_of : ∀ {l : Leaf}, (fieldWidth l).isSome = true → ∃ w, fieldWidth l = some w := fun h => Option.isSome_iff_exists.1 h
  cases hkk : e.kind with
  | struct s =>
    rw [hkk] at h4
    simp only [List.any_eq_true, List.mem_filter, Bool.and_eq_true, decide_eq_true_eq, beq_iff_eq] at h4
    obtain ⟨⟨n, o, l⟩, ⟨m1, m2⟩, m3, m4⟩ := h4
    obtain ⟨width, m5⟩ := some_of m3
    have m6 : (n, l) ∈ (structLayout s e.len).map fun x => (x.1, x.2.2) := by
      rw [same]; exact List.mem_map.2 ⟨_, m1, rfl⟩
    obtain ⟨⟨n', o', l'⟩, m7, m8⟩ := List.mem_map.1 m6
    cases m8
    exact ⟨o', _, width, .inl ⟨s, hkk, m2 ▸ m7⟩, m5, m4⟩
  | _ =>
    rw [hkk] at h4
    first
    | cases h4; done
    | (simp only [Kind.leaf, Bool.and_eq_true, decide_eq_true_eq] at h4
       obtain ⟨width, m5⟩ := some_of h4.1
       exact ⟨0, _, width, .inr ⟨by rw [hkk]; rfl, rfl⟩, m5, h4.2⟩)

namespace Demo

/-- A channel with the flags word 512 + 4 of its effects (`ChannelID.FXFlags`, 70): `clip`, and a bit without a name. -/
def flagged : Project := ⟨0, 1, 96, [⟨64, .u16, .lv (.int 0), 2⟩, ⟨70, .u16, .lv (.int 516), 2⟩]⟩

theorem flagged_saved : ∃ file, saveBytes flagged = .ok file := ⟨_, rfl⟩

omit [FloatEnv] in
theorem flagged_target : Target ((World.ofProject flagged).events 0) [70] 1 ⟨70, .u16, .lv (.int 516), 2⟩ := by
  rw [show (World.ofProject flagged).events 0 = flagged.events from rfl]
  exact .inr ⟨[], [], flagged.events.take 1, [], rfl, by simp, rfl, by decide, rfl⟩

end Demo

/-- Setting `channel.fx.reverse` (bit 1) in this project on any version of Python sets one bit of the file. -/
example (ver : PyVer) : ∃ w' start before after, (flagProp ver 263 2 [70]).write (World.ofProject Demo.flagged) 0 true = (w', .ok ()) ∧
    saveBytes Demo.flagged = .ok before ∧ saveBytes w'.project = .ok after ∧
    ∀ x, fileBit after x = if x = 8 * start + 1 then true else fileBit before x := by
  obtain ⟨before, hb⟩ := Demo.flagged_saved
  obtain ⟨w', i, start, after, h1, -, -, h4, -, h6⟩ := C146_flag_partial (.parsed Demo.flagged) rfl ver 263 [70] "flags" false none
    Demo.flagged_target (n := 516) (.inl ⟨rfl, rfl⟩) ⟨_, rfl, rfl⟩ (.inr ⟨rfl, rfl⟩) (l := .int 2 false) rfl (j := 1) (by decide) (by decide)
    true hb (.inl rfl)
  exact ⟨w', start, before, after, h1, hb, h4, h6⟩

/-- **C146** is false without the condition: on Python 3.11 `channel.fx.clip = False` also clears bit 9 of the flag word of this channel,
which has no name. -/
theorem C146_refuted : ∃ w' start before after, (flagProp .from311 263 4 [70]).write (World.ofProject Demo.flagged) 0 false = (w', .ok ()) ∧
    saveBytes Demo.flagged = .ok before ∧ saveBytes w'.project = .ok after ∧ DataStart Demo.flagged 1 start ∧
    fileBit before (8 * start + 2) = true ∧ fileBit after (8 * start + 2) = false ∧
    fileBit before (8 * start + 9) = true ∧ fileBit after (8 * start + 9) = false := by
  obtain ⟨before, hb⟩ := Demo.flagged_saved
  obtain ⟨w', i, start, after, h1, h2, h3, h4, -, h6⟩ := C146_exact (.parsed Demo.flagged) rfl .from311 263 [70] "flags" false none
    Demo.flagged_target (n := 516) (.inl ⟨rfl, rfl⟩) ⟨_, rfl, rfl⟩ (.inr ⟨rfl, rfl⟩) (l := .int 2 false) rfl (j := 2) (by decide) (by decide)
    false hb
  have hi : i = 1 := by
    have h2' : Demo.flagged.events[i]? = some ⟨70, .u16, .lv (.int 516), 2⟩ := h2
    match i, h2' with
    | 0, h => exact absurd h (by decide)
    | 1, _ => rfl
    | _ + 2, h => cases h
  subst hi
  obtain ⟨v, -, after', start', -, q3, q4, q5, q6⟩ := word_patch (p := Demo.flagged) (m := 516) (n := 516) (key := "flags") hb h2
    (.inl ⟨rfl, rfl⟩) ⟨_, rfl, rfl⟩ (.inr ⟨rfl, rfl⟩) (l := .int 2 false) (by decide) rfl id
  have hst : start' = start := dataStart_unique q3 h3
  subst hst
  refine ⟨w', start', before, after, h1, hb, h4, h3, ?_, ?_, ?_, ?_⟩
  · rw [((overwritten_bits q4 q5 q6 _).1 (by omega) (by omega)).1, show 8 * start' + 2 - 8 * (start' + 0) = 2 by omega]; decide
  · rw [h6, if_pos (by omega)]; rfl
  · rw [((overwritten_bits q4 q5 q6 _).1 (by omega) (by omega)).1, show 8 * start' + 9 - 8 * (start' + 0) = 9 by omega]; decide
  · rw [h6, if_neg (by omega), if_pos ⟨⟨rfl, rfl⟩, by rw [show Nat.log2 263 = 8 by decide +kernel]; omega, by omega⟩]

end PyFLP
