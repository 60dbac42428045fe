import Verif.Props.Descriptors
import Verif.Props.PropTable
import Verif.Props.Structured

/-!
# Flags of envelopes and LFOs as they are stored

The flags of envelopes are a signed number in the file.  These theorems say what the flag properties read for every stored
number, and what saving makes of it.
-/

namespace PyFLP

theorem allBits_succ (mask : Nat) : ∃ k, allBits mask + 1 = 2 ^ k := by
  unfold allBits
  refine ⟨_, Nat.sub_add_cancel ?_⟩
  exact Nat.one_le_two_pow

/-- Making an `IntFlag` keeps the number up to multiples of the power of two above its highest member. -/
theorem intFlagValue_mod (mask : Nat) (v : Int) :
    intFlagValue mask v % ((allBits mask + 1 : Nat) : Int) = v % ((allBits mask + 1 : Nat) : Int) := by
  obtain ⟨k, hk⟩ := allBits_succ mask
  have hk' : ((allBits mask : Nat) : Int) + 1 = ((2 ^ k : Nat) : Int) := by rw [← hk]; rfl
  unfold intFlagValue
  dsimp only
  rw [hk', hk]
  split
  · rfl
  · split
    · generalize Nat.log2 v.natAbs + 1 = bl
      have hd : ∃ q : Int, max ((2 ^ k : Nat) : Int) ((2 ^ bl : Nat) : Int) = ((2 ^ k : Nat) : Int) * q := by
        by_cases h : bl ≤ k
        · refine ⟨1, ?_⟩
          rw [Int.mul_one]
          exact Int.max_eq_left (Int.ofNat_le.2 (Nat.pow_le_pow_right (by decide) h))
        · refine ⟨((2 ^ (bl - k) : Nat) : Int), ?_⟩
          have hp : 2 ^ bl = 2 ^ k * 2 ^ (bl - k) := by rw [← Nat.pow_add]; congr 1; omega
          rw [← Int.natCast_mul, ← hp]
          exact Int.max_eq_right (Int.ofNat_le.2 (Nat.pow_le_pow_right (by decide) (by omega)))
      obtain ⟨q, hq⟩ := hd
      rw [hq, Int.add_comm, Int.add_mul_emod_self_left]
    · rw [Int.add_comm, Int.add_emod_right]

theorem toSigned_mod {n : Nat} {k : Nat} (hk : k ≤ 32) :
    toSigned 4 n % ((2 ^ k : Nat) : Int) = (n : Int) % ((2 ^ k : Nat) : Int) := by
  unfold toSigned
  split
  · rfl
  · have : ((256 ^ 4 : Nat) : Int) = ((2 ^ k : Nat) : Int) * ((2 ^ (32 - k) : Nat) : Int) := by
      rw [← Int.natCast_mul, ← Nat.pow_add]
      have : k + (32 - k) = 32 := by omega
      rw [this]
    rw [this, Int.sub_mul_emod_self_left]

variable [FloatEnv]

theorem flagsS_bits {bs rest : Bytes} {v : LV} (h : leafParse (.flagsS 39) bs = .ok (v, rest)) :
    ∃ n : Nat, v = .int n ∧ ∀ i, i < 6 → n.testBit i = (leNat (bs.take 4)).testBit i := by
  simp only [leafParse] at h
  obtain ⟨⟨x, r⟩, h1, h2⟩ := map_ok h
  cases h2
  obtain ⟨hx, -, -⟩ := intParse_s h1
  have hnn := intFlagValue_nonneg 39 x
  refine ⟨(intFlagValue 39 x).toNat, by rw [Int.toNat_of_nonneg hnn], ?_⟩
  have hm := intFlagValue_mod 39 x
  rw [show allBits 39 + 1 = 2 ^ 6 by decide +kernel, hx, toSigned_mod (by decide)] at hm
  rw [← hx] at hm
  have hN : (intFlagValue 39 x).toNat % 2 ^ 6 = leNat (bs.take 4) % 2 ^ 6 := by
    have : ((intFlagValue 39 x).toNat : Int) % ((2 ^ 6 : Nat) : Int) = (leNat (bs.take 4) : Int) % ((2 ^ 6 : Nat) : Int) := by
      rw [Int.toNat_of_nonneg hnn]
      exact hm
    exact_mod_cast this
  intro i hi
  have h3 := congrArg (fun n => n.testBit i) hN
  rw [Nat.testBit_mod_two_pow, Nat.testBit_mod_two_pow, decide_eq_true hi] at h3
  simpa using h3

open Spec

omit [FloatEnv] in
theorem flagIn_bit (n i : Nat) : flagIn (n : Int) (2 ^ i) = n.testBit i := by
  unfold flagIn
  rw [Int.toNat_natCast]
  cases h : n.testBit i with
  | true =>
    rw [beq_iff_eq]
    apply Nat.eq_of_testBit_eq
    intro j
    rw [Nat.testBit_and, Nat.testBit_two_pow]
    by_cases hj : i = j
    · subst hj; simp [h]
    · simp [hj]
  | false =>
    rw [beq_eq_false_iff_ne]
    intro hc
    have := congrArg (fun m => m.testBit i) hc
    simp [h] at this

theorem envelope_flags {data : Bytes} {x : Value} (hlen : 4 ≤ data.length) (hd : Kind.parse (.struct .envelopeLFO) data = .ok x) :
    ∃ (n : Nat) (fs : Rec), x = .fields (("flags", some (.int n)) :: fs) ∧
      ∀ i, i < 6 → n.testBit i = (leNat (data.take 4)).testBit i := by
  unfold Kind.parse at hd
  obtain ⟨⟨rec, rest⟩, h1, h2⟩ := map_ok hd
  cases h2
  have hf : SName.envelopeLFO.fields = ("flags", .opt (.flagsS 39)) :: SName.envelopeLFO.fields.tail := rfl
  rw [hf] at h1
  unfold structParse at h1
  have hleaf : ∃ v r, leafParse (.flagsS 39) data = .ok (v, r) := by
    simp only [leafParse, intParse]
    rw [if_neg (by omega)]
    exact ⟨_, _, rfl⟩
  obtain ⟨v, r, hv⟩ := hleaf
  obtain ⟨n, hn, hb⟩ := flagsS_bits hv
  simp only [fldParse, hv] at h1
  split at h1
  · cases h1
  · injection h1 with h1
    injection h1 with h1 h3
    subst hn
    exact ⟨n, _, by rw [← h1], hb⟩

/-- C34. **What is stored is what is read.**  `envelope.synced`, `lfo.synced` and `lfo.retrig` are the bits 0, 1 and 5 of the
number in the file, whatever that number is: the stored four bytes are read as a signed number, and negative ones show the
bits of their two's complement.  `data` is the payload of the event in the file, of which the model is made. -/
theorem C34_stored {w : World} {L : Nat → Prop} (r : WReach w L) {t : Nat} (ht : L t) (ver : PyVer)
    {e : Event} (hT : w.events t = [e]) (hk : e.kind = .struct .envelopeLFO)
    (data : Bytes) (hlen : 4 ≤ data.length) (hd : Kind.parse (.struct .envelopeLFO) data = .ok e.value) :
    ∀ p ∈ channelProps, ∀ bit, (p.cls, p.attr, bit) ∈ [("Envelope", "synced", 0), ("SamplerLFO", "synced", 1), ("SamplerLFO", "retrig", 5)] →
      ∃ h : p.type = Bool, p.read ver w t = .ok (some (h ▸ (leNat (data.take 4)).testBit bit)) := by
  have hall : ∀ p ∈ channelProps, ∀ x ∈ [("Envelope", "synced", 0), ("SamplerLFO", "synced", 1), ("SamplerLFO", "retrig", 5)],
      p.cls = x.1 ∧ p.attr = x.2.1 → p = ⟨x.1, x.2.1, [], [218], .flag 39 (2 ^ x.2.2) "flags" false, none⟩ ∧ x.2.2 < 6 := by
    decide +kernel
  intro p hp bit hbit
  obtain ⟨h1, h2⟩ := hall p hp _ hbit ⟨rfl, rfl⟩
  dsimp only at h1 h2
  obtain ⟨n, fs, hx, hb⟩ := envelope_flags hlen hd
  rw [h1]
  refine ⟨rfl, ?_⟩
  show (flagProp ver 39 (2 ^ bit) [] "flags" false none).read w t = .ok (some ((leNat (data.take 4)).testBit bit))
  rcases getEvent_spec r ht [] with ⟨k, ref, g1, g2, g3, g4⟩ | ⟨h0, -⟩ | ⟨-, g1, -⟩ | ⟨-, g1, -⟩
  · have he : w.ev ref = e := by
      rcases g4 with ⟨-, g4, -⟩ | ⟨a, b, c, d, g4, -⟩
      · rw [hT] at g4
        injection g4 with g4
        exact g4.symm
      · cases a <;> cases g4
    unfold Descr.read
    show (match w.getEvent t [] with | .error x => _ | .ok none => _ | .ok (some ref) => _) = _
    rw [g1]
    dsimp only
    rw [he]
    unfold flagProp
    dsimp only
    rw [hk, if_pos (show (Kind.struct SName.envelopeLFO).isStruct = true from rfl)]
    unfold structGet
    rw [hx]
    show flagRead (2 ^ bit) false (some (.int n)) = _
    unfold flagRead flagWord
    show Except.ok (some (flagIn (n : Int) (2 ^ bit) != false)) = _
    rw [flagIn_bit, hb bit h2]
    simp
  · exact absurd rfl h0
  · rw [hT] at g1; cases g1
  · rw [hT] at g1
    exact absurd g1 (by simp)

/-- Data of the right size for fields that are numbers of four bytes. -/
theorem ints_complete {len : Nat} : ∀ {fs : Fields} {bs : Bytes},
    (∀ x ∈ fs, ∃ s, x.2 = .opt (.int 4 s)) → bs.length = 4 * fs.length → Complete len fs bs
  | [], bs, _, hl => by
    have : bs = [] := List.eq_nil_of_length_eq_zero (by simpa using hl)
    subst this
    exact .done
  | (n, f) :: fs, bs, hf, hl => by
    obtain ⟨s, hs⟩ := hf (n, f) (List.mem_cons_self ..)
    dsimp only at hs
    subst hs
    have hlen : 4 ≤ bs.length := by rw [hl, List.length_cons]; omega
    rw [← List.take_append_drop 4 bs]
    refine .field (l := .int 4 s) rfl (.inl ?_) trivial ?_
    · show some 4 = some (bs.take 4).length
      rw [List.length_take, Nat.min_eq_left hlen]
    · refine ints_complete (fun x hx => hf x (List.mem_cons_of_mem _ hx)) ?_
      rw [List.length_drop, hl, List.length_cons]
      omega

/-- C38 for envelopes and LFOs, **exactly**: of all complete data (68 bytes), what is saved is what was read just if the
stored flags are not negative as a signed number.  The flags are the first four bytes. -/
theorem C38_envelope_exact (bs : Bytes) (hlen : bs.length = 68) :
    ∃ v, Kind.parse (.struct .envelopeLFO) bs = .ok v ∧
      (Kind.build (.struct .envelopeLFO) bs.length v = .ok bs ↔ leNat (bs.take 4) < 2 ^ 31) := by
  have htail : Complete bs.length SName.envelopeLFO.fields.tail (bs.drop 4) := by
    apply ints_complete
    · have : ∀ x ∈ SName.envelopeLFO.fields.tail, ∃ s ∈ [true, false], x.2 = .opt (.int 4 s) := by decide +kernel
      intro x hx
      obtain ⟨s, -, hs⟩ := this x hx
      exact ⟨s, hs⟩
    · rw [List.length_drop, hlen]
      rfl
  obtain ⟨rec, h1, h2, -⟩ := complete_struct htail
  obtain ⟨-, hb⟩ := struct_canon _ h1 h2
  obtain ⟨x, hx⟩ : ∃ x, intParse 4 true bs = .ok (x, bs.drop 4) := by
    unfold intParse
    rw [if_neg (by omega)]
    exact ⟨_, rfl⟩
  obtain ⟨hxv, -, -⟩ := intParse_s hx
  have hf : SName.envelopeLFO.fields = ("flags", .opt (.flagsS 39)) :: SName.envelopeLFO.fields.tail := rfl
  have hleaf : leafParse (.flagsS 39) bs = .ok (.int (intFlagValue 39 x), bs.drop 4) := by
    simp only [leafParse, hx]
    rfl
  have hparse : Kind.parse (.struct .envelopeLFO) bs = .ok (.fields (("flags", some (.int (intFlagValue 39 x))) :: rec)) := by
    simp only [Kind.parse]
    rw [hf]
    simp only [structParse, fldParse, hleaf, h1]
    rfl
  refine ⟨_, hparse, ?_⟩
  have hbuild : Kind.build (.struct .envelopeLFO) bs.length (.fields (("flags", some (.int (intFlagValue 39 x))) :: rec)) =
      .ok ((match intBuild 4 true (intFlagValue 39 x) with | .ok b => b | .error _ => []) ++ bs.drop 4) := by
    simp only [Kind.build]
    rw [hf]
    simp only [structBuild, fldBuild, leafBuild, if_true]
    cases intBuild 4 true (intFlagValue 39 x) with
    | error e => simp only [hb]
    | ok b => simp only [hb]
  rw [hbuild]
  obtain ⟨pre, hp, hpb⟩ := intBuild_intParse hx
  have hpre : pre.length = 4 := intBuild_length hpb
  have htake : bs.take 4 = pre := by rw [hp, ← hpre, List.take_left]
  constructor
  · intro h
    injection h with h
    by_cases hn : leNat (bs.take 4) < 2 ^ 31
    · exact hn
    · exfalso
      have hneg : x < 0 := by
        have hlt : leNat (bs.take 4) < 256 ^ 4 := by
          have := leNat_lt (bs.take 4)
          rw [htake, hpre] at this
          rw [htake]
          exact this
        rw [hxv]
        unfold toSigned
        rw [if_neg (by omega)]
        omega
      cases hc : intBuild 4 true (intFlagValue 39 x) with
      | error e =>
        rw [hc] at h
        have := congrArg List.length h
        simp only [List.nil_append, List.length_drop] at this
        omega
      | ok b =>
        rw [hc] at h
        have hbl := intBuild_length hc
        have hbp : b = pre := by
          have := congrArg (List.take 4) h
          dsimp only at this
          rw [htake, ← hbl, List.take_left] at this
          exact this
        have h3 := intParse_intBuild (rest := bs.drop 4) hc
        rw [hbp, ← hp, hx] at h3
        injection h3 with h3
        injection h3 with h3
        have := intFlagValue_nonneg 39 x
        omega
  · intro hn
    have hnn : 0 ≤ x := by
      rw [hxv]
      unfold toSigned
      rw [if_pos (by omega)]
      omega
    rw [show intFlagValue 39 x = x by unfold intFlagValue; rw [if_pos hnn], hpb]
    dsimp only
    rw [← hp]

/-- C38 fails for data without booleans that are out of range: an envelope whose flags have the highest bit set is saved with
other flags, and one whose flags are `0x80000000` without them, so that all other fields move. -/
theorem C38_flags_refuted :
    ¬ ∀ (s : SName) (bs : Bytes) (v : Value), bs.length = 68 → s = .envelopeLFO → Kind.parse (.struct s) bs = .ok v →
      Kind.build (.struct s) bs.length v = .ok bs := by
  intro h
  obtain ⟨v, h1, h2⟩ := C38_envelope_exact (List.replicate 68 255) (by decide +kernel)
  have := h2.1 (h .envelopeLFO _ v (by decide +kernel) rfl h1)
  revert this
  decide +kernel

/-- Flags with the bits 31, 5 and 0, as they are read and as they are written. -/
example : intFlagValue 39 (toSigned 4 (leNat [33, 0, 0, 128])) = 33 ∧ intBuild 4 true 33 = .ok [33, 0, 0, 0] := by
  decide +kernel

/-- A project with one event, an envelope whose flags have the bits 31, 5 and 0 and whose other fields are zero: it meets the
hypotheses of `C34_stored`, and `C34_stored` says what the three properties are. -/
example : ∃ w : World, ∃ L : Nat → Prop, ∃ t e, WReach w L ∧ L t ∧ w.events t = [e] ∧ e.kind = .struct .envelopeLFO ∧
    Kind.parse (.struct .envelopeLFO) ([33, 0, 0, 128] ++ List.replicate 64 0) = .ok e.value ∧
    [0, 1, 5].map (fun i => (leNat (([33, 0, 0, 128] ++ List.replicate 64 0 : Bytes).take 4)).testBit i) = [true, false, true] := by
  obtain ⟨v, hv, -⟩ := C38_envelope_exact ([33, 0, 0, 128] ++ List.replicate 64 0) (by decide +kernel)
  refine ⟨World.ofProject ⟨0, 1, 96, [⟨218, .struct .envelopeLFO, v, 68⟩]⟩, (· = 0), 0, ⟨218, .struct .envelopeLFO, v, 68⟩,
    .parsed _, rfl, ?_, rfl, hv, by decide +kernel⟩
  exact congrArg Project.events (ofProject_project ⟨0, 1, 96, [⟨218, .struct .envelopeLFO, v, 68⟩]⟩)

end PyFLP
