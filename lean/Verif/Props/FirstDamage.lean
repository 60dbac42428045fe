import Verif.Props.OpenErrors
/-!
# C153: a damaged file fails at its first bad event

Which exception is raised for a file with a right header, in terms of its bytes: the file begins with events that are read
as usual, then comes the first one that cannot be read, and that event alone (with the version and plugin name before it)
decides about the exception.
-/

namespace PyFLP

namespace Spec

/-- `bytes` consists of events with these ids and payloads, none of them cut. -/
inductive UncutEvents : Bytes → List (Nat × Bytes) → Prop
  | nil : UncutEvents [] []
  | cons {id : UInt8} {pre payload rest : Bytes} {fs : List (Nat × Bytes)}
      (ha : Announces id.toNat pre payload.length) (t : UncutEvents rest fs) :
      UncutEvents (id :: (pre ++ (payload ++ rest))) ((id.toNat, payload) :: fs)

/-- An event of one, two or four bytes has another number of bytes. -/
def WrongSize (id n : Nat) : Prop :=
  (id < 64 ∧ n ≠ 1) ∨ (64 ≤ id ∧ id < 128 ∧ n ≠ 2) ∨ (128 ≤ id ∧ id < 192 ∧ n ≠ 4)

/-- The event with this id and payload, following the events `before`, cannot be made, and why. -/
inductive BadEvent [FloatEnv] (before : List Event) (f : Nat × Bytes) : Exc → Prop
  /-- a version that is no dotted sequence of numbers -/
  | version {s} (h : f.1 = 199) (hs : asciiDecode f.2 = .ok s) (hn : intParts (pySplit 46 (rstripNul s)) = none) :
      BadEvent before f .valueError
  /-- a text before any version -/
  | text (h : kindOf before f.1 = none) : BadEvent before f .versionNotDetected
  /-- the file ends within an event of fixed size -/
  | size (h : WrongSize f.1 f.2.length) : BadEvent before f .invalidEventChunkSize
  /-- the decoder of the event class fails -/
  | value {k e} (hk : kindOf before f.1 = some k) (hz : ¬ WrongSize f.1 f.2.length) (h : k.parse f.2 = .error e) :
      BadEvent before f e

/-- The bytes `rest`, following the events `before`, begin with something that is no event, and the exception for it. -/
inductive FailsAt [FloatEnv] (before : List Event) : Bytes → Exc → Prop
  /-- the file ends before or within the size of a text or data event -/
  | noSize {id : UInt8} {bs : Bytes} (hid : 192 ≤ id.toNat) (h : ∀ b ∈ bs, 128 ≤ b.toNat) :
      FailsAt before (id :: bs) .streamError
  /-- a size that is no machine number -/
  | huge {id : UInt8} {pre r : Bytes} {n : Nat} (hid : 192 ≤ id.toNat) (h : varParse pre = .ok (n, [])) (hn : 2 ^ 63 ≤ n) :
      FailsAt before (id :: (pre ++ r)) .overflowError
  /-- a bad event; it may be cut if nothing follows -/
  | event {id : UInt8} {pre payload r : Bytes} {n : Nat} {e : Exc} (ha : Announces id.toNat pre n)
      (hn : payload.length = n ∨ (payload.length < n ∧ r = [])) (h : BadEvent before (id.toNat, payload) e) :
      FailsAt before (id :: (pre ++ (payload ++ r))) e

end Spec

open Spec

theorem varParse_fails {bs : Bytes} {e : Exc} : varParse bs = .error e ↔ e = .streamError ∧ ∀ b ∈ bs, 128 ≤ b.toNat := by
  induction bs with
  | nil => unfold varParse; simp [eq_comm]
  | cons b bs ih =>
    unfold varParse
    by_cases hb : b.toNat < 128
    · rw [if_pos hb]
      constructor
      · intro h; cases h
      · rintro ⟨-, h⟩
        have := h b (by simp)
        omega
    · rw [if_neg hb]
      cases hv : varParse bs with
      | error x =>
        rw [hv] at ih
        simp only [Except.error.injEq, List.mem_cons, forall_eq_or_imp] at ih ⊢
        rw [ih]
        constructor
        · rintro ⟨h1, h2⟩; exact ⟨h1, by omega, h2⟩
        · rintro ⟨h1, -, h2⟩; exact ⟨h1, h2⟩
      | ok y =>
        rw [hv] at ih
        constructor
        · intro h; cases h
        · rintro ⟨h1, h2⟩
          cases ih.2 ⟨h1, fun b hb => h2 b (by simp [hb])⟩

theorem wrongSize_iff (id n : Nat) : WrongSize id n ↔ ∃ m, fixedSize id = some m ∧ n ≠ m := by
  unfold WrongSize fixedSize
  by_cases h1 : id < 64
  · simp [h1]; omega
  · by_cases h2 : id < 128
    · simp [h1, h2]; omega
    · by_cases h3 : id < 192
      · simp [h1, h2, h3]; omega
      · simp [h1, h2, h3]

variable [FloatEnv]

omit [FloatEnv] in
theorem kindOf_199 (before : List Event) : kindOf before 199 = some .ascii := by
  unfold kindOf; rw [enum_199]

theorem badEvent_unique {before : List Event} {f : Nat × Bytes} {e e' : Exc} (h : BadEvent before f e)
    (h' : BadEvent before f e') (hk : kindOf before f.1 = none → ¬ WrongSize f.1 f.2.length) : e = e' := by
  have vs : f.1 = 199 → ¬ WrongSize f.1 f.2.length := by
    intro h hw; rw [h] at hw; unfold WrongSize at hw; omega
  have vv : ∀ {s k x}, f.1 = 199 → asciiDecode f.2 = .ok s → kindOf before f.1 = some k → k.parse f.2 ≠ .error x := by
    intro s k x h1 h2 h3 h4
    rw [h1, kindOf_199] at h3
    cases h3
    simp only [Kind.parse, h2] at h4
    cases h4
  have vn : f.1 = 199 → kindOf before f.1 ≠ none := by
    intro h1; rw [h1, kindOf_199]; simp
  cases h with
  | version a b c =>
    cases h' with
    | version => rfl
    | text t => exact absurd t (vn a)
    | size s => exact absurd s (vs a)
    | value x y z => exact absurd z (vv a b x)
  | text t =>
    cases h' with
    | version a b c => exact absurd t (vn a)
    | text => rfl
    | size s => exact absurd s (hk t)
    | value x y z => rw [t] at x; cases x
  | size s =>
    cases h' with
    | version a b c => exact absurd s (vs a)
    | text t => exact absurd s (hk t)
    | size => rfl
    | value x y z => exact absurd s y
  | value x y z =>
    cases h' with
    | version a b c => exact absurd z (vv a b x)
    | text t => rw [t] at x; cases x
    | size s => exact absurd s y
    | value x' y' z' =>
      rw [x] at x'; cases x'
      rw [z] at z'; cases z'
      rfl

omit [FloatEnv] in
theorem untyped_size {before : List Event} {id n : Nat} (h : kindOf before id = none) : ¬ WrongSize id n := by
  unfold kindOf at h
  unfold WrongSize
  split at h
  · cases h
  · split at h
    · cases h
    · split at h
      · cases h
      · split at h
        · cases h
        · omega

/-- One iteration fails exactly for bad events. -/
theorem step_bad {before : List Event} {st : PState} {f : Nat × Bytes} {e : Exc} (hst : StateAt before st) (hid : f.1 < 256) :
    stepEvent enums st f.1 f.2 = .error e ↔ BadEvent before f e := by
  have hstr : okStr st.strType := by rw [hst.1]; exact okStr_textKind before
  have fwd : ∀ e, stepEvent enums st f.1 f.2 = .error e → BadEvent before f e := by
    intro e h
    unfold stepEvent at h
    split at h
    · next h1 =>
      cases h
      unfold nextStrType at h1
      split at h1
      · next h199 =>
        split at h1
        · next hd =>
          cases h1
          refine .value (k := .ascii) (by rw [h199]; exact kindOf_199 _) ?_ ?_
          · intro hw; rw [h199] at hw; unfold WrongSize at hw; omega
          · simp only [Kind.parse, hd]; rfl
        · next s hd =>
          unfold versionKind at h1
          cases hp : intParts (pySplit 46 (rstripNul s)) with
          | none => rw [hp] at h1; cases h1; exact .version h199 hd hp
          | some parts => rw [hp] at h1; cases h1
      · cases h1
    · next t h1 =>
      have hres : resolve enums ⟨st.plugName, t⟩ f.1 = resolve enums st f.1 := by
        refine resolve_199 (st := st) (st' := ⟨st.plugName, t⟩) ?_ rfl
        unfold nextStrType at h1
        split at h1
        · next h => exact .inl h
        · cases h1; exact .inr rfl
      rw [hres] at h
      split at h
      · next h2 =>
        cases h
        rw [(resolve_error h2).1]
        refine .text ?_
        cases hk : kindOf before f.1 with
        | none => rfl
        | some k => rw [(resolve_kindOf hst).2 hk] at h2; cases h2
      · next k h2 =>
        have hk := (resolve_kindOf hst).1 h2
        have ha := (resolve_facts hid hstr h2).1
        split at h
        · next h3 =>
          cases h
          unfold mkEvent at h3
          rw [if_neg (by simp [ha])] at h3
          have val : ∀ g : Value → Event, (k.parse f.2).map g = .error e → k.parse f.2 = .error e := by
            intro g hg
            cases hp : k.parse f.2 with
            | ok v => rw [hp] at hg; cases hg
            | error x => rw [hp] at hg; cases hg; rfl
          split at h3
          · next m hm =>
            split at h3
            · next hne => cases h3; exact .size ((wrongSize_iff _ _).2 ⟨m, hm, hne⟩)
            · next he =>
              refine .value hk ?_ (val _ h3)
              intro hw
              obtain ⟨m', h1, h2⟩ := (wrongSize_iff _ _).1 hw
              rw [hm] at h1; cases h1
              exact he h2
          · next hm =>
            refine .value hk ?_ (val _ h3)
            intro hw
            obtain ⟨m', h1, h2⟩ := (wrongSize_iff _ _).1 hw
            rw [hm] at h1; cases h1
        · cases h
  refine ⟨fwd e, fun hb => ?_⟩
  cases hs : stepEvent enums st f.1 f.2 with
  | error x => rw [badEvent_unique (fwd x hs) hb (fun h => untyped_size h)]
  | ok y =>
    obtain ⟨ev, st'⟩ := y
    obtain ⟨d, -⟩ := decodesTo_of_step hst hs
    exfalso
    cases hb with
    | version a b c =>
      obtain ⟨s, hs1, parts, hp⟩ := d.version a
      have hasc : ev.kind = .ascii := by
        have := d.kind; rw [a, kindOf_199] at this; exact (Option.some.inj this).symm
      have hv := d.value
      rw [hasc, hs1] at hv
      simp only [Kind.parse, b] at hv
      injection hv with hv
      injection hv with hv
      rw [hv, hp] at c
      cases c
    | text t => rw [d.kind] at t; cases t
    | size s =>
      rcases s with ⟨h1, h2⟩ | ⟨h0, h1, h2⟩ | ⟨h0, h1, h2⟩
      · exact h2 (d.size1 h1)
      · exact h2 (d.size2 h0 h1)
      · exact h2 (d.size4 h0 h1)
    | value x y z =>
      rw [d.kind] at x; cases x
      rw [d.value] at z; cases z

omit [FloatEnv] in
theorem readPayload_fails {id : UInt8} {bs : Bytes} {e : Exc} :
    readPayload id.toNat bs = .error e ↔ 192 ≤ id.toNat ∧
      ((e = .streamError ∧ ∀ b ∈ bs, 128 ≤ b.toNat) ∨
        (e = .overflowError ∧ ∃ pre r n, bs = pre ++ r ∧ varParse pre = .ok (n, []) ∧ 2 ^ 63 ≤ n)) := by
  unfold readPayload
  by_cases h1 : id.toNat < 64
  · simp only [h1, if_true]
    exact ⟨fun h => by (cases h), fun h => by omega⟩
  · by_cases h2 : id.toNat < 128
    · simp only [h1, h2, if_true, if_false]
      exact ⟨fun h => by (cases h), fun h => by omega⟩
    · by_cases h3 : id.toNat < 192
      · simp only [h1, h2, h3, if_true, if_false]
        exact ⟨fun h => by (cases h), fun h => by omega⟩
      · simp only [h1, h2, h3, if_false]
        cases hv : varParse bs with
        | error x =>
          have hx := varParse_fails.1 hv
          constructor
          · intro h
            cases h
            exact ⟨by omega, .inl hx⟩
          · rintro ⟨-, ⟨rfl, -⟩ | ⟨-, pre, r, n, rfl, hp, -⟩⟩
            · rw [hx.1]
            · rw [varParse_append hp] at hv; cases hv
        | ok y =>
          obtain ⟨n, r⟩ := y
          dsimp only
          obtain ⟨pre, hb, hp⟩ := varParse_exact hv
          constructor
          · intro h
            split at h
            · next hn => cases h; exact ⟨by omega, .inr ⟨rfl, pre, r, n, hb, hp, hn⟩⟩
            · cases h
          · rintro ⟨-, ⟨rfl, ha⟩ | ⟨rfl, pre', r', n', hb', hp', hn'⟩⟩
            · rw [varParse_fails.2 ⟨rfl, ha⟩] at hv; cases hv
            · rw [hb', varParse_append hp'] at hv
              cases hv
              rw [if_pos hn']

/-- The loop fails exactly at the first thing that is no event. -/
theorem loop_fails {before : List Event} {st : PState} {bs : Bytes} {e : Exc} (hst : StateAt before st) :
    parseLoop enums st bs = .error e ↔
      ∃ good fs evs rest, bs = good ++ rest ∧ UncutEvents good fs ∧ Decoded before fs evs ∧ FailsAt (before ++ evs) rest e := by
  constructor
  · intro h
    induction hn : bs.length using Nat.strongRecOn generalizing bs st before with
    | ind n ih =>
      cases bs with
      | nil => rw [parseLoop_nil] at h; cases h
      | cons b tl =>
        rw [parseLoop_cons] at h
        split at h
        · next h1 =>
          cases h
          refine ⟨[], [], [], b :: tl, rfl, .nil, .nil, ?_⟩
          obtain ⟨hid, ⟨rfl, ha⟩ | ⟨rfl, pre, r, m, rfl, hp, hm⟩⟩ := readPayload_fails.1 h1
          · exact .noSize hid ha
          · exact .huge hid hp hm
        · next v r h1 =>
          have hle := readPayload_le h1
          obtain ⟨pre, m, rfl, ha, hv⟩ := readPayload_ok h1
          split at h
          · next h2 =>
            cases h
            refine ⟨[], [], [], _, rfl, .nil, .nil, .event ha hv ?_⟩
            rw [List.append_nil]
            exact (step_bad (f := (b.toNat, v)) hst b.toNat_lt).1 h2
          · next ev st' h2 =>
            obtain ⟨d, hst'⟩ := decodesTo_of_step (f := (b.toNat, v)) hst h2
            split at h
            · next h3 =>
              cases h
              obtain ⟨good, fs, evs, rest, rfl, hw, hd, hf⟩ := ih r.length (by rw [← hn]; simp; omega) hst' h3 rfl
              have hv' : v.length = m := by
                rcases hv with hv | ⟨-, hr⟩
                · exact hv
                · rw [hr, parseLoop_nil] at h3; cases h3
              subst hv'
              refine ⟨_, _, ev :: evs, rest, ?_, .cons ha hw, .cons d hd, ?_⟩
              · simp
              · simpa using hf
            · cases h
  · rintro ⟨good, fs, evs, rest, rfl, hw, hd, hf⟩
    induction hw generalizing before st evs with
    | nil =>
      cases hd
      rw [List.append_nil] at hf
      rw [List.nil_append]
      cases hf with
      | noSize hid h => exact loop_read (readPayload_fails.2 ⟨hid, .inl ⟨rfl, h⟩⟩)
      | huge hid h hn => exact loop_read (readPayload_fails.2 ⟨hid, .inr ⟨rfl, _, _, _, rfl, h, hn⟩⟩)
      | event ha hn h => exact loop_stop (readPayload_announces ha hn) ((step_bad hst (UInt8.toNat_lt _)).2 h)
    | @cons id pre payload tl fs ha t ih =>
      cases hd with
      | cons d hd =>
        obtain ⟨st', h1, h2⟩ := step_of_decodesTo hst id.toNat_lt d
        rw [List.cons_append, List.append_assoc, List.append_assoc]
        exact loop_next (readPayload_announces ha (.inl rfl)) h1 (ih h2 _ hd (by simpa using hf))

/-- **C153** (exact): a file with a right header raises an exception exactly if its data begins with whole events that can be
read, and then something follows that is no event; what that is decides about the exception. -/
theorem C153_first (file : Bytes) (hh : HeaderOK file) (e : Exc) :
    parseFile file = .error e ↔
      ∃ good fs evs rest, file.drop 22 = good ++ rest ∧ UncutEvents good fs ∧ Decoded [] fs evs ∧ FailsAt evs rest e := by
  have key : parseFile file = .error e ↔ parseLoop enums ⟨none, none⟩ (file.drop 22) = .error e := by
    obtain ⟨f0, f1, c0, c1, p0, p1, s0, s1, s2, s3, data, h1, h2, h3, h4, h5⟩ := hh
    have hhdr := parseHeader_layout f0 f1 c0 c1 p0 p1 s0 s1 s2 s3 data h2 h3 h4 h5
    unfold parseFile parseWith
    rw [h1, hhdr]
    dsimp only
    cases parseLoop enums ⟨none, none⟩ _ with
    | error x => exact ⟨fun h => by cases h; rfl, fun h => by cases h; rfl⟩
    | ok evs => exact ⟨fun h => by (cases h), fun h => by (cases h)⟩
  rw [key, loop_fails stateAt_init]
  simp only [List.nil_append]

/-- **C153** (what follows does not matter): files with right headers that agree up to the end of the first bad event raise the
same exception, whatever they hold behind it. -/
theorem C153_rest {file file' : Bytes} (hh : HeaderOK file) (hh' : HeaderOK file') {good : Bytes} {fs : List (Nat × Bytes)}
    {evs : List Event} {id : UInt8} {pre payload r r' : Bytes} {e : Exc} (hw : UncutEvents good fs) (hd : Decoded [] fs evs)
    (ha : Announces id.toNat pre payload.length) (hb : BadEvent evs (id.toNat, payload) e)
    (h : file.drop 22 = good ++ id :: (pre ++ (payload ++ r))) (h' : file'.drop 22 = good ++ id :: (pre ++ (payload ++ r'))) :
    parseFile file = .error e ∧ parseFile file' = .error e :=
  ⟨(C153_first file hh e).2 ⟨good, fs, evs, _, h, hw, hd, .event ha (.inl rfl) hb⟩,
    (C153_first file' hh' e).2 ⟨good, fs, evs, _, h', hw, hd, .event ha (.inl rfl) hb⟩⟩

omit [FloatEnv] in
theorem uncut_splits {bs : Bytes} {fs : List (Nat × Bytes)} (h : UncutEvents bs fs) : Splits bs fs := by
  induction h with
  | nil => exact .nil
  | cons ha t ih => exact .cons ha (.inl rfl) ih

/-- **C153** (what can be recovered): a file with a right header that cannot be opened has a place where the damage begins.
Unless that is the very first event, the file cut there, with the size in its header corrected, opens; it has the header
values of the file and the events up to the damage. -/
theorem C153_recover (file : Bytes) (hh : HeaderOK file) (e : Exc) (h : parseFile file = .error e) :
    ∃ n evs, FailsAt evs (file.drop (22 + n)) e ∧ (n = 0 ↔ evs = []) ∧
      (n ≠ 0 → ∃ p, parseFile (file.take 18 ++ leBytes 4 n ++ (file.drop 22).take n) = .ok p ∧ p.events = evs ∧
        p.format = sword (file.getD 8 0) (file.getD 9 0) ∧ p.channelCount = word (file.getD 10 0) (file.getD 11 0) ∧
        p.ppq = word (file.getD 12 0) (file.getD 13 0)) := by
  obtain ⟨good, fs, evs, rest, hg, hw, hd, hf⟩ := (C153_first file hh e).1 h
  obtain ⟨f0, f1, c0, c1, p0, p1, s0, s1, s2, s3, data, h1, h2, h3, h4, h5⟩ := hh
  have hdata : data = good ++ rest := by rw [← hg, h1]; rfl
  refine ⟨good.length, evs, ?_, ?_, ?_⟩
  · rw [← List.drop_drop, hg, List.drop_left]; exact hf
  · cases hw with
    | nil => cases hd; simp
    | cons ha t => cases hd; simp
  · intro hn
    have hlt : good.length < 2 ^ 32 := by
      have := dword_lt s0 s1 s2 s3
      rw [h5, hdata, List.length_append] at this
      omega
    obtain ⟨a, b, c, d, hl, hdw⟩ := dword_leBytes hlt
    refine ⟨⟨sword f0 f1, word c0 c1, word p0 p1, evs⟩, ?_, rfl, by rw [h1]; rfl, by rw [h1]; rfl, by rw [h1]; rfl⟩
    rw [hg, List.take_left, hl]
    refine parse_iff.2 ⟨f0, f1, c0, c1, p0, p1, a, b, c, d, good, ?_, h2, h3, ?_, hdw, rfl, rfl, rfl, fs, uncut_splits hw, hd⟩
    · rw [h1]; rfl
    · rintro rfl; exact hn rfl

/-- Two versions, the second of which is no number: with or without a damaged event behind it, opening raises `ValueError`. -/
example : parseFile (Demo.fileOf ([199, 1, 57] ++ [199, 1, 120])) = .error .valueError ∧
    parseFile (Demo.fileOf ([199, 1, 57] ++ [199, 1, 120, 194])) = .error .valueError := by
  refine C153_rest (good := [199, 1, 57]) (fs := [(199, [57])]) (evs := [⟨199, .ascii, .str [57], 1⟩]) (id := 199) (pre := [1])
    (payload := [120]) (r := []) (r' := [194]) ?_ ?_ ?_ ?_ ?_ ?_ rfl rfl
  · exact ⟨0, 0, 0, 0, 96, 0, 6, 0, 0, 0, _, rfl, by decide, by decide, by decide, by decide⟩
  · exact ⟨0, 0, 0, 0, 96, 0, 7, 0, 0, 0, _, rfl, by decide, by decide, by decide, by decide⟩
  · exact .cons (id := 199) (pre := [1]) (payload := [57]) (rest := [])
      (.inr (.inr (.inr ⟨by decide, by decide +kernel, by decide⟩))) .nil
  · exact .cons ⟨rfl, rfl, kindOf_199 _, rfl, by simp, by simp, by simp, fun _ => ⟨_, rfl, [9], by decide +kernel⟩⟩ .nil
  · exact .inr (.inr (.inr ⟨by decide, by decide +kernel, by decide⟩))
  · exact .version (s := [120]) rfl rfl (by decide +kernel)

/-- Of this file the first version is recovered. -/
example : ∃ p, parseFile (Demo.fileOf [199, 1, 57]) = .ok p ∧ p.events = [⟨199, .ascii, .str [57], 1⟩] := by
  have hd : Decoded [] [(199, [57])] [⟨199, .ascii, .str [57], 1⟩] :=
    .cons ⟨rfl, rfl, kindOf_199 _, rfl, by simp, by simp, by simp, fun _ => ⟨_, rfl, [9], by decide +kernel⟩⟩ .nil
  have hs : Splits [199, 1, 57] [(199, [57])] :=
    .cons (id := 199) (pre := [1]) (payload := [57]) (rest := []) (n := 1)
      (.inr (.inr (.inr ⟨by decide, by decide +kernel, by decide⟩))) (.inl rfl) .nil
  exact ⟨⟨0, 0, 96, _⟩, parse_iff.2 ⟨0, 0, 0, 0, 96, 0, 3, 0, 0, 0, _, rfl, by decide, by decide, by decide, by decide,
    rfl, rfl, rfl, _, hs, hd⟩, rfl⟩

/-- The damaged file meets the hypotheses. -/
example : HeaderOK (Demo.fileOf ([199, 1, 57] ++ [199, 1, 120])) :=
  ⟨0, 0, 0, 0, 96, 0, 6, 0, 0, 0, _, rfl, by decide, by decide, by decide, by decide⟩

end PyFLP
