import Verif.Warnings
import Verif.Props.Settles
import Verif.Props.Savable
/-!
# Warnings while opening and saving (C133)
-/

namespace PyFLP

/-! ### Specification -/

namespace Spec

/-- The warning about an event of an opened file: a VST plugin whose data begins with another byte than 8 or 10 (the type in
its first four bytes is stored little-endian), a playlist whose data is not a whole number of items of 32 or of 60 bytes. -/
def warningOf (e : Event) : Option Warn :=
  match e.kind, e.value with
  | .vst, .vst t _ => if t % 256 = 8 ∨ t % 256 = 10 then none else some (.marker (t % 256).toNat)
  | .list .playlist, _ => if 32 ∣ e.len ∨ 60 ∣ e.len then none else some (.size e.id e.len)
  | _, _ => none

/-- A stretching time whose ticks are no multiple of five. -/
def oddTime (f : String × Option LV) : Bool :=
  match f with
  | (n, some (.time _ _ c)) => n = "stretching.time" && c % 5 ≠ 0
  | _ => false

/-- How many warnings saving this event gives. -/
def tickWarnings (e : Event) : List Warn :=
  match e.kind, e.value with
  | .struct _, .fields r => (r.filter oddTime).map fun _ => .ticks
  | _, _ => []

/-- The event without these times: the field is left out. -/
def withoutOdd (e : Event) : Event :=
  match e.kind, e.value with
  | .struct _, .fields r => { e with value := .fields (r.map fun f => if oddTime f then (f.1, none) else f) }
  | _, _ => e

end Spec

/-! ### Opening -/

theorem quiet_fst {α : Type} (r : Py α) : (quiet r).1 = [] := by cases r <;> rfl

theorem andThen_quiet {α β : Type} (r : Py α) (f : α → Noisy β) :
    Noisy.andThen (quiet r) f = match r with | .ok x => f x | .error e => quiet (.error e) := by
  cases r with
  | ok x => simp only [quiet, Noisy.andThen, List.nil_append]
  | error e => rfl

/-- How the two modes are related: with warnings as exceptions, the first warning is raised; `r` is the result without them. -/
def Modes {α : Type} (a b : Noisy α) (r : Py α) : Prop :=
  a.2 = (quiet r).2 ∧ b.1 = [] ∧
    ((a.1 = [] ∧ b.2 = a.2) ∨ ∃ w ws, a.1 = w :: ws ∧ b.2 = .error (.warning w))

theorem modes_quiet {α : Type} (r : Py α) : Modes (quiet r) (quiet r) r :=
  ⟨rfl, quiet_fst r, .inl ⟨quiet_fst r, rfl⟩⟩

theorem modes_bind {α β : Type} {a b : Noisy α} {r : Py α} {f g : α → Noisy β} {s : α → Py β} (h : Modes a b r)
    (hf : ∀ x, r = .ok x → Modes (f x) (g x) (s x)) : Modes (a.andThen f) (b.andThen g) (r.bind s) := by
  obtain ⟨a1, a2⟩ := a
  obtain ⟨b1, b2⟩ := b
  obtain ⟨h1, h2, h3⟩ := h
  dsimp only at h1 h2 h3
  subst h1 h2
  cases r with
  | error e =>
    refine ⟨rfl, ?_, ?_⟩
    · rcases h3 with ⟨-, rfl⟩ | ⟨w, ws, -, rfl⟩ <;> rfl
    · rcases h3 with ⟨rfl, rfl⟩ | ⟨w, ws, rfl, rfl⟩
      · exact .inl ⟨rfl, rfl⟩
      · exact .inr ⟨w, ws, rfl, rfl⟩
  | ok x =>
    obtain ⟨k1, k2, k3⟩ := hf x rfl
    refine ⟨k1, ?_, ?_⟩
    · rcases h3 with ⟨rfl, rfl⟩ | ⟨w, ws, rfl, rfl⟩
      · exact k2
      · rfl
    · rcases h3 with ⟨rfl, rfl⟩ | ⟨w, ws, rfl, rfl⟩
      · simpa [Noisy.andThen, quiet] using k3
      · exact .inr ⟨w, ws ++ (f x).1, rfl, rfl⟩

variable [FloatEnv]

theorem structSize_none {l : LName} {n : Nat} : l.structSize n = none ↔ l = .playlist ∧ ¬ (32 ∣ n ∨ 60 ∣ n) := by
  have e : ∀ k, (k ∣ n ↔ n % k = 0) := fun k => Nat.dvd_iff_mod_eq_zero
  cases l <;> simp [LName.structSize, LName.sizes, e]

theorem leNat_head (b : UInt8) (bs : Bytes) : leNat (b :: bs) % 256 = b.toNat := by
  have := b.toNat_lt
  simp only [leNat]; omega

omit [FloatEnv] in
theorem andThen_fst {α β : Type} {a b : Noisy α} {r : Py α} {x : α} (f : α → Noisy β) (h : Modes a b r) (hr : r = .ok x) :
    (a.andThen f).1 = a.1 ++ (f x).1 := by
  obtain ⟨a1, a2⟩ := a
  obtain ⟨h1, -, -⟩ := h
  dsimp only at h1
  subst h1 hr
  rfl

/-- The constructor, in both modes. -/
theorem mkEventW_modes (k : Kind) (id : Nat) (data : Bytes) (hk : k = .vst → fixedSize id = none) :
    Modes (mkEventW false k id data) (mkEventW true k id data) (mkEvent k id data) ∧
      ∀ e, mkEvent k id data = .ok e → (mkEventW false k id data).1 = (Spec.warningOf e).toList := by
  by_cases hv : k = .vst
  · have hk' := hk hv
    subst hv
    cases data with
    | nil =>
      have e : mkEvent .vst id [] = .error .indexError := by
        unfold mkEvent
        rw [if_neg (by simp [Kind.allowed]), hk']
        rfl
      rw [e]
      exact ⟨modes_quiet _, fun e he => by cases he⟩
    | cons b bs =>
      have hw : ∀ e, mkEvent .vst id (b :: bs) = .ok e →
          Spec.warningOf e = if b ∈ ([8, 10] : List UInt8) then none else some (.marker b.toNat) := by
        intro e he
        obtain ⟨-, h2, -, h4, -⟩ := mkEvent_ok he
        simp only [Kind.parse, vstParse] at h4
        split at h4
        · cases h4
        · next t r ht =>
          have ht' : t % 256 = (b.toNat : Int) := by
            unfold intParse at ht
            split at ht
            · cases ht
            · have : t = ((leNat ((b :: bs).take 4) : Nat) : Int) := by
                have := congrArg (fun x => x.1) (Except.ok.inj ht)
                exact this.symm
              rw [this, List.take_succ_cons]
              have := leNat_head b (bs.take 3)
              omega
          unfold Spec.warningOf
          rw [h2, ← Except.ok.inj h4]
          dsimp only
          rw [ht']
          have hb : ∀ n : UInt8, (b = n ↔ (b.toNat : Int) = (n.toNat : Int)) := by
            intro n
            rw [← UInt8.toNat_inj]
            omega
          have h8 := hb 8
          have h10 := hb 10
          simp only [show (8 : UInt8).toNat = 8 from rfl, show (10 : UInt8).toNat = 10 from rfl] at h8 h10
          by_cases hm : b ∈ ([8, 10] : List UInt8)
          · rw [if_pos hm, if_pos]
            simp only [List.mem_cons, List.not_mem_nil, or_false] at hm
            rw [h8, h10] at hm
            exact hm
          · rw [if_neg hm, if_neg]
            · rfl
            · intro hc
              apply hm
              simp only [List.mem_cons, List.not_mem_nil, or_false]
              rw [h8, h10]
              exact hc
      by_cases hm : b ∈ ([8, 10] : List UInt8)
      · have e : ∀ s, mkEventW s .vst id (b :: bs) = quiet (mkEvent .vst id (b :: bs)) := by
          intro s
          unfold mkEventW
          dsimp only
          rw [if_pos hm, andThen_quiet]
        rw [e, e]
        refine ⟨modes_quiet _, fun x hx => ?_⟩
        rw [hw x hx, if_pos hm, quiet_fst]
        rfl
      · have e : ∀ s, mkEventW s .vst id (b :: bs) =
            Noisy.andThen (warn s (.marker b.toNat)) fun _ => quiet (mkEvent .vst id (b :: bs)) := by
          intro s
          unfold mkEventW
          dsimp only
          rw [if_neg hm]
        rw [e, e]
        have hq := quiet_fst (mkEvent .vst id (b :: bs))
        refine ⟨⟨rfl, rfl, .inr ⟨_, _, rfl, rfl⟩⟩, fun x hx => ?_⟩
        rw [hw x hx, if_neg hm]
        show [Warn.marker b.toNat] ++ (quiet (mkEvent .vst id (b :: bs))).1 = _
        rw [hq]
        rfl
  · by_cases hl : ∃ l, k = .list l
    · obtain ⟨l, rfl⟩ := hl
      have e : ∀ s, mkEventW s (.list l) id data = match mkEvent (.list l) id data with
          | .error e => quiet (.error e)
          | .ok e => match l.structSize data.length with
            | none => Noisy.andThen (warn s (.size id data.length)) fun _ => quiet (.ok e)
            | some _ => quiet (.ok e) := by
        intro s
        unfold mkEventW
        dsimp only
        rw [andThen_quiet]
        cases mkEvent (.list l) id data <;> rfl
      rw [e, e]
      cases hm : mkEvent (.list l) id data with
      | error x => exact ⟨modes_quiet _, fun e he => by cases he⟩
      | ok x =>
        obtain ⟨g1, g2, g3, -⟩ := mkEvent_ok hm
        dsimp only
        cases hs : l.structSize data.length with
        | none =>
          obtain ⟨rfl, hn⟩ := structSize_none.1 hs
          refine ⟨⟨rfl, rfl, .inr ⟨_, _, rfl, rfl⟩⟩, fun y hy => ?_⟩
          cases hy
          unfold Spec.warningOf
          rw [g2]
          dsimp only
          rw [if_neg (by rw [g3]; exact hn), g1, g3]
          rfl
        | some n =>
          refine ⟨modes_quiet _, fun y hy => ?_⟩
          cases hy
          have hn : ¬ (l = .playlist ∧ ¬ (32 ∣ data.length ∨ 60 ∣ data.length)) := by
            rw [← structSize_none, hs]; simp
          unfold Spec.warningOf
          rw [g2]
          cases l <;> try rfl
          dsimp only
          rw [if_pos (by rw [g3]; exact Decidable.not_not.1 fun h => hn ⟨rfl, h⟩)]
          rfl
    · have : ∀ s, mkEventW s k id data = quiet (mkEvent k id data) := by
        intro s
        cases k <;> first | rfl | exact absurd rfl hv | exact absurd ⟨_, rfl⟩ hl
      rw [this, this]
      refine ⟨modes_quiet _, fun e he => ?_⟩
      rw [quiet_fst]
      obtain ⟨-, h2, -⟩ := mkEvent_ok he
      have : Spec.warningOf e = none := by
        unfold Spec.warningOf
        rw [h2]
        split
        · exact absurd rfl hv
        · exact absurd ⟨_, rfl⟩ hl
        · rfl
      rw [this]
      rfl

omit [FloatEnv] in
theorem nextStr_ok {st : PState} {id : Nat} {value : Bytes} {t : Option Kind} (h : okStr st.strType)
    (ht : nextStrType st id value = .ok t) : okStr t := by
  unfold nextStrType at ht
  split at ht
  · split at ht
    · cases ht
    · next s hs =>
      obtain ⟨k, h1, rfl⟩ := map_ok ht
      unfold versionKind at h1
      split at h1
      · cases h1
      · cases h1
        split
        · exact .inr (.inr rfl)
        · exact .inr (.inl rfl)
  · cases ht; exact h

/-- One iteration, in both modes. -/
theorem stepEventW_modes (st : PState) (id : Nat) (value : Bytes) (hst : okStr st.strType) (hid : id < 256) :
    Modes (stepEventW false enums st id value) (stepEventW true enums st id value) (stepEvent enums st id value) ∧
      ∀ x, stepEvent enums st id value = .ok x →
        (stepEventW false enums st id value).1 = (Spec.warningOf x.1).toList ∧ okStr x.2.strType := by
  have hb : stepEvent enums st id value = (nextStrType st id value).bind fun strType =>
      (resolve enums ⟨st.plugName, strType⟩ id).bind fun k => (mkEvent k id value).bind fun ev =>
        .ok (ev, ⟨nextPlugName enums ⟨st.plugName, strType⟩ ev, strType⟩) := by
    unfold stepEvent
    cases nextStrType st id value with
    | error e => rfl
    | ok t =>
      dsimp only [Except.bind]
      cases resolve enums ⟨st.plugName, t⟩ id with
      | error e => rfl
      | ok k =>
        dsimp only
        cases mkEvent k id value <;> rfl
  have key : ∀ t k, nextStrType st id value = .ok t → resolve enums ⟨st.plugName, t⟩ id = .ok k → k = .vst → fixedSize id = none := by
    intro t k h1 h2 h3
    obtain ⟨-, hw⟩ := resolve_facts hid (st := ⟨st.plugName, t⟩) (nextStr_ok hst h1) h2
    cases hf : fixedSize id with
    | none => rfl
    | some n =>
      have := hw n hf
      rw [h3] at this
      cases this
  constructor
  · rw [hb]
    refine modes_bind (modes_quiet _) fun t ht => modes_bind (modes_quiet _) fun k hk => modes_bind ?_ fun ev _ => modes_quiet _
    exact (mkEventW_modes k id value (key t k ht hk)).1
  · intro x hx
    obtain ⟨ev, st'⟩ := x
    obtain ⟨t, h1, h2, h3, h4, h5⟩ := stepEvent_ok hx
    obtain ⟨m1, m2⟩ := mkEventW_modes ev.kind id value (key t _ h1 h2)
    refine ⟨?_, ?_⟩
    · unfold stepEventW
      rw [h1, andThen_quiet]
      dsimp only
      rw [h2, andThen_quiet]
      dsimp only
      rw [andThen_fst _ m1 h3, quiet_fst, List.append_nil]
      exact m2 _ h3
    · show okStr st'.strType
      rw [show st'.strType = t from h4]
      exact nextStr_ok hst h1

/-- The loop, in both modes. -/
theorem parseLoopW_modes (st : PState) (bs : Bytes) (hst : okStr st.strType) :
    Modes (parseLoopW false enums st bs) (parseLoopW true enums st bs) (parseLoop enums st bs) ∧
      ∀ evs, parseLoop enums st bs = .ok evs → (parseLoopW false enums st bs).1 = evs.filterMap Spec.warningOf := by
  induction hn : bs.length using Nat.strongRecOn generalizing st bs with
  | ind n ih =>
    subst hn
    cases bs with
    | nil =>
      rw [parseLoopW, parseLoopW, parseLoop_nil]
      exact ⟨modes_quiet _, fun evs he => by cases he; rfl⟩
    | cons b rest =>
      have hb : parseLoop enums st (b :: rest) = (readPayload b.toNat rest).bind fun y =>
          (stepEvent enums st b.toNat y.1).bind fun x => (parseLoop enums x.2 y.2).bind fun evs => .ok (x.1 :: evs) := by
        rw [parseLoop_cons]
        cases readPayload b.toNat rest with
        | error e => rfl
        | ok y =>
          dsimp only [Except.bind]
          cases stepEvent enums st b.toNat y.1 with
          | error e => rfl
          | ok x =>
            dsimp only
            cases parseLoop enums x.2 y.2 <;> rfl
      rw [parseLoopW, parseLoopW, hb]
      cases hr : readPayload b.toNat rest with
      | error e => exact ⟨modes_quiet _, fun evs he => by cases he⟩
      | ok x =>
        obtain ⟨value, r⟩ := x
        have hlen : r.length < (b :: rest).length := by
          have := readPayload_le hr
          simp; omega
        obtain ⟨s1, s2⟩ := stepEventW_modes st b.toNat value hst b.toNat_lt
        show Modes _ _ ((stepEvent enums st b.toNat value).bind fun x =>
            (parseLoop enums x.2 r).bind fun evs => .ok (x.1 :: evs)) ∧
          ∀ evs, ((stepEvent enums st b.toNat value).bind fun x =>
            (parseLoop enums x.2 r).bind fun evs => .ok (x.1 :: evs)) = .ok evs → _
        constructor
        · refine modes_bind s1 fun x hx => modes_bind ?_ fun evs _ => modes_quiet _
          exact (ih r.length hlen x.2 r (s2 x hx).2 rfl).1
        · intro evs he
          cases hx : stepEvent enums st b.toNat value with
          | error e => rw [hx] at he; cases he
          | ok x =>
            rw [hx] at he
            dsimp only [Except.bind] at he
            obtain ⟨l1, l2⟩ := ih r.length hlen x.2 r (s2 x hx).2 rfl
            cases hl : parseLoop enums x.2 r with
            | error e => rw [hl] at he; cases he
            | ok evs' =>
              rw [hl] at he
              cases he
              rw [andThen_fst _ s1 hx, (s2 x hx).1, andThen_fst _ l1 hl, l2 _ hl, quiet_fst, List.append_nil, List.filterMap_cons]
              cases Spec.warningOf x.1 <;> rfl

theorem openW_modes (file : Bytes) :
    Modes (openW false file) (openW true file) (parseFile file) ∧
      ∀ p, parseFile file = .ok p → (openW false file).1 = p.events.filterMap Spec.warningOf := by
  have hb : parseFile file = (parseHeader file).bind fun h => (parseLoop enums ⟨none, none⟩ (file.drop 22)).bind fun evs =>
      .ok ⟨h.format, h.channelCount, h.ppq, evs⟩ := by
    unfold parseFile parseWith
    cases parseHeader file with
    | error e => rfl
    | ok h =>
      dsimp only [Except.bind]
      cases parseLoop enums ⟨none, none⟩ (file.drop 22) <;> rfl
  obtain ⟨l1, l2⟩ := parseLoopW_modes ⟨none, none⟩ (file.drop 22) (.inl rfl)
  constructor
  · rw [hb]
    exact modes_bind (modes_quiet _) fun h _ => modes_bind l1 fun evs _ => modes_quiet _
  · intro p hp
    rw [hb] at hp
    unfold openW
    cases hh : parseHeader file with
    | error e => rw [hh] at hp; cases hp
    | ok h =>
      rw [hh] at hp
      dsimp only [Except.bind] at hp
      cases hl : parseLoop enums ⟨none, none⟩ (file.drop 22) with
      | error e => rw [hl] at hp; cases hp
      | ok evs =>
        rw [hl] at hp
        cases hp
        rw [andThen_quiet]
        dsimp only
        rw [andThen_fst _ l1 hl, l2 _ hl, quiet_fst, List.append_nil]

/-! ### Saving -/

/-- Without exceptions for warnings: the result is `r`, and when it is one, the warnings are `ws`. -/
def Shows {α : Type} (a : Noisy α) (r : Py α) (ws : List Warn) : Prop :=
  a.2 = (quiet r).2 ∧ ∀ x, r = .ok x → a.1 = ws

omit [FloatEnv] in
theorem shows_quiet {α : Type} (r : Py α) : Shows (quiet r) r [] := ⟨rfl, fun _ _ => quiet_fst r⟩

omit [FloatEnv] in
theorem shows_bind {α β : Type} {a : Noisy α} {r : Py α} {f : α → Noisy β} {s : α → Py β} {ws ws' : List Warn} (h : Shows a r ws)
    (hf : ∀ x, Shows (f x) (s x) ws') : Shows (a.andThen f) (r.bind s) (ws ++ ws') := by
  obtain ⟨a1, a2⟩ := a
  obtain ⟨h1, h2⟩ := h
  dsimp only at h1 h2
  subst h1
  cases r with
  | error e => exact ⟨rfl, fun x hx => by cases hx⟩
  | ok x =>
    refine ⟨(hf x).1, fun y hy => ?_⟩
    show a1 ++ (f x).1 = _
    rw [h2 x rfl, (hf x).2 y hy]

omit [FloatEnv] in
theorem andThen_congr {α β : Type} {a b : Noisy α} {f g : α → Noisy β} (h : a = b) (hf : ∀ x, f x = g x) :
    a.andThen f = b.andThen g := by
  subst h
  rw [show f = g from funext hf]

omit [FloatEnv] in
theorem andThen_quiet_quiet {α β : Type} (r : Py α) (s : α → Py β) :
    Noisy.andThen (quiet r) (fun x => quiet (s x)) = quiet (r.bind s) := by
  rw [andThen_quiet]
  cases r <;> rfl

/-- Whether a value is a time whose ticks are no multiple of five. -/
def oddValue : Option LV → Bool
  | some (.time _ _ c) => c % 5 ≠ 0
  | _ => false

theorem leafBuildW_quiet (s : Bool) {l : Leaf} {v : Option LV} (h : l ≠ .musical ∨ oddValue v = false) :
    leafBuildW s l v = quiet (leafBuild l v) := by
  unfold leafBuildW
  split
  · next a b c =>
    rcases h with h | h
    · exact absurd rfl h
    · have h : ¬ c % 5 ≠ 0 := by simpa [oddValue] using h
      rw [if_neg h, andThen_quiet]
  · rfl

/-- A field of a struct of the library: times are optional and called `stretching.time`. -/
def TimeField (nf : String × Fld) : Prop :=
  (nf.1 = "stretching.time" ↔ nf.2 = .opt .musical) ∧ (Fld.leaf nf.2 = .musical → nf.2 = .opt .musical)

instance (nf : String × Fld) : Decidable (TimeField nf) := by unfold TimeField; infer_instance

omit [FloatEnv] in
theorem fields_time (s : SName) : ∀ nf ∈ s.fields, TimeField nf := by cases s <;> decide +kernel

omit [FloatEnv] in
theorem oddTime_eq (n : String) (v : Option LV) : Spec.oddTime (n, v) = (decide (n = "stretching.time") && oddValue v) := by
  cases v with
  | none => simp [Spec.oddTime, oddValue]
  | some x => cases x <;> simp [Spec.oddTime, oddValue]

theorem fldBuildW_plain (s : Bool) (cx : Ctx) {n : String} {f : Fld} {v : Option LV} (ht : TimeField (n, f))
    (h : Spec.oddTime (n, v) = false) : fldBuildW s cx f v = quiet (fldBuild cx f v) := by
  have hl : Fld.leaf f ≠ .musical ∨ oddValue v = false := by
    by_cases hm : Fld.leaf f = .musical
    · rw [oddTime_eq, show n = "stretching.time" from ht.1.2 (ht.2 hm)] at h
      exact .inr (by simpa using h)
    · exact .inl hm
  cases f with
  | req l => exact leafBuildW_quiet s hl
  | opt l =>
    unfold fldBuildW
    dsimp only
    rw [leafBuildW_quiet s (l := l) hl]
    have e : fldBuild cx (.opt l) v = match leafBuild l v with | .ok bs => .ok bs | .error _ => .ok [] := rfl
    rw [e]
    cases leafBuild l v <;> rfl
  | ifLen k l =>
    unfold fldBuildW fldBuild
    dsimp only
    split
    · exact leafBuildW_quiet s hl
    · rfl
  | ifNew l =>
    unfold fldBuildW fldBuild
    dsimp only
    split
    · exact leafBuildW_quiet s hl
    · rfl

theorem fldBuildW_odd (cx : Ctx) {n : String} {f : Fld} {v : Option LV} (ht : TimeField (n, f))
    (h : Spec.oddTime (n, v) = true) :
    Shows (fldBuildW false cx f v) (fldBuild cx f v) [.ticks] ∧ fldBuildW true cx f v = quiet (fldBuild cx f none) := by
  rw [oddTime_eq] at h
  simp only [Bool.and_eq_true, decide_eq_true_eq] at h
  obtain ⟨h1, h2⟩ := h
  obtain rfl : f = .opt .musical := ht.1.1 h1
  unfold oddValue at h2
  split at h2
  · next a b c =>
    have hc : c % 5 ≠ 0 := by simpa using h2
    have e : ∀ s, leafBuildW s .musical (some (.time a b c)) =
        Noisy.andThen (warn s .ticks) fun _ => quiet (leafBuild .musical (some (.time a b c))) := by
      intro s
      unfold leafBuildW
      dsimp only
      rw [if_pos hc]
    unfold fldBuildW
    dsimp only
    rw [e, e]
    refine ⟨?_, rfl⟩
    have e : fldBuild cx (.opt .musical) (some (.time a b c)) =
      match leafBuild .musical (some (.time a b c)) with | .ok bs => .ok bs | .error _ => .ok [] := rfl
    rw [e]
    cases leafBuild .musical (some (.time a b c)) with
    | error x => exact ⟨rfl, fun _ _ => rfl⟩
    | ok x => exact ⟨rfl, fun _ _ => rfl⟩
  · cases h2

theorem structBuild_bind (cx : Ctx) (n : String) (f : Fld) (fs : Fields) (v : Option LV) (rec : Rec) :
    structBuild cx ((n, f) :: fs) ((n, v) :: rec) =
      (fldBuild cx f v).bind fun b => (structBuild cx fs rec).bind fun bs => .ok (b ++ bs) := by
  rw [structBuild, if_pos rfl]
  cases fldBuild cx f v with
  | error e => rfl
  | ok b =>
    dsimp only [Except.bind]
    cases structBuild cx fs rec <;> rfl

theorem structBuildW_shows (cx : Ctx) : ∀ (fs : Fields) (rec : Rec), (∀ nf ∈ fs, TimeField nf) →
    Shows (structBuildW false cx fs rec) (structBuild cx fs rec) ((rec.filter Spec.oddTime).map fun _ => .ticks) ∧
      structBuildW true cx fs rec =
        quiet (structBuild cx fs (rec.map fun f => if Spec.oddTime f then (f.1, none) else f))
  | [], [], _ => ⟨shows_quiet _, rfl⟩
  | [], (n, v) :: rec, _ => by
    constructor
    · exact ⟨rfl, fun x hx => by cases hx⟩
    · rfl
  | (n, f) :: fs, [], _ => ⟨⟨rfl, fun x hx => by cases hx⟩, rfl⟩
  | (n, f) :: fs, (n', v) :: rec, hs => by
    obtain ⟨i1, i2⟩ := structBuildW_shows cx fs rec fun nf h => hs nf (by simp [h])
    by_cases hn : n = n'
    · subst hn
      have ht := hs (n, f) (by simp)
      have e : ∀ s, structBuildW s cx ((n, f) :: fs) ((n, v) :: rec) = Noisy.andThen (fldBuildW s cx f v) fun b =>
          Noisy.andThen (structBuildW s cx fs rec) fun bs => quiet (.ok (b ++ bs)) := by
        intro s
        rw [structBuildW, if_pos rfl]
      rw [e, e, structBuild_bind, List.filter_cons, List.map_cons]
      by_cases ho : Spec.oddTime (n, v) = true
      · obtain ⟨o1, o2⟩ := fldBuildW_odd cx ht ho
        rw [if_pos ho, if_pos ho]
        constructor
        · have := shows_bind o1 fun b => shows_bind i1 fun bs => shows_quiet (.ok (b ++ bs))
          simpa using this
        · rw [o2, i2, structBuild_bind]
          rw [andThen_congr rfl fun b => andThen_quiet_quiet _ _, andThen_quiet_quiet]
      · have ho : Spec.oddTime (n, v) = false := by simpa using ho
        rw [if_neg (by simp [ho]), if_neg (by simp [ho]), fldBuildW_plain _ cx ht ho, fldBuildW_plain _ cx ht ho]
        constructor
        · have := shows_bind (shows_quiet (fldBuild cx f v)) fun b => shows_bind i1 fun bs => shows_quiet (.ok (b ++ bs))
          simpa using this
        · rw [i2, structBuild_bind]
          rw [andThen_congr rfl fun b => andThen_quiet_quiet _ _, andThen_quiet_quiet]
    · have e : ∀ s, structBuildW s cx ((n, f) :: fs) ((n', v) :: rec) = quiet (.error .keyError) := by
        intro s
        rw [structBuildW, if_neg hn]
      have e' : ∀ v', structBuild cx ((n, f) :: fs) ((n', v') :: rec) = .error .keyError := by
        intro v'
        rw [structBuild, if_neg hn]
      have e'' : ∀ v' rec', structBuild cx ((n, f) :: fs) ((n', v') :: rec') = .error .keyError := by
        intro v' rec'
        rw [structBuild, if_neg hn]
      rw [e, e, e', List.map_cons]
      refine ⟨⟨rfl, fun x hx => by cases hx⟩, ?_⟩
      split
      · rw [e'']
      · rw [e'']

theorem structBuildW_quiet (s : Bool) (cx : Ctx) : ∀ (fs : Fields) (rec : Rec), (∀ nf ∈ fs, TimeField nf) →
    (∀ f ∈ rec, Spec.oddTime f = false) → structBuildW s cx fs rec = quiet (structBuild cx fs rec)
  | [], [], _, _ => rfl
  | [], (n, v) :: rec, _, _ => rfl
  | (n, f) :: fs, [], _, _ => rfl
  | (n, f) :: fs, (n', v) :: rec, hs, ho => by
    by_cases hn : n = n'
    · subst hn
      rw [structBuildW, if_pos rfl, fldBuildW_plain _ cx (hs (n, f) (by simp)) (ho (n, v) (by simp)),
        structBuildW_quiet s cx fs rec (fun nf h => hs nf (by simp [h])) (fun f h => ho f (by simp [h])), structBuild_bind]
      rw [andThen_congr rfl fun b => andThen_quiet_quiet _ _, andThen_quiet_quiet]
    · rw [structBuildW, if_neg hn, structBuild, if_neg hn]

/-- The serialised value, in both modes. -/
theorem payloadW_shows (e : Event) :
    Shows (e.payloadW false) e.payload (Spec.tickWarnings e) ∧ e.payloadW true = quiet (Spec.withoutOdd e).payload := by
  by_cases h : ∃ s r, e.kind = .struct s ∧ e.value = .fields r
  · obtain ⟨s, r, h1, h2⟩ := h
    obtain ⟨q1, q2⟩ := structBuildW_shows ⟨e.len⟩ s.fields r (fields_time s)
    unfold Event.payloadW Event.payload Spec.tickWarnings Spec.withoutOdd
    rw [h1, h2]
    exact ⟨q1, q2⟩
  · have h1 : ∀ s, e.payloadW s = quiet e.payload := by
      intro s
      unfold Event.payloadW
      split
      · next a b c d => exact absurd ⟨_, _, c, d⟩ h
      · rfl
    have h2 : Spec.tickWarnings e = [] := by
      unfold Spec.tickWarnings
      split
      · next a b c d => exact absurd ⟨_, _, c, d⟩ h
      · rfl
    have h3 : Spec.withoutOdd e = e := by
      unfold Spec.withoutOdd
      split
      · next a b c d => exact absurd ⟨_, _, c, d⟩ h
      · rfl
    rw [h1, h1, h2, h3]
    exact ⟨shows_quiet _, rfl⟩

theorem payloadW_quiet (s : Bool) {e : Event} (h : Spec.tickWarnings e = []) : e.payloadW s = quiet e.payload := by
  unfold Event.payloadW
  split
  · next a b c d =>
    unfold Spec.tickWarnings at h
    rw [c, d] at h
    dsimp only at h
    rw [structBuildW_quiet _ _ _ _ (fields_time _)]
    · unfold Event.payload
      rw [c, d]
      rfl
    · intro f hf
      have h := List.map_eq_nil_iff.1 h
      have := List.filter_eq_nil_iff.1 h f hf
      simpa using this
  · rfl

omit [FloatEnv] in
theorem withoutOdd_id (e : Event) : (Spec.withoutOdd e).id = e.id := by
  unfold Spec.withoutOdd
  split <;> rfl

theorem toBytes_bind (e : Event) : e.toBytes = (intBuild 1 false (e.id : Int)).bind fun i => e.payload.bind fun data =>
    if e.id < 192 then .ok (i ++ data) else .ok (i ++ varBuild data.length ++ data) := by
  unfold Event.toBytes
  cases intBuild 1 false (e.id : Int) with
  | error x => rfl
  | ok i =>
    dsimp only [Except.bind]
    cases e.payload <;> rfl

omit [FloatEnv] in
theorem ite_quiet {α : Type} (c : Prop) [Decidable c] (a b : Py α) : (if c then quiet a else quiet b) = quiet (if c then a else b) := by
  split <;> rfl

theorem toBytesW_shows (e : Event) :
    Shows (e.toBytesW false) e.toBytes (Spec.tickWarnings e) ∧ e.toBytesW true = quiet (Spec.withoutOdd e).toBytes := by
  obtain ⟨h1, h2⟩ := payloadW_shows e
  unfold Event.toBytesW
  constructor
  · rw [toBytes_bind]
    have := shows_bind (shows_quiet (intBuild 1 false (e.id : Int))) fun i => shows_bind h1 fun data =>
      shows_quiet (if e.id < 192 then .ok (i ++ data) else .ok (i ++ varBuild data.length ++ data))
    simpa [ite_quiet] using this
  · rw [toBytes_bind, withoutOdd_id, h2]
    simp only [ite_quiet]
    rw [andThen_congr rfl fun b => andThen_quiet_quiet _ _, andThen_quiet_quiet]

theorem toBytesW_quiet (s : Bool) {e : Event} (h : Spec.tickWarnings e = []) : e.toBytesW s = quiet e.toBytes := by
  unfold Event.toBytesW
  rw [toBytes_bind, payloadW_quiet s h]
  simp only [ite_quiet]
  rw [andThen_congr rfl fun b => andThen_quiet_quiet _ _, andThen_quiet_quiet]

theorem eventsBytes_bind (e : Event) (es : List Event) : eventsBytes (e :: es) =
    e.toBytes.bind fun a => (eventsBytes es).bind fun b => .ok (a ++ b) := by
  rw [eventsBytes]
  unfold seqBuild
  cases e.toBytes with
  | error x => rfl
  | ok a =>
    dsimp only [Except.bind]
    cases eventsBytes es <;> rfl

theorem eventsBytesW_shows : ∀ evs : List Event,
    Shows (eventsBytesW false evs) (eventsBytes evs) (evs.flatMap Spec.tickWarnings) ∧
      eventsBytesW true evs = quiet (eventsBytes (evs.map Spec.withoutOdd))
  | [] => ⟨shows_quiet _, rfl⟩
  | e :: es => by
    obtain ⟨h1, h2⟩ := toBytesW_shows e
    obtain ⟨i1, i2⟩ := eventsBytesW_shows es
    rw [eventsBytesW, eventsBytesW, List.map_cons, eventsBytes_bind, eventsBytes_bind]
    constructor
    · have := shows_bind h1 fun a => shows_bind i1 fun b => shows_quiet (.ok (a ++ b))
      simpa using this
    · rw [h2, i2]
      rw [andThen_congr rfl fun b => andThen_quiet_quiet _ _, andThen_quiet_quiet]

theorem eventsBytesW_quiet (s : Bool) : ∀ evs : List Event, (∀ e ∈ evs, Spec.tickWarnings e = []) →
    eventsBytesW s evs = quiet (eventsBytes evs)
  | [], _ => rfl
  | e :: es, h => by
    rw [eventsBytesW, eventsBytes_bind, toBytesW_quiet s (h e (by simp)), eventsBytesW_quiet s es fun e he => h e (by simp [he])]
    rw [andThen_congr rfl fun b => andThen_quiet_quiet _ _, andThen_quiet_quiet]

theorem saveBytes_bind (p : Project) : saveBytes p = (channelLen p.events).bind fun n =>
    (packHeader p.format n p.ppq).bind fun hdr => (eventsBytes p.events).bind fun body => assemble hdr body := by
  unfold saveBytes
  cases channelLen p.events with
  | error x => rfl
  | ok n =>
    dsimp only [Except.bind]
    cases packHeader p.format n p.ppq with
    | error x => rfl
    | ok hdr =>
      dsimp only
      cases eventsBytes p.events <;> rfl

/-! ### What opening a file puts into the events -/

theorem leafParse_time {l : Leaf} {bs r : Bytes} {a b c : Int} (h : leafParse l bs = .ok (.time a b c, r)) : c % 5 = 0 := by
  cases l <;> simp only [leafParse] at h
  case musical =>
    obtain ⟨x, -, h2⟩ := map_ok h
    simp only [musicalDecode, Prod.mk.injEq, LV.time.injEq] at h2
    omega
  case int | flagsS | f32 | f64 | fourBool | pair32 =>
    obtain ⟨x, -, h2⟩ := map_ok h
    cases h2
  all_goals (repeat' split at h) <;> cases h

theorem fldParse_time {cx : Ctx} {f : Fld} {bs r : Bytes} {a b c : Int} (h : fldParse cx f bs = .ok (some (.time a b c), r)) :
    c % 5 = 0 := by
  have key : ∀ l, (leafParse l bs).map (fun (v, r) => (some v, r)) = .ok (some (.time a b c), r) → c % 5 = 0 := by
    intro l hl
    obtain ⟨⟨v, r'⟩, h1, h2⟩ := map_ok hl
    cases h2
    exact leafParse_time h1
  cases f with
  | req l => exact key l h
  | opt l =>
    unfold fldParse at h
    dsimp only at h
    split at h
    · next v r' hl =>
      cases h
      exact leafParse_time hl
    · cases h
  | ifLen n l =>
    unfold fldParse at h
    dsimp only at h
    split at h
    · exact key l h
    · cases h
  | ifNew l =>
    unfold fldParse at h
    dsimp only at h
    split at h
    · exact key l h
    · cases h

theorem structParse_time (cx : Ctx) : ∀ (fs : Fields) (bs : Bytes) (rec : Rec) (r : Bytes), structParse cx fs bs = .ok (rec, r) →
    ∀ f ∈ rec, Spec.oddTime f = false
  | [], bs, rec, r, h => by
    cases h
    intro f hf
    cases hf
  | (n, g) :: fs, bs, rec, r, h => by
    obtain ⟨v, m, rec', h1, h2, rfl⟩ := structParse_cons h
    intro f hf
    rcases List.mem_cons.1 hf with rfl | hf
    · rw [oddTime_eq]
      unfold oddValue
      split
      · next a b c => simp [fldParse_time h1]
      · simp
    · exact structParse_time cx fs m rec' r h2 f hf

theorem opened_even {file : Bytes} {p : Project} (h : parseFile file = .ok p) : ∀ e ∈ p.events, Spec.tickWarnings e = [] := by
  intro e he
  obtain ⟨-, -, -, -, -, -, -, -, -, -, -, -, -, -, -, -, -, -, -, fs, -, hd⟩ := parse_iff.1 h
  obtain ⟨pre, post, hpp⟩ := List.append_of_mem he
  obtain ⟨fs1, f, fs2, -, -, d⟩ := decoded_split hd hpp
  have hv := d.value
  unfold Spec.tickWarnings
  split
  · next s r h1 h2 =>
    rw [h1, h2] at hv
    simp only [Kind.parse] at hv
    obtain ⟨⟨r', t⟩, q1, q2⟩ := map_ok hv
    cases q2
    rw [List.map_eq_nil_iff, List.filter_eq_nil_iff]
    intro f hf
    simp [structParse_time _ _ _ _ _ q1 f hf]
  · rfl

/-! ### The property -/

/-- **C133.** The warnings shown while a file is opened are exactly those of its events, in their order: one for each VST plugin
whose data begins with another byte than 8 or 10, one for each playlist whose data is no whole number of items.  They change
nothing in the result. -/
theorem C133_opening (file : Bytes) (p : Project) (ws : List Warn) :
    openW false file = (ws, .ok p) ↔ parseFile file = .ok p ∧ ws = p.events.filterMap Spec.warningOf := by
  obtain ⟨⟨h1, -, -⟩, h2⟩ := openW_modes file
  constructor
  · intro h
    rw [h] at h1 h2
    have hp : parseFile file = .ok p := by
      cases hr : parseFile file with
      | error e => rw [hr] at h1; cases h1
      | ok q => rw [hr] at h1; cases h1; rfl
    exact ⟨hp, h2 p hp⟩
  · rintro ⟨hp, rfl⟩
    rw [hp] at h1
    exact Prod.ext (h2 p hp) h1

/-- **C133.** A file that cannot be opened fails in the same way whatever warnings were shown before. -/
theorem C133_opening_fails (file : Bytes) (e : Exc) :
    (openW false file).2 = .error (.exc e) ↔ parseFile file = .error e := by
  obtain ⟨⟨h1, -, -⟩, -⟩ := openW_modes file
  rw [h1]
  cases parseFile file <;> simp [quiet]

/-- **C133.** With warnings turned into exceptions exactly the files that open without a warning can be opened; for the
others that could be opened, the first warning is raised. -/
theorem C133_strict_opening (file : Bytes) :
    (∀ p, openW true file = ([], .ok p) ↔ parseFile file = .ok p ∧ ∀ e ∈ p.events, Spec.warningOf e = none) ∧
      ∀ p w ws, parseFile file = .ok p → p.events.filterMap Spec.warningOf = w :: ws →
        openW true file = ([], .error (.warning w)) := by
  obtain ⟨⟨h1, h2, h3⟩, h4⟩ := openW_modes file
  constructor
  · intro p
    constructor
    · intro h
      rcases h3 with ⟨a, b⟩ | ⟨w, ws, a, b⟩
      · rw [h1, h] at b
        have hp : parseFile file = .ok p := by
          cases hr : parseFile file with
          | error e => rw [hr] at b; cases b
          | ok q => rw [hr] at b; cases b; rfl
        refine ⟨hp, fun e he => ?_⟩
        have := h4 p hp
        rw [a] at this
        have := List.filterMap_eq_nil_iff.1 this.symm e he
        exact this
      · rw [h] at b; cases b
    · rintro ⟨hp, hw⟩
      have e := h4 p hp
      rw [List.filterMap_eq_nil_iff.2 hw] at e
      rcases h3 with ⟨a, b⟩ | ⟨w, ws, a, b⟩
      · refine Prod.ext h2 ?_
        rw [b, h1, hp]; rfl
      · rw [e] at a; cases a
  · intro p w ws hp hw
    rw [← h4 p hp] at hw
    rcases h3 with ⟨a, b⟩ | ⟨w', ws', a, b⟩
    · rw [a] at hw; cases hw
    · rw [a] at hw; cases hw
      exact Prod.ext h2 b

/-- **C133.** Saving shows one warning for each stretching time whose ticks are no multiple of five, and the result is the one
without warnings. -/
theorem C133_saving (p : Project) :
    (∀ saved ws, saveW false p = (ws, .ok saved) ↔ saveBytes p = .ok saved ∧ ws = p.events.flatMap Spec.tickWarnings) ∧
      ∀ e, (saveW false p).2 = .error (.exc e) ↔ saveBytes p = .error e := by
  have key : Shows (saveW false p) (saveBytes p) (p.events.flatMap Spec.tickWarnings) := by
    rw [saveBytes_bind]
    have := shows_bind (shows_quiet (channelLen p.events)) fun n => shows_bind (shows_quiet (packHeader p.format n p.ppq))
      fun hdr => shows_bind (eventsBytesW_shows p.events).1 fun body => shows_quiet (assemble hdr body)
    rwa [List.nil_append, List.nil_append, List.append_nil] at this
  constructor
  · intro saved ws
    constructor
    · intro h
      obtain ⟨h1, h2⟩ := key
      rw [h] at h1 h2
      have hs : saveBytes p = .ok saved := by
        cases hr : saveBytes p with
        | error e => rw [hr] at h1; cases h1
        | ok q => rw [hr] at h1; cases h1; rfl
      exact ⟨hs, h2 _ hs⟩
    · rintro ⟨hs, rfl⟩
      obtain ⟨h1, h2⟩ := key
      rw [hs] at h1
      exact Prod.ext (h2 _ hs) h1
  · intro e
    rw [key.1]
    cases saveBytes p <;> simp [quiet]

/-- **C133.** Saving what was just opened shows no warning, and cannot raise one: it is the same whether warnings are exceptions
or not. -/
theorem C133_unchanged (file : Bytes) (p : Project) (h : parseFile file = .ok p) (strict : Bool) :
    (∀ saved, saveW strict p = ([], .ok saved) ↔ saveBytes p = .ok saved) ∧
      ∀ e, saveW strict p = ([], .error (.exc e)) ↔ saveBytes p = .error e := by
  have key : saveW strict p = quiet (saveBytes p) := by
    unfold saveW
    rw [eventsBytesW_quiet strict _ (opened_even h), saveBytes_bind]
    rw [andThen_congr rfl fun n => (andThen_congr rfl fun hdr => andThen_quiet_quiet _ _).trans (andThen_quiet_quiet _ _),
      andThen_quiet_quiet]
  rw [key]
  cases saveBytes p <;> simp [quiet]

/-- **C133.** With warnings turned into exceptions, saving never raises a warning: the times whose ticks are no multiple of five
are left out of the file instead, and everything behind them moves. -/
theorem C133_strict_saving (p : Project) :
    (∀ saved, saveW true p = ([], .ok saved) ↔ saveBytes { p with events := p.events.map Spec.withoutOdd } = .ok saved) ∧
      ∀ w, (saveW true p).2 ≠ .error (.warning w) := by
  have hc : channelLen (p.events.map Spec.withoutOdd) = channelLen p.events := by
    rw [channelLen_eq, channelLen_eq, channelStarts_map withoutOdd_id]
  have key : saveW true p = quiet (saveBytes { p with events := p.events.map Spec.withoutOdd }) := by
    unfold saveW
    rw [(eventsBytesW_shows p.events).2, saveBytes_bind]
    dsimp only
    rw [hc]
    rw [andThen_congr rfl fun n => (andThen_congr rfl fun hdr => andThen_quiet_quiet _ _).trans (andThen_quiet_quiet _ _),
      andThen_quiet_quiet]
  rw [key]
  cases saveBytes { p with events := p.events.map Spec.withoutOdd } <;> simp [quiet]

/-! ### Bytes that are lost -/

/-- **C133.** A playlist is warned about exactly when its data is not saved completely: what is saved is the beginning of the
data, and it is shorter exactly when there is a warning. -/
theorem C133_playlist (id : Nat) (data : Bytes) (e : Event) (h : mkEvent (.list .playlist) id data = .ok e) :
    ∃ b, e.payload = .ok b ∧ b <+: data ∧ (b.length < data.length ↔ Spec.warningOf e = some (.size id data.length)) ∧
      (b = data ↔ Spec.warningOf e = none) := by
  obtain ⟨h1, h2, h3, h4, -⟩ := mkEvent_ok h
  have hs := LName.size_pos .playlist data.length
  obtain ⟨recs, p1, -, -, p4⟩ := greedy_parse ⟨data.length⟩ (itemSize_list .playlist data.length) hs data
  simp only [Kind.parse] at h4
  rw [p1] at h4
  have hp : e.payload = .ok (data.take (LName.playlist.size data.length * (data.length / LName.playlist.size data.length))) := by
    unfold Event.payload
    rw [h2, ← Except.ok.inj h4, h3]
    exact p4
  have hw : Spec.warningOf e = if 32 ∣ data.length ∨ 60 ∣ data.length then none else some (.size id data.length) := by
    unfold Spec.warningOf
    rw [h2]
    dsimp only
    rw [h1, h3]
  have hd : (32 ∣ data.length ∨ 60 ∣ data.length) ↔
      LName.playlist.size data.length * (data.length / LName.playlist.size data.length) = data.length := by
    unfold LName.size
    dsimp only
    split <;> omega
  have hle : LName.playlist.size data.length * (data.length / LName.playlist.size data.length) ≤ data.length :=
    Nat.mul_div_le _ _
  refine ⟨_, hp, List.take_prefix _ _, ?_, ?_⟩
  · rw [hw, List.length_take]
    by_cases hc : 32 ∣ data.length ∨ 60 ∣ data.length
    · rw [if_pos hc]
      rw [hd.1 hc]
      simp
    · rw [if_neg hc]
      simp only [iff_true]
      rw [hd] at hc
      omega
  · rw [hw]
    by_cases hc : 32 ∣ data.length ∨ 60 ∣ data.length
    · rw [if_pos hc, hd.1 hc]
      simp
    · rw [if_neg hc]
      simp only [reduceCtorEq, iff_false]
      intro he
      rw [hd] at hc
      have := congrArg List.length he
      rw [List.length_take] at this
      omega

namespace Warned

open Spec

/-- A file with one channel and one more event. -/
def file (id : Nat) (n : UInt8) (data : Bytes) : Bytes :=
  [70, 76, 104, 100, 6, 0, 0, 0, 0, 0, 1, 0, 96, 0, 70, 76, 100, 116, n, 0, 0, 0] ++ frames [(64, [0, 0]), (id, data)]

/-- What opening it gives. -/
def project (id : Nat) (k : Kind) (v : Value) (n : Nat) : Project :=
  ⟨0, 1, 96, [⟨64, .u16, .lv (.int 0), 2⟩, ⟨id, k, v, n⟩]⟩

theorem opens {id : Nat} {n : UInt8} {data : Bytes} {k : Kind} {v : Value} (hid : 208 ≤ id ∧ id < 256)
    (hl : data.length < 128) (hs : n.toNat = data.length + 5) (hk : enumType enums id = some k) (hv : k.parse data = .ok v) :
    parseFile (file id n data) = .ok (project id k v data.length) := by
  refine parse_iff.2 ⟨0, 0, 1, 0, 96, 0, n, 0, 0, 0, _, rfl, by decide, by decide, ?_, ?_, rfl, rfl, rfl, _,
    splits_frames ?_, ?_⟩
  · simp [frames, frame]
  · simp [frames, frame, Demo.varBuild_small hl, dword, show ¬ id < 192 by omega]
    omega
  · intro f hf
    simp only [List.mem_cons, List.not_mem_nil, or_false] at hf
    rcases hf with rfl | rfl
    · simp [FrameOK, sizeOK]
    · refine ⟨hid.2, ?_, ?_, ?_, ?_⟩
      · intro h; exact absurd h (by dsimp only; omega)
      · intro h; exact absurd h (by dsimp only; omega)
      · intro h; exact absurd h (by dsimp only; omega)
      · intro _; dsimp only; omega
  · refine .cons ⟨rfl, rfl, by decide +kernel, rfl, by simp, by simp, by simp, by simp⟩
      (.cons ⟨rfl, rfl, ?_, hv, ?_, ?_, ?_, ?_⟩ .nil)
    · unfold kindOf
      rw [hk]
    · intro h; exact absurd h (by dsimp only; omega)
    · intro h1 h; exact absurd h (by dsimp only; omega)
    · intro h1 h; exact absurd h (by dsimp only; omega)
    · intro h; exact absurd h (by dsimp only; omega)

end Warned

/-- A file with a playlist of 33 bytes: one item and a byte.  It opens with a warning; with warnings as exceptions it does not
open. -/
example : ∃ p, openW false (Warned.file 233 38 (List.replicate 33 0)) = ([.size 233 33], .ok p) ∧
    openW true (Warned.file 233 38 (List.replicate 33 0)) = ([], .error (.warning (.size 233 33))) := by
  have h := Warned.opens (id := 233) (n := 38) (data := List.replicate 33 0) (k := .list .playlist) (by omega) (by decide) (by decide)
    (by decide +kernel) rfl
  have hw : ∀ v, (Warned.project 233 (.list .playlist) v 33).events.filterMap Spec.warningOf = [.size 233 33] := by
    intro v
    have h1 : Spec.warningOf ⟨233, .list .playlist, v, 33⟩ = some (.size 233 33) := by
      unfold Spec.warningOf
      dsimp only
      rw [if_neg (by decide)]
    simp [Warned.project, List.filterMap_cons, h1, show Spec.warningOf ⟨64, .u16, .lv (.int 0), 2⟩ = none from rfl]
  exact ⟨_, (C133_opening _ _ _).2 ⟨h, (hw _).symm⟩, (C133_strict_opening _).2 _ _ _ h (hw _)⟩

/-- **C133 (refuted in general).** Other lists lose bytes without any warning: a notes event of 25 bytes (one note and a byte)
is opened and saved without a warning, even with warnings as exceptions, and the last byte is gone. -/
theorem C133_silent_refuted : ∃ file p saved, openW true file = ([], .ok p) ∧ saveW true p = ([], .ok saved) ∧
    ∃ e ∈ p.events, ∃ b, e.payload = .ok b ∧ b.length < e.len := by
  have h := Warned.opens (id := 224) (n := 30) (data := List.replicate 25 0) (k := .list .notes) (by omega) (by decide) (by decide)
    (by decide +kernel) rfl
  obtain ⟨saved, hs⟩ := C122_opened_saves _ _ h
    (by simp [Warned.file, Spec.frames, Spec.frame, Demo.varBuild_small]) (by show (1 : Nat) ≠ 0; omega) (by show (1 : Nat) < 65536; omega)
  refine ⟨_, _, saved, ((C133_strict_opening _).1 _).2 ⟨h, ?_⟩, ((C133_unchanged _ _ h true).1 saved).2 hs, _,
    List.mem_cons_of_mem _ (List.mem_cons_self ..), (List.replicate 25 0).take 24, ?_, by simp⟩
  · intro e he
    simp only [Warned.project, List.mem_cons, List.not_mem_nil, or_false] at he
    rcases he with rfl | rfl <;> rfl
  · obtain ⟨recs, p1, -, -, p4⟩ := greedy_parse ⟨25⟩ (itemSize_list .notes 25) (LName.size_pos .notes 25) (List.replicate 25 0)
    show greedyBuild ⟨25⟩ LName.notes.fields (greedyParse ⟨25⟩ LName.notes.fields (List.replicate 25 0)).1 = _
    rw [p1]
    exact p4

/-- **C133.** Lists other than playlists are never warned about; their data is saved completely exactly when it is a whole
number of items. -/
theorem C133_lists (l : LName) (hl : l ≠ .playlist) (id : Nat) (data : Bytes) (e : Event) (h : mkEvent (.list l) id data = .ok e) :
    Spec.warningOf e = none ∧ ∃ b, e.payload = .ok b ∧ b <+: data ∧ (b = data ↔ l.sizeof ∣ data.length) := by
  obtain ⟨h1, h2, h3, h4, -⟩ := mkEvent_ok h
  have hs := LName.size_pos l data.length
  have hz : l.size data.length = l.sizeof := by cases l <;> first | rfl | exact absurd rfl hl
  obtain ⟨recs, p1, -, -, p4⟩ := greedy_parse ⟨data.length⟩ (itemSize_list l data.length) hs data
  simp only [Kind.parse] at h4
  rw [p1] at h4
  have hp : e.payload = .ok (data.take (l.sizeof * (data.length / l.sizeof))) := by
    unfold Event.payload
    rw [h2, ← Except.ok.inj h4, h3, ← hz]
    exact p4
  have hw : Spec.warningOf e = none := by
    unfold Spec.warningOf
    rw [h2]
    cases l <;> first | rfl | exact absurd rfl hl
  refine ⟨hw, _, hp, List.take_prefix _ _, ?_⟩
  rw [List.take_eq_self_iff]
  have hle := Nat.mul_div_le data.length l.sizeof
  constructor
  · intro hge
    exact ⟨_, (Nat.le_antisymm hle hge).symm⟩
  · rintro ⟨m, hm⟩
    rw [hz] at hs
    rw [hm, Nat.mul_div_cancel_left _ hs]

/-- Notes of 48 bytes. -/
example : ∃ e, mkEvent (.list .notes) 224 (List.replicate 48 0) = .ok e ∧ Spec.warningOf e = none :=
  ⟨_, rfl, (C133_lists .notes (by simp) 224 (List.replicate 48 0) _ rfl).1⟩

/-! ### Opening again -/

/-- One event, saved and opened again. -/
theorem reopened_warning {before : List Event} {f : Nat × Bytes} {e e' : Event} (d : Spec.DecodesTo before f e)
    (hp : e.payload = .ok e.pay) (hr : Reopened e e') :
    Spec.warningOf e' = (Spec.warningOf e).filter fun w => match w with | .marker _ => true | _ => false := by
  obtain ⟨r1, r2, r3, r4⟩ := hr
  have hv := d.value
  by_cases hk : e.kind = .vst
  · rw [hk] at hv r4
    simp only [Kind.parse, vstParse] at hv
    split at hv
    · cases hv
    · split at hv
      · cases hv
      · next t r p1 =>
        have hv := Except.ok.inj hv
        have hb := hp
        unfold Event.payload at hb
        rw [hk, ← hv] at hb
        simp only [Kind.build, vstBuild] at hb
        cases h1 : intBuild 4 false t with
        | error x => rw [h1] at hb; cases hb
        | ok a =>
          rw [h1] at hb
          dsimp only at hb
          split at hb
          · cases hb
          · next b2 _ =>
            have hb := Except.ok.inj hb
            rw [← hb] at r4
            simp only [Kind.parse, vstParse] at r4
            rw [intParse_intBuild h1] at r4
            have hv' : ∃ items, e'.value = .vst t items := by
              split at r4
              · cases r4
              · exact ⟨_, (Except.ok.inj r4).symm⟩
            obtain ⟨items, hv'⟩ := hv'
            unfold Spec.warningOf
            rw [r2, hk, hv', ← hv]
            dsimp only
            split <;> rfl
  · by_cases hl : e.kind = .list .playlist
    · have hlen : e'.len = LName.playlist.size f.2.length * (f.2.length / LName.playlist.size f.2.length) := by
        have hb : e.pay = f.2.take (LName.playlist.size f.2.length * (f.2.length / LName.playlist.size f.2.length)) := by
          refine list_step ⟨e.value, ?_, ?_⟩
          · rw [← hl]; exact hv
          · have := hp
            unfold Event.payload at this
            rw [hl, d.len] at this
            exact this
        rw [r3, hb, List.length_take]
        exact Nat.min_eq_left (Nat.mul_div_le _ _)
      have h1 : 32 ∣ e'.len ∨ 60 ∣ e'.len := by
        rw [hlen]
        unfold LName.size
        dsimp only
        split
        · exact .inr ⟨_, rfl⟩
        · exact .inl ⟨_, rfl⟩
      have h2 : Spec.warningOf e' = none := by
        unfold Spec.warningOf
        rw [r2, hl]
        dsimp only
        rw [if_pos h1]
      rw [h2]
      unfold Spec.warningOf
      rw [hl]
      dsimp only
      split <;> rfl
    · have key : ∀ x : Event, x.kind = e.kind → Spec.warningOf x = none := by
        intro x hx
        unfold Spec.warningOf
        split
        · next h _ => exact absurd (hx.symm.trans h) hk
        · next h => exact absurd (hx.symm.trans h) hl
        · rfl
      rw [key e rfl, key e' r2]
      rfl

/-- **C133.** Opening what was opened and saved: the warnings about VST plugins are shown again, those about playlists are not
(the bytes they were about are gone). -/
theorem C133_reopened (file saved : Bytes) (p : Project) (h : parseFile file = .ok p) (hs : saveBytes p = .ok saved) :
    ∃ q, openW false saved = ((p.events.filterMap Spec.warningOf).filter fun w =>
      match w with | .marker _ => true | _ => false, .ok q) := by
  obtain ⟨q, h1, -, -, -, h5⟩ := opens_again h hs
  refine ⟨q, (C133_opening _ _ _).2 ⟨h1, ?_⟩⟩
  obtain ⟨-, -, -, -, -, -, -, -, -, -, -, -, -, -, -, -, -, -, -, fs, -, hd⟩ := parse_iff.1 h
  obtain ⟨-, -, -, -, -, -, -, -, -, -, -, -, -, -, -, k6⟩ := saveBytes_ok hs
  have key : ∀ (before : List Event) (fs : List (Nat × Bytes)) (as bs : List Event), Spec.Decoded before fs as →
      (∀ e ∈ as, e.payload = .ok e.pay) → Pointwise Reopened as bs → (as.filterMap Spec.warningOf).filter (fun w =>
        match w with | .marker _ => true | _ => false) = bs.filterMap Spec.warningOf := by
    intro before fs as bs hd hp hpw
    induction hpw generalizing before fs with
    | nil => rfl
    | @cons a b as bs r t ih =>
      cases hd with
      | cons d hd =>
        have := reopened_warning d (hp a (by simp)) r
        rw [List.filterMap_cons, List.filterMap_cons, this]
        have ih := ih _ _ hd fun e he => hp e (by simp [he])
        cases hw : Spec.warningOf a with
        | none => exact ih
        | some w =>
          cases w <;> simp [Option.filter, ih]
  exact key [] fs _ _ hd (fun e he => (k6 e he).2) h5

/-! ### Times that are left out -/

namespace Warned

/-- The first fields of the channel parameters, with zeros in them. -/
def before : Rec := [
  ("_u1", some (.bytes (List.replicate 9 0))), ("fx.remove_dc", some (.bool false)), ("delay.flags", some (.int 0)),
  ("keyboard.main_pitch", some (.bool false)), ("_u2", some (.bytes (List.replicate 28 0))), ("arp.direction", some (.int 0)),
  ("arp.range", some (.int 0)), ("arp.chord", some (.int 0)), ("arp.time", some (.f32 0)),
  ("arp.gate", some (.f32 0)), ("arp.slide", some (.bool false)), ("_u3", some (.bytes [0])),
  ("time.full_porta", some (.bool false)), ("keyboard.add_root", some (.bool false)), ("time.gate", some (.int 0)),
  ("_u4", some (.bytes [0, 0])), ("keyboard.key_region", some (.pair 0 0)), ("_u5", some (.bytes [0, 0, 0, 0])),
  ("fx.normalize", some (.bool false)), ("fx.inverted", some (.bool false)), ("_u6", some (.bytes [0])),
  ("content.declick_mode", some (.int 0)), ("fx.crossfade", some (.int 0)), ("fx.trim", some (.int 0)),
  ("arp.repeat", some (.int 0))]

/-- The fields after the pitch, which are not there, except perhaps one. -/
def after (fix : Option LV) : Rec := [
  ("stretching.multiplier", none), ("stretching.mode", none), ("_u7", none), ("fx.start", none), ("_u8", none),
  ("fx.length", none), ("_u9", none), ("playback.start_offset", none), ("_u10", none), ("fx.fix_trim", fix),
  ("_extra", some (.bytes []))]

/-- Channel parameters with this time and pitch. -/
def params (time pitch fix : Option LV) : Rec :=
  before ++ [("stretching.time", time), ("stretching.pitch", pitch)] ++ after fix

end Warned

/-- **C133 (refuted for exceptions).** A user who turns warnings into exceptions does not learn about odd ticks: the channel
parameters `data` hold a pitch of 7; after assigning a time with 3 ticks, saving raises nothing and shows nothing, and what is
written is read as a time of 35 ticks and no pitch (the last flag, absent before, is written as a zero). -/
theorem C133_strict_saving_refuted : ∃ data b : Bytes,
    mkEvent (.struct .parameters) 215 data =
      .ok ⟨215, .struct .parameters, .fields (Warned.params (some (.time 0 0 0)) (some (.int 7)) none), data.length⟩ ∧
    (Event.mk 215 (.struct .parameters) (.fields (Warned.params (some (.time 1 2 3)) (some (.int 7)) none)) data.length).payloadW true =
      ([], .ok b) ∧
    mkEvent (.struct .parameters) 215 b =
      .ok ⟨215, .struct .parameters, .fields (Warned.params (some (.time 0 0 35)) none (some (.bool false))), b.length⟩ := by
  refine ⟨List.replicate 100 0 ++ [7, 0, 0, 0], List.replicate 96 0 ++ [7, 0, 0, 0, 0], ?_, ?_, ?_⟩
  · rfl
  · rw [(payloadW_shows _).2]
    have h : (Spec.withoutOdd (Event.mk 215 (.struct .parameters) (.fields (Warned.params (some (.time 1 2 3)) (some (.int 7)) none))
        104)).payload = .ok (List.replicate 96 0 ++ [7, 0, 0, 0, 0]) := by
      show structBuild ⟨104⟩ SName.parameters.fields (Warned.params none (some (.int 7)) none) = _
      rfl
    exact congrArg quiet h
  · rfl

namespace Warned

open Spec

/-- A VST plugin whose data begins with 5. -/
def vstFile : Bytes :=
  [70, 76, 104, 100, 6, 0, 0, 0, 0, 0, 1, 0, 96, 0, 70, 76, 100, 116, 46, 0, 0, 0] ++
    frames [(64, [0, 0]), (199, [50, 48, 46, 56, 0]),
      (201, [70, 0, 114, 0, 117, 0, 105, 0, 116, 0, 121, 0, 32, 0, 87, 0, 114, 0, 97, 0, 112, 0, 112, 0, 101, 0, 114, 0]),
      (213, [5, 0, 0, 0])]

/-- What opening it gives. -/
def vstProject : Project :=
  ⟨0, 1, 96, [⟨64, .u16, .lv (.int 0), 2⟩, ⟨199, .ascii, .str (PStr.lit "20.8"), 5⟩,
    ⟨201, .unicode, .str (PStr.lit "Fruity Wrapper"), 28⟩, ⟨213, .vst, .vst 5 [], 4⟩]⟩

theorem vst_opens : parseFile vstFile = .ok vstProject := by
  refine parse_iff.2 ⟨0, 0, 1, 0, 96, 0, 46, 0, 0, 0, _, rfl, by decide, by decide, ?_, ?_, rfl, rfl, rfl, _,
    splits_frames ?_, ?_⟩
  · simp [frames, frame]
  · simp [frames, frame, Demo.varBuild_small, dword]
  · simp [FrameOK, sizeOK]
  · refine .cons ⟨rfl, rfl, by decide +kernel, rfl, by simp, by simp, by simp, by simp⟩
      (.cons ⟨rfl, rfl, by decide +kernel, rfl, by simp, by simp, by simp, fun _ => ⟨_, rfl, [20, 8], by decide +kernel⟩⟩
      (.cons ⟨rfl, rfl, by decide +kernel, ?_, by simp, by simp, by simp, by simp⟩
      (.cons ⟨rfl, rfl, by decide +kernel, ?_, by simp, by simp, by simp, by simp⟩ .nil)))
    · rfl
    · have h : (manyParse vstItemParse []).1 = [] := by
        rw [manyParse]
        rfl
      have hi : intParse 4 false [5, 0, 0, 0] = .ok (5, []) := rfl
      simp only [Kind.parse, vstParse, hi, h]

end Warned

/-- It opens with a warning, before and after saving. -/
example : openW false Warned.vstFile = ([.marker 5], .ok Warned.vstProject) ∧
    ∃ saved q, saveW false Warned.vstProject = ([], .ok saved) ∧ openW false saved = ([.marker 5], .ok q) := by
  obtain ⟨saved, hs⟩ := C122_opened_saves _ _ Warned.vst_opens
    (by simp [Warned.vstFile, Spec.frames, Spec.frame, Demo.varBuild_small]) (by show (1 : Nat) ≠ 0; omega)
    (by show (1 : Nat) < 65536; omega)
  obtain ⟨q, hq⟩ := C133_reopened _ _ _ Warned.vst_opens hs
  exact ⟨(C133_opening _ _ _).2 ⟨Warned.vst_opens, rfl⟩, saved, q, ((C133_unchanged _ _ Warned.vst_opens false).1 saved).2 hs, hq⟩

/-- Channel parameters with a time of 3 ticks are warned about when saving. -/
example : Spec.tickWarnings ⟨215, .struct .parameters, .fields (Warned.params (some (.time 1 2 3)) (some (.int 7)) none), 104⟩ = [.ticks] := by
  rfl

end PyFLP
