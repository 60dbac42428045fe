import Verif.Spec
/-!
# Lemmas about parsing and saving files
-/

namespace PyFLP

open Spec

/-! ### Dispatch tables -/

/-- Number of payload bytes of the fixed-size event classes. -/
def Kind.width : Kind → Option Nat
  | .bool | .i8 | .u8 => some 1
  | .i16 | .u16 => some 2
  | .f32 | .i32 | .u32 | .u16t | .color => some 4
  | _ => none

theorem enum_facts : ∀ id : Fin 256, ∀ k, enumType enums id.val = some k →
    k.allowed id.val = true ∧ (∀ n, fixedSize id.val = some n → k.width = some n) := by
  decide +kernel

theorem enum_unknown_201 : enumType enums 201 = none := by decide +kernel
theorem enum_199 : enumType enums 199 = some .ascii := by decide +kernel
theorem enum_213 : enumType enums 213 = none := by decide +kernel

theorem nativePlugins_allowed : ∀ p ∈ nativePlugins, p.2.allowed 213 = true := by decide +kernel

theorem kindByName_allowed (n : PStr) : (kindByName n).allowed 213 = true := by
  unfold kindByName
  split
  · next p hp => exact nativePlugins_allowed p (List.mem_of_find?_eq_some hp)
  · rfl

/-- The text types the parser can be in. -/
def okStr (o : Option Kind) : Prop := o = none ∨ o = some .ascii ∨ o = some .unicode

theorem resolve_facts {st : PState} {id : Nat} {k : Kind} (hid : id < 256) (hst : okStr st.strType)
    (h : resolve enums st id = .ok k) :
    k.allowed id = true ∧ (∀ n, fixedSize id = some n → k.width = some n) := by
  unfold resolve at h
  split at h
  · next k' hk =>
    cases h
    exact enum_facts ⟨id, hid⟩ k hk
  · split at h
    · next h1 => cases h; simp [Kind.allowed, Kind.width, fixedSize, h1]
    · split at h
      · next h1 h2 =>
        cases h; simp only [Kind.allowed, Kind.width, fixedSize, h1, h2, if_true, if_false]
        simp; omega
      · split at h
        · next h1 h2 h3 =>
          cases h; simp only [Kind.allowed, Kind.width, fixedSize, h1, h2, h3, if_true, if_false]
          simp; omega
        · next h1 h2 h3 =>
          have hfs : fixedSize id = none := by simp [fixedSize, h1, h2, h3]
          rw [hfs]
          refine ⟨?_, by simp⟩
          split at h
          · next h4 =>
            split at h
            · cases h
            · next k' hk =>
              cases h
              have : k = .ascii ∨ k = .unicode := by
                rcases hst with e | e | e <;> rw [e] at hk <;> cases hk <;> simp
              have hb : (192 ≤ id && decide (id < 208) || newTextIds.contains id) = true := by
                rcases h4 with h4 | h4
                · simp; left; omega
                · simp [h4]
              rcases this with rfl | rfl <;> simpa [Kind.allowed] using hb
          · split at h
            · next h5 =>
              subst h5
              split at h
              · cases h; exact kindByName_allowed _
              · cases h; rfl
            · cases h; rfl

theorem build_width [FloatEnv] {k : Kind} {len : Nat} {v : Value} {b : Bytes} {n : Nat}
    (hk : k.width = some n) (h : k.build len v = .ok b) : b.length = n := by
  have leaf : ∀ l, (∃ x, leafBuild l x = .ok b) → leafSize l = some n → b.length = n :=
    fun l ⟨x, hx⟩ hs => leafBuild_size hx hs
  cases k <;> simp only [Kind.width, reduceCtorEq, Option.some.injEq] at hk <;> subst hk
  case u16t =>
    cases v with
    | lv x =>
      cases x <;> simp only [Kind.build, Kind.leaf, reduceCtorEq] at h
      exact int2Build_size h
    | _ => simp [Kind.build] at h
  case color =>
    cases v <;> simp only [Kind.build, Kind.leaf, reduceCtorEq] at h
    have hlen : ∀ x y, colEncode x = .ok y → y.length = 1 := by
      intro x y hxy
      unfold colEncode at hxy
      simp only at hxy
      split at hxy
      · cases hxy; rfl
      · cases hxy
    split at h
    · next h1 h2 h3 h4 =>
      cases h
      simp [hlen _ _ h1, hlen _ _ h2, hlen _ _ h3, hlen _ _ h4]
    · cases h
  all_goals
    cases v <;> simp only [Kind.build, Kind.leaf, reduceCtorEq] at h
    exact leaf _ ⟨_, h⟩ rfl

/-! ### Framing -/

theorem toNat_ofNat_id {n : Nat} (h : n < 256) : (UInt8.ofNat n).toNat = n := u8_ofNat_toNat h

theorem readPayload_frame {f : Nat × Bytes} (hf : FrameOK f) (rest : Bytes) :
    readPayload f.1 ((if f.1 < 192 then [] else varBuild f.2.length) ++ f.2 ++ rest) = .ok (f.2, rest) := by
  obtain ⟨hid, h1, h2, h3, h4⟩ := hf
  unfold readPayload
  by_cases c1 : f.1 < 64
  · have := h1 c1
    rw [if_pos c1, if_pos (by omega), List.nil_append, List.take_left' this, List.drop_left' this]
  · rw [if_neg c1]
    by_cases c2 : f.1 < 128
    · have := h2 ⟨by omega, c2⟩
      rw [if_pos c2, if_pos (by omega), List.nil_append, List.take_left' this, List.drop_left' this]
    · rw [if_neg c2]
      by_cases c3 : f.1 < 192
      · have := h3 ⟨by omega, c3⟩
        rw [if_pos c3, if_pos c3, List.nil_append, List.take_left' this, List.drop_left' this]
      · rw [if_neg c3, if_neg c3, List.append_assoc, varParse_varBuild]
        have := h4 (by omega)
        dsimp only
        rw [if_neg (by omega), List.take_left' rfl, List.drop_left' rfl]

variable [FloatEnv]

theorem parseLoop_nil (es : List IdEnum) (st : PState) : parseLoop es st [] = .ok [] := by
  rw [parseLoop]

/-- The loop without its termination bookkeeping. -/
theorem parseLoop_cons (es : List IdEnum) (st : PState) (b : UInt8) (rest : Bytes) :
    parseLoop es st (b :: rest) =
      match readPayload b.toNat rest with
      | .error e => .error e
      | .ok (value, r) =>
        match stepEvent es st b.toNat value with
        | .error e => .error e
        | .ok (ev, st') =>
          match parseLoop es st' r with
          | .error e => .error e
          | .ok evs => .ok (ev :: evs) := by
  rw [parseLoop]
  split
  · next e h => rw [h]
  · next value r h =>
    rw [h]
    dsimp only
    cases h2 : stepEvent es st b.toNat value with
    | error e => rfl
    | ok p =>
      obtain ⟨ev, st'⟩ := p
      dsimp only
      cases h3 : parseLoop es st' r <;> rfl

theorem parseLoop_frame (es : List IdEnum) (st : PState) {f : Nat × Bytes} (hf : FrameOK f)
    (rest : Bytes) :
    parseLoop es st (frame f ++ rest) =
      match stepEvent es st f.1 f.2 with
      | .error e => .error e
      | .ok (ev, st') =>
        match parseLoop es st' rest with
        | .error e => .error e
        | .ok evs => .ok (ev :: evs) := by
  unfold frame
  rw [List.cons_append, List.cons_append, parseLoop_cons, toNat_ofNat_id hf.1, readPayload_frame hf]

/-- What the loop did: the framed events and the state before each. -/
inductive Runs (es : List IdEnum) : PState → List (Nat × Bytes) → List Event → PState → Prop
  | nil {st} : Runs es st [] [] st
  | cons {st f ev st' fs evs st''} (h : stepEvent es st f.1 f.2 = .ok (ev, st'))
      (t : Runs es st' fs evs st'') : Runs es st (f :: fs) (ev :: evs) st''

theorem parseLoop_frames {es : List IdEnum} {st : PState} {fs : List (Nat × Bytes)}
    (hf : ∀ f ∈ fs, FrameOK f) {evs : List Event} :
    parseLoop es st (frames fs) = .ok evs ↔ ∃ st', Runs es st fs evs st' := by
  induction fs generalizing st evs with
  | nil =>
    simp only [frames, List.flatMap_nil, parseLoop_nil]
    constructor
    · intro h; cases h; exact ⟨st, .nil⟩
    · rintro ⟨_, h⟩; cases h; rfl
  | cons f fs ih =>
    have e : frames (f :: fs) = frame f ++ frames fs := by simp [frames]
    rw [e, parseLoop_frame es st (hf f (by simp))]
    have ih' := fun st evs => ih (st := st) (evs := evs) (fun x hx => hf x (by simp [hx]))
    constructor
    · intro h
      split at h
      · cases h
      · next ev st' hs =>
        split at h
        · cases h
        · next evs' hl =>
          cases h
          obtain ⟨st'', hr⟩ := (ih' _ _).1 hl
          exact ⟨st'', .cons hs hr⟩
    · rintro ⟨st'', h⟩
      cases h with
      | cons hs hr =>
        rw [hs]
        dsimp only
        rw [(ih' _ _).2 ⟨_, hr⟩]

/-! ### One iteration -/

theorem mkEvent_ok {k : Kind} {id : Nat} {data : Bytes} {ev : Event} (h : mkEvent k id data = .ok ev) :
    ev.id = id ∧ ev.kind = k ∧ ev.len = data.length ∧ k.parse data = .ok ev.value ∧
      k.allowed id = true ∧ ∀ n, fixedSize id = some n → data.length = n := by
  unfold mkEvent at h
  split at h
  · cases h
  · next ha =>
    have ha : k.allowed id = true := by simpa using ha
    split at h
    · next n hn =>
      split at h
      · cases h
      · next hl =>
        obtain ⟨v, h1, h2⟩ := map_ok h
        subst h2
        refine ⟨rfl, rfl, rfl, h1, ha, fun m hm => ?_⟩
        rw [hn] at hm
        cases hm
        exact Decidable.not_not.1 hl
    · next hn =>
      obtain ⟨v, h1, h2⟩ := map_ok h
      subst h2
      exact ⟨rfl, rfl, rfl, h1, ha, fun m hm => by rw [hn] at hm; cases hm⟩

theorem mkEvent_eq {k : Kind} {id : Nat} {data : Bytes} {v : Value} (ha : k.allowed id = true)
    (hs : ∀ n, fixedSize id = some n → data.length = n) (hp : k.parse data = .ok v) :
    mkEvent k id data = .ok ⟨id, k, v, data.length⟩ := by
  unfold mkEvent
  rw [if_neg (by simp [ha])]
  split
  · next n hn => rw [if_neg (by simp [hs n hn]), hp]; rfl
  · rw [hp]; rfl

theorem stepEvent_ok {es : List IdEnum} {st st' : PState} {id : Nat} {value : Bytes} {ev : Event}
    (h : stepEvent es st id value = .ok (ev, st')) :
    ∃ t, nextStrType st id value = .ok t ∧ resolve es ⟨st.plugName, t⟩ id = .ok ev.kind ∧
      mkEvent ev.kind id value = .ok ev ∧ st'.strType = t ∧
      st'.plugName = nextPlugName es ⟨st.plugName, t⟩ ev := by
  unfold stepEvent at h
  split at h
  · cases h
  · next t ht =>
    split at h
    · cases h
    · next k hk =>
      split at h
      · cases h
      · next ev' hev =>
        cases h
        have := (mkEvent_ok hev).2.1
        rw [← this] at hk hev
        exact ⟨t, ht, hk, hev, rfl, rfl⟩

omit [FloatEnv] in
theorem listGe_iff (parts : List Int) : listGe (parts.take 2) [11, 5] = true ↔ AtLeast11_5 parts := by
  match parts with
  | [] => simp [listGe, AtLeast11_5]
  | [a] =>
    simp only [List.take_succ_cons, List.take_nil, listGe, AtLeast11_5, List.head?_nil,
      reduceCtorEq, false_and, exists_false, and_false, or_false]
    split
    · next h => subst h; simp
    · simp
  | a :: b :: rest =>
    simp only [List.take_succ_cons, List.take_zero, listGe, AtLeast11_5, List.head?_cons,
      Option.some.injEq, exists_eq_left']
    split
    · next h =>
      subst h
      split
      · next h => subst h; simp
      · simp; omega
    · next h => simp [h]

omit [FloatEnv] in
theorem versionKind_eq {s : PStr} {k : Kind} : versionKind s = .ok k ↔
    ∃ parts, intParts (pySplit 46 s) = some parts ∧
      k = if AtLeast11_5 parts then .unicode else .ascii := by
  unfold versionKind
  split
  · next h => simp [h]
  · next parts h =>
    simp only [Except.ok.injEq, h, Option.some.injEq, exists_eq_left']
    rw [show (if listGe (parts.take 2) [11, 5] = true then Kind.unicode else .ascii)
      = if AtLeast11_5 parts then .unicode else .ascii from by
        by_cases hc : AtLeast11_5 parts
        · rw [if_pos hc, if_pos ((listGe_iff parts).2 hc)]
        · rw [if_neg hc, if_neg (fun h => hc ((listGe_iff parts).1 h))]]
    exact eq_comm

/-! ### The parser state is determined by the preceding events -/

/-- The state of the loop after the events `before`. -/
def StateAt (before : List Event) (st : PState) : Prop :=
  st.strType = textKind before ∧ st.plugName = lastStr 201 before

omit [FloatEnv] in
theorem stateAt_init : StateAt [] ⟨none, none⟩ := ⟨rfl, rfl⟩

omit [FloatEnv] in
theorem lastStr_append (id : Nat) (before : List Event) (e : Event) :
    lastStr id (before ++ [e]) = if e.id = id then strOf e.value else lastStr id before := by
  unfold lastStr
  rw [List.filter_append]
  by_cases h : e.id = id
  · simp [h]
  · simp [h]

omit [FloatEnv] in
theorem okStr_textKind (before : List Event) : okStr (textKind before) := by
  unfold textKind okStr
  split
  · simp
  · split
    · simp
    · split <;> simp

omit [FloatEnv] in
theorem resolve_kindOf {before : List Event} {st : PState} (hst : StateAt before st) {id : Nat} {k : Kind} :
    resolve enums st id = .ok k ↔ kindOf before id = some k := by
  have hmem : (id < 208 ∨ id ∈ newTextIds) ↔ (id < 208 ∨ id = 231 ∨ id = 239 ∨ id = 241) := by
    simp [newTextIds]; omega
  unfold resolve kindOf
  cases enumType enums id with
  | some k => simp
  | none =>
    dsimp only
    by_cases h1 : id < 64
    · simp [h1]
    · by_cases h2 : id < 128
      · simp [h1, h2]
      · by_cases h3 : id < 192
        · simp [h1, h2, h3]
        · simp only [h1, h2, h3, if_false]
          by_cases h4 : id < 208 ∨ id ∈ newTextIds
          · rw [if_pos h4, if_pos (hmem.1 h4), hst.1]
            cases textKind before <;> simp
          · rw [if_neg h4, if_neg (fun h => h4 (hmem.2 h)), hst.2]
            by_cases h5 : id = 213
            · simp only [h5, if_true, pluginKind]
              cases lastStr 201 before <;> simp
            · simp [h5]

omit [FloatEnv] in
/-- A version event does not influence its own type. -/
theorem resolve_199 {st st' : PState} {id : Nat} (h : id = 199 ∨ st'.strType = st.strType)
    (hp : st'.plugName = st.plugName) : resolve enums st' id = resolve enums st id := by
  rcases h with rfl | h
  · unfold resolve; rw [enum_199]
  · obtain ⟨a, b⟩ := st
    obtain ⟨c, d⟩ := st'
    simp only at h hp
    subst h hp; rfl

/-- The loop invariant: after each event the state is that of the events so far,
and the event has the type that belongs to its place. -/
theorem step_state {before : List Event} {st st' : PState} {id : Nat} {value : Bytes} {ev : Event}
    (hst : StateAt before st) (h : stepEvent enums st id value = .ok (ev, st')) :
    StateAt (before ++ [ev]) st' ∧ kindOf before id = some ev.kind ∧
      (ev.id = 199 → ∃ s, ev.value = .str s ∧ ∃ parts, intParts (pySplit 46 s) = some parts) := by
  obtain ⟨t, h1, h2, h3, h4, h5⟩ := stepEvent_ok h
  obtain ⟨e1, -, -, e4, -, -⟩ := mkEvent_ok h3
  have hk : resolve enums st id = .ok ev.kind := by
    rw [← h2]
    refine (resolve_199 (st := st) (st' := ⟨st.plugName, t⟩) ?_ rfl).symm
    by_cases hid : id = 199
    · exact .inl hid
    · right
      unfold nextStrType at h1
      rw [if_neg hid] at h1
      cases h1; rfl
  have hkind := (resolve_kindOf hst).1 hk
  have hver : id = 199 → ∃ s, ev.value = .str s ∧ (versionKind s).map some = .ok t := by
    intro hid
    subst hid
    have : ev.kind = .ascii := by
      unfold kindOf at hkind; rw [enum_199] at hkind; exact (Option.some.inj hkind).symm
    rw [this] at e4
    simp only [Kind.parse] at e4
    obtain ⟨s, p1, p2⟩ := map_ok e4
    unfold nextStrType at h1
    rw [if_pos rfl, p1] at h1
    exact ⟨rstripNul s, p2.symm, h1⟩
  refine ⟨⟨?_, ?_⟩, hkind, ?_⟩
  · rw [h4]
    unfold textKind
    rw [lastStr_append, e1]
    by_cases hid : id = 199
    · rw [if_pos hid]
      obtain ⟨s, hs, hv⟩ := hver hid
      obtain ⟨k, hk1, hk2⟩ := map_ok hv
      obtain ⟨parts, q1, q2⟩ := versionKind_eq.1 hk1
      rw [hs]
      simp only [strOf, q1, ← q2, hk2]
    · rw [if_neg hid]
      unfold nextStrType at h1
      rw [if_neg hid] at h1
      cases h1
      exact hst.1
  · rw [h5, lastStr_append]
    unfold nextPlugName
    by_cases hid : ev.id = 201
    · rw [if_pos ⟨hid, enum_unknown_201⟩, if_pos hid]
      -- an internal name is always text
      have hid' : id = 201 := by rw [← e1]; exact hid
      have hk' := hkind
      unfold kindOf at hk'
      rw [hid', enum_unknown_201] at hk'
      simp only [show ¬ (201 : Nat) < 64 by omega, show ¬ (201 : Nat) < 128 by omega,
        show ¬ (201 : Nat) < 192 by omega, show (201 : Nat) < 208 by omega, if_false, if_true, true_or] at hk'
      have : ∃ s, ev.value = .str s := by
        rcases okStr_textKind before with h | h | h <;> rw [h] at hk'
        · cases hk'
        · rw [← Option.some.inj hk'] at e4
          simp only [Kind.parse] at e4
          obtain ⟨s, -, p2⟩ := map_ok e4
          exact ⟨_, p2.symm⟩
        · rw [← Option.some.inj hk'] at e4
          simp only [Kind.parse] at e4
          obtain ⟨s, -, p2⟩ := map_ok e4
          exact ⟨_, p2.symm⟩
      obtain ⟨s, hs⟩ := this
      rw [hs]; rfl
    · rw [if_neg (fun h => hid h.1), if_neg hid]
      exact hst.2
  · intro hid
    obtain ⟨s, hs, hv⟩ := hver (by rw [← e1]; exact hid)
    obtain ⟨k, hk1, -⟩ := map_ok hv
    obtain ⟨parts, q1, -⟩ := versionKind_eq.1 hk1
    exact ⟨s, hs, parts, q1⟩

theorem eventsBytes_mem {l : List Event} {bs : Bytes} (h : eventsBytes l = .ok bs) : ∀ e ∈ l, ∃ b, e.toBytes = .ok b := by
  induction l generalizing bs with
  | nil => simp
  | cons e l ih =>
    unfold eventsBytes seqBuild at h
    cases he : e.toBytes with
    | error x => rw [he] at h; cases h
    | ok b =>
      cases hl : eventsBytes l with
      | error x => rw [he, hl] at h; cases h
      | ok b' =>
        intro e' he'
        rcases List.mem_cons.1 he' with rfl | he'
        · exact ⟨b, he⟩
        · exact ih hl e' he'

/-- Every event of a project that can be saved can be serialised. -/
theorem saveBytes_mem {p : Project} {file : Bytes} (h : saveBytes p = .ok file) :
    ∀ e ∈ p.events, ∃ b, e.payload = .ok b := by
  intro e he
  unfold saveBytes at h
  split at h
  · cases h
  split at h
  · cases h
  split at h
  · cases h
  next body hb =>
  obtain ⟨b, hb⟩ := eventsBytes_mem hb e he
  unfold Event.toBytes at hb
  split at hb
  · cases hb
  split at hb
  · cases hb
  next data hd => exact ⟨data, hd⟩

end PyFLP
