import Verif.Props.ProjectValues
import Verif.Props.Files
import Verif.Props.Plugins
/-!
# What happens in every case: changing the version, flags of VST plugins
-/

namespace PyFLP

open Spec

namespace Spec

/-- There is a text event whose encoding is decided by the first version event of the project: it comes behind it and before
the next one. -/
def HasTexts (evs : List Event) : Prop :=
  ∃ pre e mid f post, evs = pre ++ e :: (mid ++ f :: post) ∧ e.id = 199 ∧ (∀ x ∈ pre, x.id ≠ 199) ∧ (∀ x ∈ mid, x.id ≠ 199) ∧
    untypedText f.id

end Spec

theorem textKind_after {pre mid : List Event} {e : Event} (h : ∀ x ∈ mid, x.id ≠ 199) :
    textKind (pre ++ e :: mid) = textKind (pre ++ [e]) := by
  unfold textKind lastStr
  have : mid.filter (fun e => decide (e.id = 199)) = [] := List.filter_eq_nil_iff.2 (by simpa using h)
  rw [List.filter_append, List.filter_cons, this, List.filter_append, List.filter_cons]
  rfl

theorem textKind_later {pre mid : List Event} {e e' : Event} (h : ∃ x ∈ mid, x.id = 199) :
    textKind (pre ++ e :: mid) = textKind (pre ++ e' :: mid) := by
  have key : ∀ e : Event, lastStr 199 (pre ++ e :: mid) = lastStr 199 mid := by
    intro e
    unfold lastStr
    obtain ⟨x, hx, hid⟩ := h
    rw [show pre ++ e :: mid = (pre ++ [e]) ++ mid by simp, List.filter_append, List.getLast?_append]
    cases hm : mid.filter (fun e => decide (e.id = 199)) with
    | nil =>
      have := List.filter_eq_nil_iff.1 hm x hx
      simp [hid] at this
    | cons y l =>
      rw [List.getLast?_cons]
      rfl
  unfold textKind
  rw [key, key]

theorem lastStr_201 {pre mid : List Event} {e e' : Event} (h : e.id = 199) (h' : e'.id = 199) :
    lastStr 201 (pre ++ e :: mid) = lastStr 201 (pre ++ e' :: mid) := by
  unfold lastStr
  rw [List.filter_append, List.filter_append, List.filter_cons, List.filter_cons, h, h']
  rfl

theorem kindOf_untyped (before : List Event) {id : Nat} (h : untypedText id) : kindOf before id = textKind before := by
  obtain ⟨h1, h2⟩ := h
  unfold kindOf
  rw [h1]
  dsimp only
  rw [if_neg (by omega), if_neg (by omega), if_neg (by omega), if_pos (by omega)]

theorem kindOf_untext {b b' : List Event} {id : Nat} (hl : lastStr 201 b = lastStr 201 b') (h : ¬ untypedText id) :
    kindOf b id = kindOf b' id := by
  unfold kindOf pluginKind
  cases ht : enumType enums id with
  | some k => rfl
  | none =>
    dsimp only
    rw [hl]
    by_cases h1 : id < 192
    · split
      · rfl
      · split
        · rfl
        · rfl
    · have : ¬ (id < 208 ∨ id = 231 ∨ id = 239 ∨ id = 241) := fun hc => h ⟨ht, by omega⟩
      simp only [if_neg this]

/-- The new text of the version event, and the types of the other events. -/
theorem wellTyped_version {pre post : List Event} {e e' : Event} (ht : WellTyped (pre ++ e :: post)) (hid : e.id = 199)
    (hid' : e'.id = 199) (hk : e'.kind = e.kind) (hpre : ∀ x ∈ pre, x.id ≠ 199)
    (hv : ∃ s, e'.value = .str s ∧ ∃ parts, intParts (pySplit 46 s) = some parts) :
    WellTyped (pre ++ e' :: post) ↔ textKind (pre ++ [e']) = textKind (pre ++ [e]) ∨ ¬ HasTexts (pre ++ e :: post) := by
  constructor
  · intro hw
    by_cases hx : HasTexts (pre ++ e :: post)
    · left
      obtain ⟨pre', e2, mid, f, post', h1, h2, h3, h4, h5⟩ := hx
      have hsame : pre = pre' ∧ e = e2 ∧ post = mid ++ f :: post' := by
        clear hw ht hk hv
        induction pre generalizing pre' with
        | nil =>
          cases pre' with
          | nil => simp at h1; exact ⟨rfl, h1⟩
          | cons a pre' =>
            simp at h1
            exact absurd (h1.1 ▸ hid) (h3 a (by simp))
        | cons a pre ih =>
          cases pre' with
          | nil =>
            simp at h1
            exact absurd (h1.1 ▸ h2) (hpre a (by simp))
          | cons b pre' =>
            simp at h1
            obtain ⟨i1, i2⟩ := ih (fun x hx => hpre x (by simp [hx])) pre' (by simpa using h1.2) (fun x hx => h3 x (by simp [hx]))
            exact ⟨by rw [h1.1, i1], i2⟩
      obtain ⟨rfl, rfl, rfl⟩ := hsame
      have a := (ht (pre ++ e :: mid) f post' (by simp)).2.1
      have b := (hw (pre ++ e' :: mid) f post' (by simp)).2.1
      rw [kindOf_untyped _ h5] at a b
      rw [textKind_after h4] at a b
      rw [a, b]
    · exact .inr hx
  · rintro (h | h)
    · exact wellTyped_replace ht (hid'.trans hid.symm) hk (fun _ => hv) h (fun hc => absurd (hid.symm.trans hc) (by decide))
    · intro before x after hx
      rcases List.append_eq_append_iff.1 hx with ⟨c, c1, c2⟩ | ⟨c, c1, c2⟩
      · cases c with
        | nil =>
          simp only [List.append_nil, List.nil_append, List.cons.injEq] at c1 c2
          obtain ⟨rfl, rfl⟩ := c2
          subst c1
          obtain ⟨h1, h2, _⟩ := ht before e post rfl
          refine ⟨by omega, by rw [hk, ← h2, hid, hid'], fun _ => hv⟩
        | cons y c =>
          simp only [List.cons_append, List.cons.injEq] at c2
          obtain ⟨rfl, rfl⟩ := c2
          obtain ⟨h1, h2, h3⟩ := ht (pre ++ e :: c) x after (by simp)
          subst c1
          refine ⟨h1, ?_, h3⟩
          rw [← h2]
          by_cases hu : untypedText x.id
          · rw [kindOf_untyped _ hu, kindOf_untyped _ hu]
            apply textKind_later
            apply Classical.byContradiction
            intro hc
            exact h ⟨pre, e, c, x, after, by simp, hid, hpre, fun y hy h199 => hc ⟨y, hy, h199⟩, hu⟩
          · exact kindOf_untext (lastStr_201 hid' hid) hu
      · cases c with
        | nil =>
          simp only [List.append_nil, List.nil_append, List.cons.injEq] at c1 c2
          obtain ⟨rfl, rfl⟩ := c2
          subst c1
          obtain ⟨h1, h2, _⟩ := ht pre e after rfl
          refine ⟨by omega, by rw [hk, ← h2, hid, hid'], fun _ => hv⟩
        | cons y c =>
          simp only [List.cons_append, List.cons.injEq] at c2
          obtain ⟨rfl, rfl⟩ := c2
          exact ht before x (c ++ e :: post) (by rw [c1]; simp)

theorem lastStr_observe (id : Nat) {a b : List Event} (h : a.map observe = b.map observe) : lastStr id a = lastStr id b := by
  have key : ∀ l : List Event, lastStr id l =
      (((l.map observe).filter fun x => decide (x.1 = id)).getLast?).bind fun x => strOf x.2.2 := by
    intro l
    unfold lastStr
    rw [List.filter_map, List.getLast?_map, Option.bind_map]
    rfl
  rw [key, key, h]

theorem wellTyped_observe {a b : List Event} (ht : WellTyped a) (h : a.map observe = b.map observe) : WellTyped b := by
  intro before x after hb
  rw [hb, List.map_append, List.map_cons] at h
  obtain ⟨l1, l2, e1, e2, e3⟩ := List.map_eq_append_iff.1 h
  obtain ⟨y, l3, e4, e5, e6⟩ := List.map_eq_cons_iff.1 e3
  subst e1 e4
  obtain ⟨h1, h2, h3⟩ := ht l1 y l3 rfl
  simp only [observe, Prod.mk.injEq] at e5
  obtain ⟨i1, i2, i3⟩ := e5
  refine ⟨by omega, ?_, fun h199 => ?_⟩
  · rw [← i1, ← i2, ← h2]
    refine kindOf_congr ?_ (lastStr_observe 201 e2.symm) _
    unfold textKind
    rw [lastStr_observe 199 e2]
  · rw [← i3]
    exact h3 (i1.trans h199)

/-- The type of texts behind the version event. -/
theorem textKind_version {pre : List Event} {e : Event} {s : PStr} {ps : List Int} (hid : e.id = 199) (hv : e.value = .str s)
    (hp : intParts (pySplit 46 s) = some ps) : textKind (pre ++ [e]) = some (if AtLeast11_5 ps then .unicode else .ascii) := by
  rw [textKind_append, if_pos hid, hv]
  simp only [strOf, hp]

variable [FloatEnv]

/-- C45 in every case: after changing the version and saving, the file is read as the project that was saved exactly if both versions
are at least 11.5, or both are older, or the project has no text events that depend on this version event. -/
theorem C45_exact {w w' : World} {L : Nat → Prop} (r : WReach w L) (v old : FLVersion) {file : Bytes}
    (hf : w.format ∈ formats) (hq : w.ppq ∈ ppqs) (ht : WellTyped w.project.events)
    (hv : ∀ e ∈ w.project.events, validValue e.kind e.len e.value)
    (hold : w.version = .ok old)
    (hbuild : ∀ b, v.build = some b → 0 ≤ b ∧ b < 2 ^ 32)
    (h : w.setVersion (.version v) = (w', .ok ())) (hs : saveBytes w'.project = .ok file) :
    (∃ q, parseFile file = .ok q ∧ q.events.map observe = w'.project.events.map observe) ↔
      (AtLeast11_5 (versionParts old) ↔ AtLeast11_5 (versionParts v)) ∨ ¬ HasTexts w.project.events := by
  have hex' : (valueOf w.project.events 199).isSome := by
    rw [version_eq r] at hold
    cases hvo : valueOf w.project.events 199 with
    | none => rw [hvo] at hold; cases hold
    | some x => rfl
  have hex : ∃ e ∈ w.project.events, e.id = 199 := by
    unfold valueOf at hex'
    rw [Option.isSome_map, List.find?_isSome] at hex'
    simpa using hex'
  obtain ⟨w2, g1, -, -, g4⟩ := C44_version r v hex (a := .version v) (.inl rfl)
  rw [h] at g1
  injection g1 with g1 _
  subst g1
  obtain ⟨pre, e, post, e1, e2, e3, e4, e5⟩ := setFirst_cases hex' (.str v.repr)
  have hparts : intParts (pySplit 46 v.repr) = some (versionParts v) := by
    rw [repr_eq, split_join_parts (by unfold versionParts; split <;> simp)]
  obtain ⟨s, hs1, ps, hs2⟩ := (ht pre e post e1).2.2 e2
  have hps : AtLeast11_5 ps ↔ AtLeast11_5 (versionParts old) := by
    rw [version_eq r, e4, hs1] at hold
    simp only [versionOf, hs2] at hold
    exact ofParts_parts hold
  have core := wellTyped_version (e' := { e with value := .str v.repr }) (e1 ▸ ht) e2 e2 rfl e3 ⟨_, rfl, _, hparts⟩
  rw [textKind_version (e := { e with value := .str v.repr }) e2 rfl hparts, textKind_version e2 hs1 hs2, ← e1, ← e5] at core
  have side : (some (if AtLeast11_5 (versionParts v) then Kind.unicode else .ascii) = some (if AtLeast11_5 ps then Kind.unicode else .ascii)) ↔
      (AtLeast11_5 (versionParts old) ↔ AtLeast11_5 (versionParts v)) := by
    rw [← hps]
    by_cases a : AtLeast11_5 (versionParts v) <;> by_cases b : AtLeast11_5 ps <;> simp [a, b]
  rw [side] at core
  rw [← core]
  constructor
  · rintro ⟨q, q1, q2⟩
    have hw := wellTyped_observe (C04_parsed_wellTyped _ _ q1).1 q2
    rw [g4] at hw
    cases hb : v.build with
    | none => rw [hb] at hw; exact hw
    | some b =>
      rw [hb] at hw
      dsimp only at hw
      cases h159 : valueOf (setFirst w.project.events 199 (.str v.repr)) 159 with
      | none => rw [setFirst_none h159] at hw; exact hw
      | some x =>
        obtain ⟨pre2, f, post2, f1, f2, f3, f4, f5⟩ :=
          setFirst_cases (v := .lv (.int b)) (by rw [h159]; rfl : (valueOf (setFirst w.project.events 199 (.str v.repr)) 159).isSome)
        rw [f5] at hw
        rw [f1]
        refine wellTyped_replace (e' := f) hw rfl rfl (fun hc => absurd (f2 ▸ hc : (159 : Nat) = 199) (by decide)) ?_
          (fun hc => absurd (f2 ▸ hc : (159 : Nat) = 201) (by decide))
        rw [textKind_append, textKind_append, if_neg (by rw [f2]; decide), if_neg (by dsimp only; rw [f2]; decide)]
  · intro hw
    obtain ⟨-, -, f1, f2, -, hfin⟩ := version_storable_of r v old ht hv hold hw hbuild h
    obtain ⟨q, h1, -, -, -, h5, -⟩ := C04_save_parse w'.project file (f1 ▸ hf : w'.format ∈ formats)
      (f2 ▸ hq : w'.ppq ∈ ppqs) hfin.1 hfin.2 hs
    exact ⟨q, h1, h5⟩

/-- The hypotheses of `C45_exact` can be met: a project with a name, whose version is changed to 11.0. -/
example : WReach (World.ofProject Demo.named) (· = 0) ∧ WellTyped Demo.named.events ∧
    (∀ e ∈ Demo.named.events, validValue e.kind e.len e.value) ∧ HasTexts Demo.named.events ∧
    (World.ofProject Demo.named).version = .ok ⟨20, 8, 3, none⟩ ∧ AtLeast11_5 (versionParts ⟨20, 8, 3, none⟩) ∧
    ¬ AtLeast11_5 (versionParts ⟨11, 0, 0, none⟩) := by
  refine ⟨.parsed _, Demo.named_wellTyped, Demo.named_valid, ⟨[], _, [_], _, [], rfl, rfl, by simp, by simp, ?_⟩, by decide +kernel,
    by decide, by decide⟩
  exact ⟨by decide +kernel, by decide⟩

/-! ### Flags of VST plugins -/

/-- C89, assigning a flag in every case.  If the plugin has the number of the flag, assigning `True` (`False` for an inverted flag) sets
bit 0 of this number, whatever the flag, and assigning the opposite changes nothing; everything else stays, and the project
can be saved.  Without the flags data the assignment is lost, without the number it raises `TypeError`, without plugin
data `KeyError`. -/
theorem C89_set_exact {w : World} {L : Nat → Prop} (r : WReach w L) {t : Nat} (ht : L t) {f : PyFLP.VstFlag}
    (hf : f ∈ vstFlagProps) (v : Bool) :
    (∀ n, FlagData w t f.key n → ∃ w', w.setVstFlag t f v = (w', .ok ()) ∧ WReach w' L ∧ ChangedOnly w w' t [213] ∧
      FlagData w' t f.key (if v = f.inverted then n else n ||| 1) ∧
      (∀ key' n', key' ≠ f.key → FlagData w t key' n' → FlagData w' t key' n') ∧
      (∀ id key, id ≠ 2 → w'.vstGet t id key = w.vstGet t id key) ∧ (Storable w → Storable w')) ∧
    (∀ ty es, HasSubs w t ty es → Without es 2 → w.setVstFlag t f v = (w, .ok ())) ∧
    (∀ ty a rec b, HasSubs w t ty (a ++ (2, .fields rec) :: b) → Without a 2 → Rec.lookup rec f.key = some none →
      w.setVstFlag t f v = (w, .error .typeError)) ∧
    (valueOf (w.events t) 213 = none → w.setVstFlag t f v = (w, .error .keyError)) := by
  refine ⟨fun n h => ?_, fun ty es h ha => vstUpdate_without r ht h ha _, fun ty a rec b h ha hl => ?_,
    fun h => vstUpdate_nodata r ht h _ _⟩
  · obtain ⟨w', h1, h2, h3, h4, h5⟩ := flagData_set r ht hf h v
    refine ⟨w', h1, h2, h3, ?_, h5⟩
    by_cases hv : v = f.inverted
    · rw [if_neg (by simp [hv])] at h4
      rw [if_pos hv]
      exact h4
    · rw [if_pos (by simpa using hv)] at h4
      rw [if_neg hv]
      exact h4
  · refine (vstUpdate_split r ht h ha _).1 _ ?_
    simp only [vstFlagUpdate, hl, flagWord]
    rfl

/-- The hypotheses of `C89_set_exact` can be met; clearing `send_pb` does nothing. -/
example : FlagData (World.ofProject Demo.vst) 0 "flags" 6 ∧ (⟨"midi.send_pb", "flags", 0, false⟩ : PyFLP.VstFlag) ∈ vstFlagProps ∧
    (if false = false then 6 else 6 ||| 1) = 6 := by
  refine ⟨⟨10, [_], _, _, rfl, ?_, rfl⟩, by decide, rfl⟩
  intro x hx
  simp only [List.mem_cons, List.not_mem_nil, or_false] at hx
  subst hx
  decide

end PyFLP
