import Verif.Props.Project
/-!
# Properties of the licensee and the version of a project (C43 – C45)
-/

namespace PyFLP

open Spec Heap

/-! ### C43 -/

namespace Spec

/-- An ASCII letter or digit. -/
def LetterOrDigit (c : Nat) : Prop := (48 ≤ c ∧ c ≤ 57) ∨ (65 ≤ c ∧ c ≤ 90) ∨ (97 ≤ c ∧ c ≤ 122)

end Spec

section
variable [UniEnv]

omit [UniEnv] in
theorem asciiAlnum_iff (c : Nat) : asciiAlnum c = true ↔ LetterOrDigit c := by
  simp [asciiAlnum, LetterOrDigit, or_assoc]

theorem chrAlnum_small {n : Nat} (h : n < 128) : chrAlnum (n : Int) = .ok (asciiAlnum n) := by
  unfold chrAlnum
  rw [if_neg (by omega), if_pos (by omega)]
  rfl

/-- One character that is stored and read back. -/
theorem licChar_readback {c i : Nat} (hc : LetterOrDigit c) (hi : i < c + 26) :
    ∃ d, 0 < d ∧ d ≤ 127 ∧ licChar d i = .ok (some c) ∧
      (if 0 < (c : Int) + 26 - i ∧ (c : Int) + 26 - i ≤ 127 then [((c : Int) + 26 - i).toNat]
        else if 0 < (c : Int) - 49 - i ∧ (c : Int) - 49 - i ≤ 127 then [((c : Int) - 49 - i).toNat] else []) = [d] := by
  have hc128 : c < 128 := by unfold LetterOrDigit at hc; omega
  have halnum : chrAlnum (c : Int) = .ok true := by
    rw [chrAlnum_small hc128, (asciiAlnum_iff c).2 hc]
  by_cases h : (c : Int) + 26 - i ≤ 127
  · refine ⟨((c : Int) + 26 - i).toNat, by omega, by omega, ?_, by rw [if_pos ⟨by omega, h⟩]⟩
    unfold licChar
    have e : (((((c : Int) + 26 - i).toNat : Nat) : Int) - 26 + i) = c := by omega
    simp only [e, halnum, Int.toNat_natCast]
    rw [if_pos (by omega)]
  · refine ⟨((c : Int) - 49 - i).toNat, by unfold LetterOrDigit at hc; omega, by omega, ?_,
      by rw [if_neg (fun x => h x.2), if_pos ⟨by unfold LetterOrDigit at hc; omega, by omega⟩]⟩
    unfold licChar
    have e1 : (((((c : Int) - 49 - i).toNat : Nat) : Int) - 26 + i) = ((c - 75 : Nat) : Int) := by
      unfold LetterOrDigit at hc; omega
    have e2 : (((((c : Int) - 49 - i).toNat : Nat) : Int) + 49 + i) = c := by
      unfold LetterOrDigit at hc; omega
    have hf : chrAlnum ((c - 75 : Nat) : Int) = .ok false := by
      rw [chrAlnum_small (by omega)]
      have : ¬ LetterOrDigit (c - 75) := by unfold LetterOrDigit at hc ⊢; omega
      rw [← asciiAlnum_iff] at this
      cases ha : asciiAlnum (c - 75) with
      | false => rfl
      | true => exact absurd ha this
    simp only [e1, e2, hf, halnum, Int.toNat_natCast]
    rw [if_pos (by omega)]

omit [UniEnv] in
theorem licEncode_cons (c : Nat) (cs : PStr) (i : Nat) : licEncode (c :: cs) i =
    (if 0 < (c : Int) + 26 - i ∧ (c : Int) + 26 - i ≤ 127 then [((c : Int) + 26 - i).toNat]
      else if 0 < (c : Int) - 49 - i ∧ (c : Int) - 49 - i ≤ 127 then [((c : Int) - 49 - i).toNat] else []) ++
      licEncode cs (i + 1) := rfl

theorem lic_readback (s : PStr) (i : Nat) (hs : ∀ c ∈ s, LetterOrDigit c)
    (hi : ∀ j c, s[j]? = some c → i + j < c + 26) : licDecode (licEncode s i) i = .ok s := by
  induction s generalizing i with
  | nil => rfl
  | cons c cs ih =>
    obtain ⟨d, _, _, h3, h4⟩ := licChar_readback (hs c (by simp)) (by simpa using hi 0 c rfl)
    have hrest := ih (i + 1) (fun x hx => hs x (by simp [hx])) (fun j x hj => by
      have := hi (j + 1) x (by simpa using hj); omega)
    rw [licEncode_cons, h4]
    show licDecode (d :: licEncode cs (i + 1)) i = _
    unfold licDecode
    rw [h3, hrest]
    rfl

omit [UniEnv] in
theorem licEncode_ascii (s : PStr) (i : Nat) : ∀ c ∈ licEncode s i, 0 < c ∧ c ≤ 127 := by
  induction s generalizing i with
  | nil => simp [licEncode]
  | cons a s ih =>
    intro c hc
    rw [licEncode_cons] at hc
    rcases List.mem_append.1 hc with hc | hc
    · split at hc
      · simp only [List.mem_singleton] at hc; omega
      · split at hc
        · simp only [List.mem_singleton] at hc; omega
        · simp at hc
    · exact ih _ c hc

omit [UniEnv] in
theorem licEncode_length (s : PStr) (i : Nat) : (licEncode s i).length ≤ s.length := by
  induction s generalizing i with
  | nil => simp [licEncode]
  | cons a s ih =>
    rw [licEncode_cons, List.length_append, List.length_cons]
    have := ih (i + 1)
    split
    · simp; omega
    · split <;> simp <;> omega

theorem licDecode_spec (s : PStr) (i : Nat) {bs : List Nat} (h : licDecode s i = .ok bs) :
    bs.length ≤ s.length ∧ ∀ c ∈ bs, c < 128 → LetterOrDigit c := by
  induction s generalizing i bs with
  | nil => cases h; simp
  | cons a s ih =>
    unfold licDecode at h
    split at h
    · cases h
    · next x hx =>
      split at h
      · cases h
      · next ys hy =>
        cases h
        obtain ⟨i1, i2⟩ := ih (i + 1) hy
        have hx' : ∀ n, x = some n → n < 128 → LetterOrDigit n := by
          rintro n rfl hn
          unfold licChar at hx
          have key : ∀ m : Int, chrAlnum m = .ok true → m.toNat = n → LetterOrDigit n := by
            intro m hm hmn
            unfold chrAlnum at hm
            split at hm
            · cases hm
            · rw [if_pos (by omega)] at hm
              rw [← asciiAlnum_iff, ← hmn]
              exact Except.ok.inj hm
          split at hx
          · cases hx
          · next h1 =>
            split at hx
            · cases hx; exact key _ h1 rfl
            · cases hx
          · split at hx
            · cases hx
            · next h1 =>
              split at hx
              · cases hx; exact key _ h1 rfl
              · cases hx
            · cases hx
        cases x with
        | none => exact ⟨by simp; omega, by simpa using i2⟩
        | some n =>
          refine ⟨by simp; omega, fun c hc => ?_⟩
          rcases List.mem_cons.1 (by simpa using hc) with rfl | hc
          · exact hx' _ rfl
          · exact i2 c hc

omit [UniEnv] in
theorem licEncode_full (s : PStr) (i : Nat) (hs : ∀ c ∈ s, LetterOrDigit c)
    (h : s.length ≤ (licEncode s i).length) : ∀ j c, s[j]? = some c → i + j < c + 26 := by
  induction s generalizing i with
  | nil => simp
  | cons a s ih =>
    rw [licEncode_cons, List.length_append, List.length_cons] at h
    have hl := licEncode_length s (i + 1)
    intro j c hj
    have hfst : i < a + 26 := by
      false_or_by_contra
      rw [if_neg (by omega), if_neg (by have := hs a (by simp); unfold LetterOrDigit at this; omega)] at h
      simp at h; omega
    cases j with
    | zero =>
      have : a = c := by simpa using hj
      subst this; simpa using hfst
    | succ j =>
      have hrest : s.length ≤ (licEncode s (i + 1)).length := by
        split at h
        · simp at h; omega
        · split at h
          · simp at h; omega
          · simp at h; omega
      have := ih (i + 1) (fun x hx => hs x (by simp [hx])) hrest j c (by simpa using hj)
      omega

/-- C43. `project.licensee = s` changes only the licensee event, and `project.licensee` then is `s`
exactly if `s` consists of ASCII letters and digits and none of them comes too late (the first 74
characters may be any; a later character must have a code greater than its position minus 26). -/
theorem C43_licensee {w w' : World} {L : Nat → Prop} (r : WReach w L) (s : PStr)
    (h : w.setLicensee s = (w', .ok ())) :
    (∃ t : PStr, (∀ c ∈ t, 0 < c ∧ c ≤ 127) ∧
      w'.project = { w.project with events := setFirst w.project.events 200 (.str t) }) ∧
    (w'.licensee = .ok (some s) ↔
      (∀ c ∈ s, LetterOrDigit c) ∧ ∀ i c, s[i]? = some c → i < c + 26) := by
  unfold World.setLicensee at h
  split at h
  · cases h
  · split at h
    · cases h
    · rcases assignFirst_eq r 200 (.str (licEncode s 0)) .propertyCannotBeSet with ⟨_, g⟩ | ⟨w2, g1, g2, g3, g4⟩
      · rw [g] at h; cases h
      · rw [g1] at h
        injection h with h _
        subst h
        refine ⟨⟨_, licEncode_ascii s 0, g4⟩, ?_⟩
        rw [licensee_eq g2, g4]
        dsimp only
        rw [valueOf_setFirst_self g3]
        show (match licDecode (licEncode s 0) 0 with
          | .error e => (.error e : Py (Option PStr))
          | .ok bs => if bs.all (· < 128) then .ok (some bs) else .error .unicodeError) = _ ↔ _
        constructor
        · intro hh
          split at hh
          · cases hh
          · next bs hbs =>
            split at hh
            · next hall =>
              injection hh with hh
              injection hh with hh
              subst hh
              obtain ⟨d1, d2⟩ := licDecode_spec _ _ hbs
              have hl : ∀ c ∈ bs, LetterOrDigit c := fun c hc =>
                d2 c hc (by simpa using List.all_eq_true.1 hall c hc)
              refine ⟨hl, fun i c hc => ?_⟩
              have := licEncode_full bs 0 hl d1 i c hc
              omega
            · cases hh
        · rintro ⟨h1, h2⟩
          rw [lic_readback s 0 h1 (fun j c hj => by have := h2 j c hj; omega)]
          dsimp only
          rw [if_pos]
          rw [List.all_eq_true]
          intro c hc
          have := h1 c hc
          unfold LetterOrDigit at this
          simp; omega

/-- C43, the usual case: up to 74 letters and digits. -/
theorem C43_licensee_alnum {w w' : World} {L : Nat → Prop} (r : WReach w L) (s : PStr)
    (hs : ∀ c ∈ s, LetterOrDigit c) (hl : s.length ≤ 74) (h : w.setLicensee s = (w', .ok ())) :
    w'.licensee = .ok (some s) := by
  refine (C43_licensee r s h).2.2 ⟨hs, fun i c hc => ?_⟩
  obtain ⟨hi, hc⟩ := List.getElem?_eq_some_iff.1 hc
  have := hs c (hc ▸ List.getElem_mem hi)
  unfold LetterOrDigit at this
  omega

omit [UniEnv] in
/-- C43. When the assignment succeeds: the project has a version that can be compared with 1.3.9
and a licensee event; otherwise nothing changes. -/
theorem C43_licensee_settable {w : World} {L : Nat → Prop} (r : WReach w L) (s : PStr) :
    ((∃ w', w.setLicensee s = (w', .ok ())) ↔
      (∃ v, w.version = .ok v ∧ ¬ (v.major = 1 ∧ v.minor = 3 ∧ v.patch = 9 ∧ v.build.isSome)) ∧
        ∃ e ∈ w.project.events, e.id = 200) ∧
    (∀ w' e, w.setLicensee s = (w', .error e) → w' = w) := by
  have hex : (∃ e ∈ w.project.events, e.id = 200) ↔ (valueOf w.project.events 200).isSome := by
    unfold valueOf
    rw [Option.isSome_map, List.find?_isSome]
    simp
  rw [hex]
  unfold World.setLicensee
  cases hv : w.version with
  | error e =>
    refine ⟨⟨(by rintro ⟨w', h⟩; cases h), (by rintro ⟨⟨v, h, _⟩, _⟩; cases h)⟩, ?_⟩
    intro w' e h; cases h; rfl
  | ok v =>
    have hlt : (∃ b, v.lt ⟨1, 3, 9, none⟩ = .ok b) ↔
        ¬ (v.major = 1 ∧ v.minor = 3 ∧ v.patch = 9 ∧ v.build.isSome) := by
      unfold FLVersion.lt
      by_cases h1 : v.major = 1 <;> by_cases h2 : v.minor = 3 <;> by_cases h3 : v.patch = 9 <;>
        cases h4 : v.build <;> simp [h1, h2, h3]
    dsimp only
    cases hl : v.lt ⟨1, 3, 9, none⟩ with
    | error e =>
      rw [hl] at hlt
      refine ⟨⟨(by rintro ⟨w', h⟩; cases h), ?_⟩, ?_⟩
      · rintro ⟨⟨v', h, h'⟩, _⟩
        cases h
        obtain ⟨b, hb⟩ := hlt.2 h'
        cases hb
      · intro w' e h; cases h; rfl
    | ok b =>
      have hno := hlt.1 ⟨b, hl⟩
      dsimp only
      rcases assignFirst_eq r 200 (.str (licEncode s 0)) .propertyCannotBeSet with ⟨g0, g⟩ | ⟨w2, g1, g2, g3, g4⟩
      · rw [g, g0]
        exact ⟨⟨(by rintro ⟨w', h⟩; cases h), (by rintro ⟨_, h⟩; cases h)⟩, (by intro w' e h; cases h; rfl)⟩
      · rw [g1]
        exact ⟨⟨fun _ => ⟨⟨v, rfl, hno⟩, g3⟩, fun _ => ⟨w2, rfl⟩⟩, (by intro w' e h; cases h)⟩

end

/-! ### C44 -/

namespace Spec

/-- The parts of a version: three numbers, and the build if there is one. -/
def versionParts (v : FLVersion) : List Int :=
  match v.build with
  | none => [v.major, v.minor, v.patch]
  | some b => [v.major, v.minor, v.patch, b]

end Spec

theorem intParts_map (ps : List Int) : intParts (ps.map intRepr) = some ps := by
  induction ps with
  | nil => rfl
  | cons p ps ih => simp [intParts, pyInt_intRepr, ih]

theorem intRepr_not_dot (i : Int) : 46 ∉ intRepr i := by
  unfold intRepr
  split
  · intro h
    rcases List.mem_cons.1 h with h | h
    · cases h
    · exact natRepr_not_mem (c := 46) (by omega) _ h
  · exact natRepr_not_mem (c := 46) (by omega) _

theorem split_join_parts {ps : List Int} (h : ps ≠ []) :
    intParts (pySplit 46 (pyJoin 46 (ps.map intRepr))) = some ps := by
  rw [pySplit_pyJoin (by simpa using h) (by
    intro p hp
    obtain ⟨i, _, rfl⟩ := List.mem_map.1 hp
    exact intRepr_not_dot i), intParts_map]

theorem versionArg_parts (v : FLVersion) : (VersionArg.version v).parts = .ok (versionParts v) := by
  obtain ⟨a, b, c, d⟩ := v
  cases d <;> rfl

theorem ofParts_versionParts (v : FLVersion) : FLVersion.ofParts (versionParts v) = .ok v := by
  obtain ⟨a, b, c, d⟩ := v
  cases d <;> rfl

theorem repr_eq (v : FLVersion) : v.repr = pyJoin 46 ((versionParts v).map intRepr) := by
  obtain ⟨a, b, c, d⟩ := v
  cases d <;> simp [FLVersion.repr, versionParts, pyJoin]

/-- The parts three or four numbers can be. -/
theorem parts_cases {ps : List Int} (h : 3 ≤ ps.length ∧ ps.length ≤ 4) : ∃ v, ps = versionParts v := by
  match ps, h with
  | [a, b, c], _ => exact ⟨⟨a, b, c, none⟩, rfl⟩
  | [a, b, c, d], _ => exact ⟨⟨a, b, c, some d⟩, rfl⟩
  | [], h | [_], h | [_, _], h => simp at h
  | _ :: _ :: _ :: _ :: _ :: _, h => simp at h

theorem assignFirst_some {w : World} {L : Nat → Prop} (r : WReach w L) {id : Nat} (v : Value) (e : Exc)
    (h : (valueOf w.project.events id).isSome) :
    ∃ w', w.assignFirst id v e = (w', .ok ()) ∧ WReach w' L ∧
      w'.project = { w.project with events := setFirst w.project.events id v } := by
  rcases assignFirst_eq r id v e with ⟨g, _⟩ | ⟨w', g1, g2, _, g4⟩
  · rw [g] at h; cases h
  · exact ⟨w', g1, g2, g4⟩

/-- C44. A version given as `FLVersion`, as its text or as a tuple of its parts is stored in the
version event of the project and reads back the same; if it has a build number, the build event (if
there is one) is set to it, and no other event is changed. -/
theorem C44_version {w : World} {L : Nat → Prop} (r : WReach w L) (v : FLVersion)
    (hex : ∃ e ∈ w.project.events, e.id = 199)
    {a : VersionArg} (ha : a = .version v ∨ a = .str v.repr ∨ a = .tuple (versionParts v)) :
    ∃ w', w.setVersion a = (w', .ok ()) ∧ WReach w' L ∧ w'.version = .ok v ∧
      w'.project = { w.project with events :=
        match v.build with
        | none => setFirst w.project.events 199 (.str v.repr)
        | some b => setFirst (setFirst w.project.events 199 (.str v.repr)) 159 (.lv (.int b)) } := by
  have hex' : (valueOf w.project.events 199).isSome := by
    unfold valueOf
    rw [Option.isSome_map, List.find?_isSome]
    simpa using hex
  have hparts : a.parts = .ok (versionParts v) := by
    rcases ha with rfl | rfl | rfl
    · exact versionArg_parts v
    · simp only [VersionArg.parts]
      rw [repr_eq, split_join_parts (by unfold versionParts; split <;> simp)]
    · rfl
  have hlen : ¬ ((versionParts v).length < 3 ∨ 4 < (versionParts v).length) := by
    unfold versionParts; split <;> simp
  obtain ⟨w1, g1, g2, g3⟩ := assignFirst_some r (.str v.repr) .keyError hex'
  have hver : ∀ {w2 : World}, WReach w2 L → valueOf w2.project.events 199 = some (.str v.repr) →
      w2.version = .ok v := by
    intro w2 r2 h2
    rw [version_eq r2, h2]
    show (match intParts (pySplit 46 v.repr) with
      | none => _
      | some ps => FLVersion.ofParts ps) = _
    rw [repr_eq, split_join_parts (by unfold versionParts; split <;> simp)]
    exact ofParts_versionParts v
  have h199 : valueOf w1.project.events 199 = some (.str v.repr) := by
    rw [g3]; exact valueOf_setFirst_self hex'
  unfold World.setVersion
  rw [World.contains_eq r (L0 r), ← World.project_events, if_pos hex', hparts]
  dsimp only
  rw [if_neg hlen, ← repr_eq, g1]
  dsimp only
  cases hb : v.build with
  | none =>
    have hp : versionParts v = [v.major, v.minor, v.patch] := by unfold versionParts; rw [hb]
    rw [hp]
    exact ⟨w1, rfl, g2, hver g2 h199, g3⟩
  | some b =>
    have hp : versionParts v = [v.major, v.minor, v.patch, b] := by unfold versionParts; rw [hb]
    rw [hp]
    dsimp only
    rw [World.contains_eq g2 (L0 g2), ← World.project_events]
    cases h159 : valueOf w1.project.events 159 with
    | none =>
      refine ⟨w1, rfl, g2, hver g2 h199, ?_⟩
      rw [g3] at h159 ⊢
      dsimp only at h159 ⊢
      rw [setFirst_none h159]
    | some x =>
      obtain ⟨w2, k1, k2, k3⟩ := assignFirst_some g2 (id := 159) (.lv (.int b)) .keyError (by rw [h159]; rfl)
      refine ⟨w2, by rw [if_pos (by rfl), k1], k2, hver k2 ?_, ?_⟩
      · rw [k3]
        dsimp only
        rw [valueOf_setFirst_other (by decide)]; exact h199
      · rw [k3, g3]

/-- C44. Everything else is refused and changes nothing: text that is not made of dotted numbers
and the wrong number of parts with `ValueError`, a project without a version event with
`PropertyCannotBeSet`. -/
theorem C44_version_refused {w : World} {L : Nat → Prop} (r : WReach w L) :
    ((∀ e ∈ w.project.events, e.id ≠ 199) → ∀ a, w.setVersion a = (w, .error .propertyCannotBeSet)) ∧
    ((∃ e ∈ w.project.events, e.id = 199) →
      (∀ ps : List Int, ps.length < 3 ∨ 4 < ps.length → w.setVersion (.tuple ps) = (w, .error .valueError)) ∧
      (∀ s : PStr, (∀ ps, intParts (pySplit 46 s) ≠ some ps) ∨
          (∃ ps, intParts (pySplit 46 s) = some ps ∧ (ps.length < 3 ∨ 4 < ps.length)) →
        w.setVersion (.str s) = (w, .error .valueError))) := by
  have hex : (∃ e ∈ w.project.events, e.id = 199) ↔ (valueOf w.project.events 199).isSome := by
    unfold valueOf
    rw [Option.isSome_map, List.find?_isSome]
    simp
  constructor
  · intro h a
    unfold World.setVersion
    rw [World.contains_eq r (L0 r), ← World.project_events, if_neg]
    rw [← hex]
    rintro ⟨e, he, hi⟩
    exact h e he hi
  · intro h
    have h' := hex.1 h
    constructor
    · intro ps hps
      unfold World.setVersion
      rw [World.contains_eq r (L0 r), ← World.project_events, if_pos h']
      simp only [VersionArg.parts]
      rw [if_pos hps]
    · intro s hs
      unfold World.setVersion
      rw [World.contains_eq r (L0 r), ← World.project_events, if_pos h']
      simp only [VersionArg.parts]
      rcases hs with hs | ⟨ps, hs, hps⟩
      · cases hp : intParts (pySplit 46 s) with
        | none => rfl
        | some ps => exact absurd hp (hs ps)
      · rw [hs]
        dsimp only
        rw [if_pos hps]

/-! ### C45 -/

theorem textKind_append (before : List Event) (e : Event) :
    textKind (before ++ [e]) = if e.id = 199 then
      (match strOf e.value with
        | none => none
        | some s =>
          match intParts (pySplit 46 s) with
          | none => none
          | some parts => some (if AtLeast11_5 parts then .unicode else .ascii))
      else textKind before := by
  unfold textKind
  rw [lastStr_append]
  by_cases h : e.id = 199
  · rw [if_pos h, if_pos h]; rfl
  · rw [if_neg h, if_neg h]

theorem kindOf_congr {b b' : List Event} (h1 : textKind b = textKind b') (h2 : lastStr 201 b = lastStr 201 b')
    (id : Nat) : kindOf b id = kindOf b' id := by
  unfold kindOf pluginKind
  rw [h1, h2]

/-- Replacing the value of one event without consequences for the types of later events. -/
theorem wellTyped_replace {pre post : List Event} {e e' : Event} (h : WellTyped (pre ++ e :: post))
    (hid : e'.id = e.id) (hk : e'.kind = e.kind)
    (hver : e.id = 199 → ∃ s, e'.value = .str s ∧ ∃ parts, intParts (pySplit 46 s) = some parts)
    (htk : textKind (pre ++ [e']) = textKind (pre ++ [e]))
    (hpl : e.id = 201 → strOf e'.value = strOf e.value) : WellTyped (pre ++ e' :: post) := by
  have hmid : ∀ mid, textKind (pre ++ e' :: mid) = textKind (pre ++ e :: mid) ∧
      lastStr 201 (pre ++ e' :: mid) = lastStr 201 (pre ++ e :: mid) := by
    intro mid
    generalize hn : mid.length = n
    induction n generalizing mid with
    | zero =>
      have : mid = [] := List.length_eq_zero_iff.1 hn
      subst this
      refine ⟨htk, ?_⟩
      rw [lastStr_append, lastStr_append, hid]
      split
      · next h201 => exact hpl h201
      · rfl
    | succ n ih =>
      have hne : mid ≠ [] := by intro hc; rw [hc] at hn; cases hn
      obtain ⟨i1, i2⟩ := ih mid.dropLast (by simp [hn])
      have hm : mid = mid.dropLast ++ [mid.getLast hne] := (List.dropLast_concat_getLast hne).symm
      rw [hm, show pre ++ e' :: (mid.dropLast ++ [mid.getLast hne]) = (pre ++ e' :: mid.dropLast) ++ [mid.getLast hne] by simp,
        show pre ++ e :: (mid.dropLast ++ [mid.getLast hne]) = (pre ++ e :: mid.dropLast) ++ [mid.getLast hne] by simp,
        textKind_append, textKind_append, lastStr_append, lastStr_append, i1, i2]
      exact ⟨rfl, rfl⟩
  intro before x after hx
  rcases List.append_eq_append_iff.1 hx with ⟨c, c1, c2⟩ | ⟨c, c1, c2⟩
  · cases c with
    | nil =>
      simp only [List.append_nil, List.nil_append, List.cons.injEq] at c1 c2
      obtain ⟨rfl, rfl⟩ := c2
      subst c1
      obtain ⟨h1, h2, _⟩ := h before e post rfl
      exact ⟨hid ▸ h1, by rw [hid, hk]; exact h2, fun h199 => hver (hid ▸ h199)⟩
    | cons y c =>
      simp only [List.cons_append, List.cons.injEq] at c2
      obtain ⟨rfl, rfl⟩ := c2
      obtain ⟨h1, h2, h3⟩ := h (pre ++ e :: c) x after (by simp)
      subst c1
      obtain ⟨m1, m2⟩ := hmid c
      exact ⟨h1, by rw [kindOf_congr m1 m2]; exact h2, h3⟩
  · cases c with
    | nil =>
      simp only [List.append_nil, List.nil_append, List.cons.injEq] at c1 c2
      obtain ⟨rfl, rfl⟩ := c2
      subst c1
      obtain ⟨h1, h2, _⟩ := h pre e after rfl
      exact ⟨hid ▸ h1, by rw [hid, hk]; exact h2, fun h199 => hver (hid ▸ h199)⟩
    | cons y c =>
      simp only [List.cons_append, List.cons.injEq] at c2
      obtain ⟨rfl, rfl⟩ := c2
      exact h before x (c ++ e :: post) (by rw [c1]; simp)

theorem setFirst_cases {evs : List Event} {id : Nat} (h : (valueOf evs id).isSome) (v : Value) :
    ∃ pre e post, evs = pre ++ e :: post ∧ e.id = id ∧ (∀ x ∈ pre, x.id ≠ id) ∧ valueOf evs id = some e.value ∧
      setFirst evs id v = pre ++ { e with value := v } :: post := by
  unfold valueOf at h ⊢
  rw [Option.isSome_map, Option.isSome_iff_exists] at h
  obtain ⟨e, he⟩ := h
  obtain ⟨h1, pre, post, h2, h3⟩ := List.find?_eq_some_iff_append.1 he
  have hid : e.id = id := by simpa using h1
  have hpre : ∀ x ∈ pre, x.id ≠ id := fun x hx => by simpa using h3 x hx
  exact ⟨pre, e, post, h2, hid, hpre, by rw [he]; rfl, setFirst_set h2 hpre hid⟩

theorem atLeast_congr {a : Int} {l l' : List Int} (h : ∀ m, 5 ≤ m → (l.head? = some m ↔ l'.head? = some m)) :
    AtLeast11_5 (a :: l) ↔ AtLeast11_5 (a :: l') := by
  unfold AtLeast11_5
  refine or_congr Iff.rfl (and_congr Iff.rfl ?_)
  exact ⟨fun ⟨m, h1, h2⟩ => ⟨m, (h m h2).1 h1, h2⟩, fun ⟨m, h1, h2⟩ => ⟨m, (h m h2).2 h1, h2⟩⟩

theorem ofParts_parts {ps : List Int} {v : FLVersion} (h : FLVersion.ofParts ps = .ok v) :
    AtLeast11_5 ps ↔ AtLeast11_5 (versionParts v) := by
  unfold FLVersion.ofParts at h
  split at h <;> first
    | (cases h; done)
    | (cases h
       first
         | exact Iff.rfl
         | exact atLeast_congr (l' := [0, 0]) (fun m hm => by simp; omega)
         | exact atLeast_congr (fun m hm => by simp))

theorem repr_chars (v : FLVersion) : (∀ c ∈ v.repr, c < 128) ∧ v.repr.getLast? ≠ some 0 := by
  have hi : ∀ i : Int, ∀ c ∈ intRepr i, 0 < c ∧ c < 128 := by
    intro i c hc
    unfold intRepr at hc
    split at hc
    · rcases List.mem_cons.1 hc with rfl | hc
      · omega
      · have := natRepr_digits _ c hc; omega
    · have := natRepr_digits _ c hc; omega
  have hall : ∀ c ∈ v.repr, 0 < c ∧ c < 128 := by
    intro c hc
    unfold FLVersion.repr at hc
    have hb : ∀ c ∈ (match v.build with
        | none => []
        | some b => 46 :: intRepr b : PStr), 0 < c ∧ c < 128 := by
      cases v.build with
      | none => simp
      | some b =>
        intro c hc
        rcases List.mem_cons.1 hc with rfl | hc
        · omega
        · exact hi b c hc
    rcases List.mem_append.1 hc with hc | hc
    · rcases List.mem_append.1 hc with hc | hc
      · rcases List.mem_append.1 hc with hc | hc
        · exact hi _ c hc
        · rcases List.mem_cons.1 hc with rfl | hc
          · omega
          · exact hi _ c hc
      · rcases List.mem_cons.1 hc with rfl | hc
        · omega
        · exact hi _ c hc
    · exact hb c hc
  refine ⟨fun c hc => (hall c hc).2, fun h => ?_⟩
  have := hall 0 (List.mem_of_getLast? h)
  omega

section
variable [FloatEnv]

/-- The full claim C45: after changing the version of a project and saving it, the values read
from the file are those of the project. -/
def Spec.VersionChangeKeepsValues : Prop :=
  ∀ (w w' : World) (L : Nat → Prop) (_ : WReach w L) (v : FLVersion) (file : Bytes) (q : Project),
    w.format ∈ formats → w.ppq ∈ ppqs → WellTyped w.project.events →
    (∀ e ∈ w.project.events, validValue e.kind e.len e.value) →
    w.setVersion (.version v) = (w', .ok ()) → saveBytes w'.project = .ok file → parseFile file = .ok q →
    q.events.map (·.value) = w'.project.events.map (·.value)

/-- A change of the version keeps the values storable if the types of texts fit the new version. -/
theorem version_storable_of {w w' : World} {L : Nat → Prop} (r : WReach w L) (v old : FLVersion)
    (ht : WellTyped w.project.events)
    (hv : ∀ e ∈ w.project.events, validValue e.kind e.len e.value)
    (hold : w.version = .ok old)
    (hevs1 : WellTyped (setFirst w.project.events 199 (.str v.repr)))
    (hbuild : ∀ b, v.build = some b → 0 ≤ b ∧ b < 2 ^ 32)
    (h : w.setVersion (.version v) = (w', .ok ())) :
    WReach w' L ∧ w'.version = .ok v ∧ w'.format = w.format ∧ w'.ppq = w.ppq ∧
      w'.project.events.map (fun e => (e.id, e.kind, e.len)) = w.project.events.map (fun e => (e.id, e.kind, e.len)) ∧
      WellTyped w'.project.events ∧ ∀ x ∈ w'.project.events, validValue x.kind x.len x.value := by
  have hex' : (valueOf w.project.events 199).isSome := by
    rw [version_eq r] at hold
    cases hvo : valueOf w.project.events 199 with
    | none => rw [hvo] at hold; cases hold
    | some x => rfl
  have hex : ∃ e ∈ w.project.events, e.id = 199 := by
    unfold valueOf at hex'
    rw [Option.isSome_map, List.find?_isSome] at hex'
    simpa using hex'
  obtain ⟨w2, g1, g2, g3, g4⟩ := C44_version r v hex (a := .version v) (.inl rfl)
  rw [h] at g1
  injection g1 with g1 _
  subst g1
  -- the version event
  obtain ⟨pre, e, post, e1, e2, e3, e4, e5⟩ := setFirst_cases hex' (.str v.repr)
  have hk199 : e.kind = .ascii := by
    obtain ⟨_, h2, _⟩ := ht pre e post e1
    rw [e2] at h2
    unfold kindOf at h2
    rw [enum_199] at h2
    exact (Option.some.inj h2).symm
  have hval1 : ∀ x ∈ setFirst w.project.events 199 (.str v.repr), validValue x.kind x.len x.value := by
    rw [e5]
    intro x hx
    rcases List.mem_append.1 hx with hx | hx
    · exact hv x (by rw [e1]; simp [hx])
    · rcases List.mem_cons.1 hx with rfl | hx
      · dsimp only
        rw [hk199]
        exact repr_chars v
      · exact hv x (by rw [e1]; simp [hx])
  -- the build event
  have hfin : WellTyped w'.project.events ∧ ∀ x ∈ w'.project.events, validValue x.kind x.len x.value := by
    rw [g4]
    cases hb : v.build with
    | none => exact ⟨hevs1, hval1⟩
    | some b =>
      dsimp only
      cases h159 : valueOf (setFirst w.project.events 199 (.str v.repr)) 159 with
      | none => rw [setFirst_none h159]; exact ⟨hevs1, hval1⟩
      | some x =>
        obtain ⟨pre2, f, post2, f1, f2, f3, f4, f5⟩ :=
          setFirst_cases (v := .lv (.int b)) (by rw [h159]; rfl : (valueOf (setFirst w.project.events 199 (.str v.repr)) 159).isSome)
        rw [f5]
        constructor
        · refine wellTyped_replace (e := f) (f1 ▸ hevs1) rfl rfl (fun hc => absurd (f2 ▸ hc : (159 : Nat) = 199) (by decide)) ?_
            (fun hc => absurd (f2 ▸ hc : (159 : Nat) = 201) (by decide))
          rw [textKind_append, textKind_append]
          rw [if_neg (by dsimp only; rw [f2]; decide), if_neg (by rw [f2]; decide)]
        · intro y hy
          rcases List.mem_append.1 hy with hy | hy
          · exact hval1 y (by rw [f1]; simp [hy])
          · rcases List.mem_cons.1 hy with rfl | hy
            · obtain ⟨_, h2, _⟩ := hevs1 pre2 f post2 f1
              have hk : f.kind = .u32 := by
                rw [f2] at h2
                unfold kindOf at h2
                rw [show enumType enums 159 = some .u32 by decide +kernel] at h2
                exact (Option.some.inj h2).symm
              have := hbuild b hb
              dsimp only
              rw [hk]
              refine ⟨_, rfl, ?_⟩
              simp [leafValid, intFits]
              omega
            · exact hval1 y (by rw [f1]; simp [hy])
  refine ⟨g2, g3, ?_, ?_, ?_, hfin⟩
  · show w'.project.format = _; rw [g4]; rfl
  · show w'.project.ppq = _; rw [g4]; rfl
  · rw [g4]
    cases v.build with
    | none => exact setFirst_ids _ _ _
    | some b => exact (setFirst_ids _ _ _).trans (setFirst_ids _ _ _)

/-- Such a change of the version keeps the values storable. -/
theorem version_storable {w w' : World} {L : Nat → Prop} (r : WReach w L) (v old : FLVersion)
    (ht : WellTyped w.project.events)
    (hv : ∀ e ∈ w.project.events, validValue e.kind e.len e.value)
    (hold : w.version = .ok old)
    (hside : AtLeast11_5 (versionParts old) ↔ AtLeast11_5 (versionParts v))
    (hbuild : ∀ b, v.build = some b → 0 ≤ b ∧ b < 2 ^ 32)
    (h : w.setVersion (.version v) = (w', .ok ())) :
    WReach w' L ∧ w'.version = .ok v ∧ w'.format = w.format ∧ w'.ppq = w.ppq ∧
      w'.project.events.map (fun e => (e.id, e.kind, e.len)) = w.project.events.map (fun e => (e.id, e.kind, e.len)) ∧
      WellTyped w'.project.events ∧ ∀ x ∈ w'.project.events, validValue x.kind x.len x.value := by
  have hex' : (valueOf w.project.events 199).isSome := by
    rw [version_eq r] at hold
    cases hvo : valueOf w.project.events 199 with
    | none => rw [hvo] at hold; cases hold
    | some x => rfl
  refine version_storable_of r v old ht hv hold ?_ hbuild h
  -- the version event
  obtain ⟨pre, e, post, e1, e2, e3, e4, e5⟩ := setFirst_cases hex' (.str v.repr)
  rw [e5]
  have hparts : intParts (pySplit 46 v.repr) = some (versionParts v) := by
    rw [repr_eq, split_join_parts (by unfold versionParts; split <;> simp)]
  refine wellTyped_replace (e := e) (e1 ▸ ht) rfl rfl (fun _ => ⟨_, rfl, _, hparts⟩) ?_ (fun hc => absurd (e2 ▸ hc : (199 : Nat) = 201) (by decide))
  rw [textKind_append, textKind_append]
  simp only [e2, if_true]
  obtain ⟨_, _, h3⟩ := ht pre e post e1
  obtain ⟨s, hs1, ps, hs2⟩ := h3 e2
  rw [hs1]
  simp only [strOf, hparts, hs2]
  rw [version_eq r, e4, hs1] at hold
  simp only [versionOf, hs2] at hold
  have := (ofParts_parts hold).trans hside
  by_cases hh : AtLeast11_5 ps
  · rw [if_pos hh, if_pos (this.1 hh)]
  · rw [if_neg hh, if_neg (fun x => hh (this.2 x))]

/-- C45, as far as it holds: the old and the new version are both at least 11.5, or both older. -/
theorem C45_version_change_partial {w w' : World} {L : Nat → Prop} (r : WReach w L) (v old : FLVersion) {file : Bytes}
    (hf : w.format ∈ formats) (hq : w.ppq ∈ ppqs) (ht : WellTyped w.project.events)
    (hv : ∀ e ∈ w.project.events, validValue e.kind e.len e.value)
    (hold : w.version = .ok old)
    (hside : AtLeast11_5 (versionParts old) ↔ AtLeast11_5 (versionParts v))
    (hbuild : ∀ b, v.build = some b → 0 ≤ b ∧ b < 2 ^ 32)
    (h : w.setVersion (.version v) = (w', .ok ())) (hs : saveBytes w'.project = .ok file) :
    ∃ q, parseFile file = .ok q ∧ q.events.map observe = w'.project.events.map observe ∧
      (World.ofProject q).version = .ok v := by
  obtain ⟨g2, g3, f1, f2, -, hfin⟩ := version_storable r v old ht hv hold hside hbuild h
  obtain ⟨q, h1, h2, h3, h4, h5, h6⟩ := C04_save_parse w'.project file (f1 ▸ hf : w'.format ∈ formats)
    (f2 ▸ hq : w'.ppq ∈ ppqs) hfin.1 hfin.2 hs
  refine ⟨q, h1, h5, ?_⟩
  rw [version_eq (.parsed q), ofProject_project, valueOf_observe h5, ← version_eq g2]
  exact g3

namespace Demo

/-- A project with one channel named "Ba", saved by FL Studio 20. -/
def named : Project := ⟨0, 1, 96, [⟨199, .ascii, .str (PStr.lit "20.8.3"), 7⟩, ⟨64, .u16, .lv (.int 0), 2⟩,
  ⟨203, .unicode, .str (PStr.lit "Ba"), 6⟩]⟩

/-- The same with the version 11.0.0. -/
def downgraded : Project := ⟨0, 1, 96, [⟨199, .ascii, .str (PStr.lit "11.0.0"), 7⟩, ⟨64, .u16, .lv (.int 0), 2⟩,
  ⟨203, .unicode, .str (PStr.lit "Ba"), 6⟩]⟩

/-- What is read from the file of `downgraded`: the name has become "B", NUL, "a". -/
def mangled : Project := ⟨0, 1, 96, [⟨199, .ascii, .str (PStr.lit "11.0.0"), 7⟩, ⟨64, .u16, .lv (.int 0), 2⟩,
  ⟨203, .ascii, .str [66, 0, 97], 6⟩]⟩

/-- The file of `downgraded`. -/
def downgradedFile : Bytes := [70, 76, 104, 100, 6, 0, 0, 0, 0, 0, 1, 0, 96, 0, 70, 76, 100, 116, 20, 0, 0, 0,
  199, 7, 49, 49, 46, 48, 46, 48, 0, 64, 0, 0, 203, 6, 66, 0, 97, 0, 0, 0]

omit [FloatEnv] in
theorem downgraded_frames : downgradedFile.drop 22 =
    frames [(199, [49, 49, 46, 48, 46, 48, 0]), (64, [0, 0]), (203, [66, 0, 97, 0, 0, 0])] := by
  simp [frames, frame, varBuild_small, downgradedFile]

theorem downgraded_saved : saveBytes downgraded = .ok downgradedFile := by
  have hp : ∀ e ∈ downgraded.events, e.id < 256 ∧ ∃ b, e.payload = .ok b := by
    intro e he
    simp only [downgraded, List.mem_cons, List.not_mem_nil, or_false] at he
    rcases he with rfl | rfl | rfl <;> exact ⟨by decide, _, rfl⟩
  unfold saveBytes
  rw [show channelLen downgraded.events = .ok 1 from rfl]
  dsimp only
  rw [show packHeader downgraded.format 1 downgraded.ppq = .ok (downgradedFile.take 14) from rfl, eventsBytes_eq hp,
    show downgraded.events.map Event.fr = [(199, [49, 49, 46, 48, 46, 48, 0]), (64, [0, 0]), (203, [66, 0, 97, 0, 0, 0])]
      from rfl, ← downgraded_frames]
  rfl

theorem downgraded_parsed : parseFile downgradedFile = .ok mangled := by
  refine (C07_parse_iff _ _).2 ⟨0, 0, 1, 0, 96, 0, 20, 0, 0, 0, downgradedFile.drop 22, rfl, by decide, by decide, by decide,
    by decide, rfl, rfl, rfl, _, by
      rw [downgraded_frames]
      exact splits_frames (by simp [FrameOK, sizeOK]), ?_⟩
  refine .cons ⟨rfl, rfl, by decide +kernel, rfl, by simp, by simp, by simp, fun _ => ⟨_, rfl, [11, 0, 0], by decide +kernel⟩⟩ ?_
  refine .cons ⟨rfl, rfl, by decide +kernel, rfl, by simp, by simp, by simp, by simp⟩ ?_
  refine .cons ⟨rfl, rfl, by decide +kernel, rfl, by simp, by simp, by simp, by simp⟩ .nil

omit [FloatEnv] in
theorem named_wellTyped : WellTyped named.events := wellTyped_of (by decide +kernel)

theorem named_valid : ∀ e ∈ named.events, validValue e.kind e.len e.value := by
  intro e he
  simp only [named, List.mem_cons, List.not_mem_nil, or_false] at he
  rcases he with rfl | rfl | rfl
  · exact ⟨by decide, by decide⟩
  · exact ⟨_, rfl, rfl⟩
  · exact ⟨by simp [PStr.lit, isScalar], by decide⟩

end Demo

/-- C45 is false: setting the version to one before 11.5 changes the texts read from the saved file. -/
theorem C45_version_change_refuted : ¬ Spec.VersionChangeKeepsValues := by
  intro h
  obtain ⟨w', g1, g2, g3, g4⟩ := C44_version (.parsed Demo.named) ⟨11, 0, 0, none⟩
    ⟨⟨199, .ascii, .str (PStr.lit "20.8.3"), 7⟩, by rw [ofProject_project]; exact List.mem_cons_self, rfl⟩
    (a := .version ⟨11, 0, 0, none⟩) (.inl rfl)
  have hr : (⟨11, 0, 0, none⟩ : FLVersion).repr = PStr.lit "11.0.0" := by
    simp [FLVersion.repr, intRepr, natRepr, PStr.lit]
  have hw : w'.project = Demo.downgraded := by
    rw [g4, hr, ofProject_project]; rfl
  have := h _ w' _ (.parsed Demo.named) ⟨11, 0, 0, none⟩ Demo.downgradedFile Demo.mangled (by decide) (by decide)
    (by rw [ofProject_project]; exact Demo.named_wellTyped)
    (by rw [ofProject_project]; exact Demo.named_valid) g1 (by rw [hw]; exact Demo.downgraded_saved) Demo.downgraded_parsed
  rw [hw] at this
  revert this
  decide +kernel

/-- The hypotheses of `C45_version_change_partial` can be met: from 20.8.3 to 21.0.0. -/
example : ∃ w', (World.ofProject Demo.named).version = .ok ⟨20, 8, 3, none⟩ ∧
    (AtLeast11_5 (versionParts ⟨20, 8, 3, none⟩) ↔ AtLeast11_5 (versionParts ⟨21, 0, 0, none⟩)) ∧
    (World.ofProject Demo.named).setVersion (.version ⟨21, 0, 0, none⟩) = (w', .ok ()) ∧
    ∃ file, saveBytes w'.project = .ok file := by
  obtain ⟨w', g1, g2, g3, g4⟩ := C44_version (.parsed Demo.named) ⟨21, 0, 0, none⟩
    ⟨⟨199, .ascii, .str (PStr.lit "20.8.3"), 7⟩, by rw [ofProject_project]; exact List.mem_cons_self, rfl⟩
    (a := .version ⟨21, 0, 0, none⟩) (.inl rfl)
  refine ⟨w', by decide +kernel, by decide, g1, ?_⟩
  have hr : (⟨21, 0, 0, none⟩ : FLVersion).repr = PStr.lit "21.0.0" := by
    simp [FLVersion.repr, intRepr, natRepr, PStr.lit]
  rw [g4, hr, ofProject_project]
  have hp : ∀ e ∈ setFirst Demo.named.events 199 (.str (PStr.lit "21.0.0")), e.id < 256 ∧ ∃ b, e.payload = .ok b := by
    intro e he
    have : setFirst Demo.named.events 199 (.str (PStr.lit "21.0.0")) =
      [⟨199, .ascii, .str (PStr.lit "21.0.0"), 7⟩, ⟨64, .u16, .lv (.int 0), 2⟩,
        ⟨203, .unicode, .str (PStr.lit "Ba"), 6⟩] := rfl
    rw [this] at he
    simp only [List.mem_cons, List.not_mem_nil, or_false] at he
    rcases he with rfl | rfl | rfl <;> exact ⟨by decide, _, rfl⟩
  unfold saveBytes
  dsimp only
  rw [show channelLen (setFirst Demo.named.events 199 (.str (PStr.lit "21.0.0"))) = .ok 1 from rfl]
  dsimp only
  rw [show packHeader Demo.named.format 1 Demo.named.ppq = .ok (Demo.downgradedFile.take 14) from rfl, eventsBytes_eq hp]
  rw [show (setFirst Demo.named.events 199 (.str (PStr.lit "21.0.0"))).map Event.fr =
    [(199, [50, 49, 46, 48, 46, 48, 0]), (64, [0, 0]), (203, [66, 0, 97, 0, 0, 0])] from rfl]
  simp [frames, frame, Demo.varBuild_small]
  exact ⟨_, rfl⟩

omit [FloatEnv] in
/-- The hypotheses of the C43 theorems can be met: "abc1" is set and read back. -/
example [UniEnv] : ∃ w', (World.ofProject ⟨0, 0, 96, [⟨199, .ascii, .str (PStr.lit "20.8.3"), 7⟩,
    ⟨200, .ascii, .str [], 1⟩]⟩).setLicensee (PStr.lit "abc1") = (w', .ok ()) ∧
      w'.licensee = .ok (some (PStr.lit "abc1")) := by
  obtain ⟨w', h⟩ := (C43_licensee_settable (.parsed ⟨0, 0, 96, [⟨199, .ascii, .str (PStr.lit "20.8.3"), 7⟩,
    ⟨200, .ascii, .str [], 1⟩]⟩) (PStr.lit "abc1")).1.2
      ⟨⟨⟨20, 8, 3, none⟩, by decide +kernel, by decide⟩,
        ⟨200, .ascii, .str [], 1⟩, by rw [ofProject_project]; simp, rfl⟩
  exact ⟨w', h, C43_licensee_alnum (.parsed _) _ (by simp [PStr.lit, LetterOrDigit]) (by decide) h⟩

end

end PyFLP
