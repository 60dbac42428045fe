import Verif.Props.ProjectValues
/-!
# C115: comparing versions
-/

namespace PyFLP

open Spec

namespace Spec

/-- The first place where the lists differ decides; a list that is the beginning of another one comes first. -/
def lexBefore : List Int → List Int → Prop
  | [], [] => False
  | [], _ :: _ => True
  | _ :: _, [] => False
  | a :: as, b :: bs => a < b ∨ (a = b ∧ lexBefore as bs)

instance decLexBefore : ∀ as bs, Decidable (lexBefore as bs)
  | [], [] => isFalse id
  | [], _ :: _ => isTrue trivial
  | _ :: _, [] => isFalse id
  | a :: as, b :: bs =>
    have := decLexBefore as bs
    inferInstanceAs (Decidable (a < b ∨ (a = b ∧ lexBefore as bs)))

/-- Version `v` is older than version `w`: at the first number where they differ its number is smaller. -/
def Older (v w : FLVersion) : Prop := lexBefore (versionParts v) (versionParts w)

instance decOlderVersion (v w : FLVersion) : Decidable (Older v w) := inferInstanceAs (Decidable (lexBefore _ _))

/-- The versions differ in that one has a build number and the other one does not. -/
def OnlyBuild (v w : FLVersion) : Prop :=
  (v.major, v.minor, v.patch) = (w.major, w.minor, w.patch) ∧ v.build.isSome ≠ w.build.isSome

end Spec

theorem lexBefore_irrefl (as : List Int) : ¬ lexBefore as as := by
  induction as with
  | nil => exact id
  | cons a as ih =>
    rintro (h | ⟨-, h⟩)
    · omega
    · exact ih h

theorem lexBefore_trans {as bs cs : List Int} (h : lexBefore as bs) (h' : lexBefore bs cs) : lexBefore as cs := by
  induction as generalizing bs cs with
  | nil =>
    cases bs with
    | nil => exact h.elim
    | cons b bs =>
      cases cs with
      | nil => exact h'.elim
      | cons c cs => trivial
  | cons a as ih =>
    cases bs with
    | nil => exact h.elim
    | cons b bs =>
      cases cs with
      | nil => exact h'.elim
      | cons c cs =>
        rcases h with h | ⟨rfl, h⟩ <;> rcases h' with h' | ⟨rfl, h'⟩
        · exact .inl (by omega)
        · exact .inl h
        · exact .inl h'
        · exact .inr ⟨rfl, ih h h'⟩

theorem lexBefore_total (as bs : List Int) : lexBefore as bs ∨ as = bs ∨ lexBefore bs as := by
  induction as generalizing bs with
  | nil => cases bs with
    | nil => exact .inr (.inl rfl)
    | cons b bs => exact .inl trivial
  | cons a as ih =>
    cases bs with
    | nil => exact .inr (.inr trivial)
    | cons b bs =>
      rcases Int.lt_trichotomy a b with h | rfl | h
      · exact .inl (.inl h)
      · rcases ih bs with h | rfl | h
        · exact .inl (.inr ⟨rfl, h⟩)
        · exact .inr (.inl rfl)
        · exact .inr (.inr (.inr ⟨rfl, h⟩))
      · exact .inr (.inr (.inl h))

theorem versionParts_inj {v w : FLVersion} (h : versionParts v = versionParts w) : v = w := by
  have := ofParts_versionParts v
  rw [h, ofParts_versionParts] at this
  injection this with this
  exact this.symm

theorem lt_spec (v w : FLVersion) :
    (OnlyBuild v w → v.lt w = .error .typeError) ∧ (¬ OnlyBuild v w → v.lt w = .ok (decide (Older v w))) := by
  obtain ⟨a, b, c, d⟩ := v
  obtain ⟨a', b', c', d'⟩ := w
  unfold OnlyBuild FLVersion.lt
  dsimp only
  constructor
  · rintro ⟨h1, h2⟩
    simp only [Prod.mk.injEq] at h1
    obtain ⟨rfl, rfl, rfl⟩ := h1
    simp only [ne_eq, not_true_eq_false, if_false]
    cases d <;> cases d' <;> simp_all
  · intro h
    have key : ∀ (l l' : List Int) (_ : l = [a, b, c] ∨ ∃ x, l = [a, b, c, x])
        (_ : l' = [a', b', c'] ∨ ∃ x, l' = [a', b', c', x]), a ≠ a' ∨ b ≠ b' ∨ c ≠ c' →
        (lexBefore l l' ↔ (a < a' ∨ (a = a' ∧ (b < b' ∨ (b = b' ∧ c < c'))))) := by
      rintro l l' (rfl | ⟨x, rfl⟩) (rfl | ⟨x', rfl⟩) hne <;> simp only [lexBefore] <;> omega
    have hl : versionParts ⟨a, b, c, d⟩ = [a, b, c] ∨ ∃ x, versionParts ⟨a, b, c, d⟩ = [a, b, c, x] := by
      cases d with
      | none => exact .inl rfl
      | some x => exact .inr ⟨x, rfl⟩
    have hl' : versionParts ⟨a', b', c', d'⟩ = [a', b', c'] ∨ ∃ x, versionParts ⟨a', b', c', d'⟩ = [a', b', c', x] := by
      cases d' with
      | none => exact .inl rfl
      | some x => exact .inr ⟨x, rfl⟩
    have key' : a ≠ a' ∨ b ≠ b' ∨ c ≠ c' → (Older ⟨a, b, c, d⟩ ⟨a', b', c', d'⟩ ↔
        (a < a' ∨ (a = a' ∧ (b < b' ∨ (b = b' ∧ c < c'))))) := key _ _ hl hl'
    by_cases h1 : a = a'
    · by_cases h2 : b = b'
      · by_cases h3 : c = c'
        · subst h1 h2 h3
          simp only [ne_eq, not_true_eq_false, if_false]
          cases d <;> cases d' <;> simp_all [Older, versionParts, lexBefore]
        · rw [if_neg (by simpa using h1), if_neg (by simpa using h2), if_pos h3]
          congr 1
          rw [decide_eq_decide, key' (.inr (.inr h3))]
          omega
      · rw [if_neg (by simpa using h1), if_pos h2]
        congr 1
        rw [decide_eq_decide, key' (.inr (.inl h2))]
        omega
    · rw [if_pos h1]
      congr 1
      rw [decide_eq_decide, key' (.inl h1)]
      omega

/-- C115: two versions, unless they differ only in that one of them has a build number, are compared number by number. -/
theorem C115_order_partial (v w : FLVersion) (h : ¬ OnlyBuild v w) :
    v.lt w = .ok (decide (Older v w)) ∧ v.gt w = .ok (decide (Older w v)) ∧
    v.le w = .ok (decide (Older v w ∨ v = w)) ∧ v.ge w = .ok (decide (Older w v ∨ w = v)) := by
  have h' : ¬ OnlyBuild w v := fun g => h ⟨g.1.symm, g.2.symm⟩
  have hle : ∀ v w : FLVersion, ¬ OnlyBuild v w → v.le w = .ok (decide (Older v w ∨ v = w)) := by
    intro v w h
    unfold FLVersion.le
    split
    · next e => simp [e]
    · next e =>
      rw [(lt_spec v w).2 h]
      simp [e]
  exact ⟨(lt_spec v w).2 h, (lt_spec w v).2 h', hle v w h, hle w v h'⟩

/-- C115: comparison of versions is a strict total order, as far as it is defined: none is older than itself, one of two different
versions is older, and older versions of older versions are older. -/
theorem C115_total (v w x : FLVersion) :
    v.lt v = .ok false ∧
    (¬ OnlyBuild v w → (v.lt w = .ok true ∨ v = w ∨ w.lt v = .ok true) ∧ ¬ (v.lt w = .ok true ∧ w.lt v = .ok true)) ∧
    (v.lt w = .ok true → w.lt x = .ok true → v.lt x = .ok true) := by
  have older : ∀ {v w : FLVersion}, v.lt w = .ok true → Older v w ∧ ¬ OnlyBuild v w := by
    intro v w h
    by_cases hb : OnlyBuild v w
    · rw [(lt_spec v w).1 hb] at h; cases h
    · rw [(lt_spec v w).2 hb] at h
      injection h with h
      exact ⟨of_decide_eq_true h, hb⟩
  refine ⟨?_, fun h => ⟨?_, ?_⟩, fun h h' => ?_⟩
  · rw [(lt_spec v v).2 (fun g => g.2 rfl), decide_eq_false (show ¬ Older v v from lexBefore_irrefl _)]
  · rw [(lt_spec v w).2 h, (lt_spec w v).2 (fun g => h ⟨g.1.symm, g.2.symm⟩)]
    rcases lexBefore_total (versionParts v) (versionParts w) with g | g | g
    · exact .inl (by rw [decide_eq_true (show Older v w from g)])
    · exact .inr (.inl (versionParts_inj g))
    · exact .inr (.inr (by rw [decide_eq_true (show Older w v from g)]))
  · rintro ⟨g, g'⟩
    exact lexBefore_irrefl _ (lexBefore_trans (older g).1 (older g').1)
  · have hx : ¬ OnlyBuild v x := by
      rintro ⟨g1, g2⟩
      obtain ⟨o1, n1⟩ := older h
      obtain ⟨o2, n2⟩ := older h'
      obtain ⟨a, b, c, d⟩ := v
      obtain ⟨a', b', c', d'⟩ := w
      obtain ⟨a'', b'', c'', d''⟩ := x
      simp only [Prod.mk.injEq] at g1
      obtain ⟨rfl, rfl, rfl⟩ := g1
      unfold Older at o1 o2
      unfold OnlyBuild at n1 n2
      cases d <;> cases d' <;> cases d'' <;> simp [versionParts, lexBefore] at * <;> omega
    rw [(lt_spec v x).2 hx, decide_eq_true (show Older v x from lexBefore_trans (older h).1 (older h').1)]

/-- C115 is false of a version with a build number and the same version without one: every comparison raises `TypeError`, for
example `project.version >= FLVersion(20, 8, 3)` in a project of version 20.8.3.2304. -/
theorem C115_build_refuted (v w : FLVersion) (h : OnlyBuild v w) :
    v.lt w = .error .typeError ∧ v.gt w = .error .typeError ∧ v.le w = .error .typeError ∧ v.ge w = .error .typeError := by
  have h' : OnlyBuild w v := ⟨h.1.symm, h.2.symm⟩
  have hne : v ≠ w := by rintro rfl; exact h.2 rfl
  unfold FLVersion.gt FLVersion.ge FLVersion.le
  rw [if_neg hne, if_neg (Ne.symm hne), (lt_spec v w).1 h, (lt_spec w v).1 h']
  exact ⟨rfl, rfl, rfl, rfl⟩

/-- C115: different versions have different texts, and the text of a version is read as this version. -/
theorem C115_text (v w : FLVersion) : (v.repr = w.repr → v = w) ∧
    intParts (pySplit 46 v.repr) = some (versionParts v) := by
  have hp : ∀ v : FLVersion, intParts (pySplit 46 v.repr) = some (versionParts v) := by
    intro v
    rw [repr_eq, split_join_parts (by unfold versionParts; split <;> simp)]
  refine ⟨fun h => ?_, hp v⟩
  have := hp v
  rw [h, hp w] at this
  injection this with this
  exact versionParts_inj this.symm

/-- Both cases occur. -/
example : OnlyBuild ⟨20, 8, 3, some 2304⟩ ⟨20, 8, 3, none⟩ ∧ ¬ OnlyBuild ⟨20, 8, 3, some 2304⟩ ⟨20, 9, 0, none⟩ ∧
    Older ⟨20, 8, 3, some 2304⟩ ⟨20, 9, 0, none⟩ ∧ Older ⟨9, 6, 0, none⟩ ⟨20, 0, 0, none⟩ := by
  refine ⟨⟨rfl, by decide⟩, fun h => absurd h.1 (by decide), by decide, by decide⟩

end PyFLP
