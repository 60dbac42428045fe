import Verif.Props.Exact10
/-!
# Writing back the tempo again and again (C46)
-/

namespace PyFLP

open Spec Heap

/-- C46: the tempo that was read is accepted, if it lies in the range of the version (from 3.4 on; all numbers of thousandths from
10000 to 1000 times the highest tempo). -/
theorem C46_rewrite_accepted {w : World} {L : Nat → Prop} (r : WReach w L) {v : FLVersion} (hv : w.version = .ok v)
    (h1 : comparable v 1 4 2) (h2 : comparable v 11 0 0) (h3 : comparable v 3 4 0) (h4 : ¬ older v 3 4 0) {n : Int}
    (hn : valueOf w.project.events 156 = some (.lv (.int n))) (hlo : 10000 ≤ n) (hhi : (n : Rat) ≤ 1000 * highestTempo v) :
    ∃ x w', w.tempo = .ok (some x) ∧ w.setTempo x = (w', .ok ()) ∧ WReach w' L ∧ w'.version = .ok v := by
  have ht : w.tempo = .ok (some (.float (fl ((n : Rat) / 1000)))) := by
    rw [tempo_eq r, hn]; rfl
  have hb : (10 : Rat) ≤ fl ((n : Rat) / 1000) ∧ fl ((n : Rat) / 1000) ≤ highestTempo v := by
    obtain ⟨H, hH, hH2⟩ : ∃ H : Int, highestTempo v = (H : Rat) ∧ (H = 999 ∨ H = 522) := by
      unfold highestTempo
      split
      · exact ⟨999, by norm_num, .inl rfl⟩
      · exact ⟨522, by norm_num, .inr rfl⟩
    rw [hH] at hhi ⊢
    have hhi' : n ≤ 1000 * H := by exact_mod_cast hhi
    by_cases hd : (1000 : Int) ∣ n
    · obtain ⟨k, rfl⟩ := hd
      have hk : ((1000 * k : Int) : Rat) / 1000 = (k : Rat) := by push_cast; field_simp
      rw [hk, fl_int (by omega) (by omega)]
      constructor
      · exact_mod_cast (show (10 : Int) ≤ k by omega)
      · exact_mod_cast (show k ≤ H by omega)
    · have e1 := fl_err ((n : Rat) / 1000)
      have n1 : (10001 : Rat) ≤ n := by exact_mod_cast (show (10001 : Int) ≤ n by omega)
      have n2 : (n : Rat) ≤ 1000 * H - 1 := by
        have : n ≤ 1000 * H - 1 := by omega
        exact_mod_cast this
      have hH3 : (H : Rat) ≤ 999 := by exact_mod_cast (show H ≤ 999 by omega)
      rw [abs_of_nonneg (by linarith : 0 ≤ (n : Rat) / 1000), abs_le] at e1
      norm_num at e1
      constructor <;> linarith [e1.1, e1.2]
  obtain ⟨w', hw⟩ := (C46_tempo_accepted hv ht h1 h2 h3 (.float (fl ((n : Rat) / 1000)))).1.2
    ⟨hb.1, hb.2, fun _ _ => h4⟩
  obtain ⟨r', -, ⟨a, b, c, hp⟩, -⟩ := C46_tempo r _ hw
  refine ⟨_, w', ht, hw, r', ?_⟩
  rw [version_eq r', hp]
  dsimp only
  rw [valueOf_setFirst_other (by decide), valueOf_setFirst_other (by decide), valueOf_setFirst_other (by decide), ← version_eq r, hv]

/-- C46: `project.tempo = project.tempo`, however often it is executed, never changes the whole part of the tempo, never raises it, and
after finitely many times changes nothing more (`s i` is the project after `i` times). -/
theorem C46_rewrite_settles {s : Nat → World} {L : Nat → Prop} (r : WReach (s 0) L) {n : Int}
    (hn : valueOf (s 0).project.events 156 = some (.lv (.int n)))
    (h : ∀ i, ∃ x, (s i).tempo = .ok (some x) ∧ (s i).setTempo x = (s (i + 1), .ok ())) :
    (∀ i, ∃ m : Int, valueOf (s i).project.events 156 = some (.lv (.int m)) ∧ m ≤ n ∧ m / 1000 = n / 1000) ∧
    ∃ k, ∀ i, k ≤ i → valueOf (s i).project.events 156 = valueOf (s k).project.events 156 ∧ (s i).tempo = (s k).tempo := by
  have hr : ∀ i, WReach (s i) L := by
    intro i
    induction i with
    | zero => exact r
    | succ i ih =>
      obtain ⟨x, -, h2⟩ := h i
      exact (C46_tempo ih x h2).1
  have step : ∀ i (m : Int), valueOf (s i).project.events 156 = some (.lv (.int m)) →
      ∃ m' : Int, valueOf (s (i + 1)).project.events 156 = some (.lv (.int m')) ∧ m' ≤ m ∧ m' / 1000 = m / 1000 := by
    intro i m hm
    obtain ⟨x, h1, h2⟩ := h i
    obtain ⟨h3, h4⟩ := C46_rewrite_partial (hr i) hm h1 h2
    by_cases hd : (1000 : Int) ∣ m
    · exact ⟨m, h4 hd, le_refl _, rfl⟩
    · rcases h3 with h3 | h3
      · exact ⟨m, h3, le_refl _, rfl⟩
      · exact ⟨m - 1, h3, by omega, by omega⟩
  have all : ∀ i, ∃ m : Int, valueOf (s i).project.events 156 = some (.lv (.int m)) ∧ m ≤ n ∧ m / 1000 = n / 1000 := by
    intro i
    induction i with
    | zero => exact ⟨n, hn, le_refl _, rfl⟩
    | succ i ih =>
      obtain ⟨m, h1, h2, h3⟩ := ih
      obtain ⟨m', g1, g2, g3⟩ := step i m h1
      exact ⟨m', g1, g2.trans h2, g3.trans h3⟩
  refine ⟨all, ?_⟩
  have later : ∀ k (m : Int), valueOf (s k).project.events 156 = some (.lv (.int m)) → ∀ d,
      ∃ m' : Int, valueOf (s (k + d)).project.events 156 = some (.lv (.int m')) ∧ m' ≤ m := by
    intro k m hm d
    induction d with
    | zero => exact ⟨m, hm, le_refl _⟩
    | succ d ih =>
      obtain ⟨m1, h1, h2⟩ := ih
      obtain ⟨m2, g1, g2, -⟩ := step _ m1 h1
      exact ⟨m2, g1, g2.trans h2⟩
  -- the stored number cannot go down more often than its distance from the whole tempo
  have fin : ∀ f : Nat, ∀ j (m : Int), valueOf (s j).project.events 156 = some (.lv (.int m)) → (m - n / 1000 * 1000).toNat ≤ f →
      ∃ k, ∀ i, k ≤ i → valueOf (s i).project.events 156 = valueOf (s k).project.events 156 := by
    intro f
    induction f with
    | zero =>
      intro j m hm hf
      refine ⟨j, fun i hi => ?_⟩
      obtain ⟨m', g1, g2⟩ := later j m hm (i - j)
      rw [show j + (i - j) = i by omega] at g1
      obtain ⟨m1, h1, -, h3⟩ := all i
      obtain ⟨m2, k1, -, k3⟩ := all j
      rw [hm] at k1
      rw [g1] at h1
      injection h1 with h1; injection h1 with h1; injection h1 with h1
      injection k1 with k1; injection k1 with k1; injection k1 with k1
      rw [g1, hm, show m' = m by omega]
    | succ f ih =>
      intro j m hm hf
      by_cases hc : ∀ i, j ≤ i → valueOf (s i).project.events 156 = some (.lv (.int m))
      · exact ⟨j, fun i hi => by rw [hc i hi, hm]⟩
      · push Not at hc
        obtain ⟨i, hi, hne⟩ := hc
        obtain ⟨m', g1, g2⟩ := later j m hm (i - j)
        rw [show j + (i - j) = i by omega] at g1
        have hlt : m' < m := by
          rcases lt_or_eq_of_le g2 with h | h
          · exact h
          · subst h; exact absurd g1 hne
        obtain ⟨m1, h1, -, h3⟩ := all i
        rw [g1] at h1
        injection h1 with h1; injection h1 with h1; injection h1 with h1
        exact ih i m' g1 (by omega)
  obtain ⟨k, hk⟩ := fin _ 0 n hn (le_refl _)
  refine ⟨k, fun i hi => ⟨hk i hi, ?_⟩⟩
  obtain ⟨m, hm, -⟩ := all k
  rw [tempo_eq (hr i), tempo_eq (hr k), hk i hi, hm]
  rfl

/-- `project.tempo = project.tempo`. -/
def Demo.rewritten (w : World) : World :=
  match w.tempo with
  | .ok (some x) => (w.setTempo x).1
  | _ => w

open Demo in
/-- The case of the tempo 16.002: it can be written back for ever. -/
example : ∃ s : Nat → World, s 0 = slow ∧ WReach (s 0) (· = 0) ∧
    valueOf (s 0).project.events 156 = some (.lv (.int 16002)) ∧
    ∀ i, ∃ x, (s i).tempo = .ok (some x) ∧ (s i).setTempo x = (s (i + 1), .ok ()) := by
  refine ⟨fun i => Nat.rec slow (fun _ w => rewritten w) i, rfl, slow_reach, by decide +kernel, fun i => ?_⟩
  have h : ∀ i, let w : World := Nat.rec slow (fun _ w => rewritten w) i
      WReach w (· = 0) ∧ w.version = .ok ⟨20, 8, 3, none⟩ ∧
      ∃ m : Int, valueOf w.project.events 156 = some (.lv (.int m)) ∧ m / 1000 = 16 := by
    intro i
    induction i with
    | zero => exact ⟨slow_reach, slow_version, 16002, by decide +kernel, by decide⟩
    | succ i ih =>
      dsimp only at ih ⊢
      generalize (Nat.rec slow (fun _ w => rewritten w) i : World) = w at ih ⊢
      obtain ⟨r, hv, m, hm, hd⟩ := ih
      have hi : highestTempo ⟨20, 8, 3, none⟩ = 522 := by decide +kernel
      have hm' : (m : Rat) ≤ 16999 := by exact_mod_cast (show m ≤ 16999 by omega)
      obtain ⟨x, w', g1, g2, g3, g4⟩ := C46_rewrite_accepted r hv (.inl rfl) (.inl rfl) (.inl rfl) (by decide) hm (by omega)
        (by rw [hi]; linarith)
      have e : rewritten w = w' := by unfold rewritten; rw [g1]; dsimp only; rw [g2]
      rw [e]
      obtain ⟨k1, k2⟩ := C46_rewrite_partial r hm g1 g2
      refine ⟨g3, g4, ?_⟩
      by_cases hz : (1000 : Int) ∣ m
      · exact ⟨m, k2 hz, hd⟩
      · rcases k1 with k1 | k1
        · exact ⟨m, k1, hd⟩
        · exact ⟨m - 1, k1, by omega⟩
  obtain ⟨r, hv, m, hm, hd⟩ := h i
  dsimp only at r hv hm ⊢
  generalize (Nat.rec slow (fun _ w => rewritten w) i : World) = w at *
  have hi : highestTempo ⟨20, 8, 3, none⟩ = 522 := by decide +kernel
  have hm' : (m : Rat) ≤ 16999 := by exact_mod_cast (show m ≤ 16999 by omega)
  obtain ⟨x, w', g1, g2, -⟩ := C46_rewrite_accepted r hv (.inl rfl) (.inl rfl) (.inl rfl) (by decide) hm (by omega)
    (by rw [hi]; linarith)
  refine ⟨x, g1, ?_⟩
  rw [g2]
  show _ = (rewritten w, _)
  unfold rewritten
  rw [g1]
  dsimp only
  rw [g2]

end PyFLP
