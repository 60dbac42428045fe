import Verif.Equality
import Verif.Props.Rack
import Verif.Props.Nested
/-!
# C93: equality of models
-/

namespace PyFLP
open Spec

theorem mem_root_r {w : World} {L : Nat → Prop} (r : WReach w L) {a b : Nat} (ha : a ∈ w.heap.lst 0) (hb : b ∈ w.heap.lst 0)
    (h : (w.heap.cell a).r = (w.heap.cell b).r) : a = b := by
  obtain ⟨g, _⟩ := reach_good (wreach_inv r).1
  obtain ⟨i, hi, rfl⟩ := List.mem_iff_getElem.1 ha
  obtain ⟨j, hj, rfl⟩ := List.mem_iff_getElem.1 hb
  have e1 := g.idx i hi
  have e2 := g.idx j hj
  have : (i : Int) = j := by
    rw [← e1, ← e2]
    exact h
  have : i = j := by omega
  subst this
  rfl

theorem map_inj_on {α β : Type} {f : α → β} {S : α → Prop} (hf : ∀ a b, S a → S b → f a = f b → a = b) :
    ∀ {l m : List α}, (∀ a ∈ l, S a) → (∀ a ∈ m, S a) → l.map f = m.map f → l = m
  | [], [], _, _, _ => rfl
  | [], _ :: _, _, _, h => by cases h
  | _ :: _, [], _, _, h => by cases h
  | a :: l, b :: m, hl, hm, h => by
    injection h with h1 h2
    rw [hf a b (hl a (by simp)) (hm b (by simp)) h1,
      map_inj_on hf (fun x hx => hl x (by simp [hx])) (fun x hx => hm x (by simp [hx])) h2]

/-- Within one project trees are equal exactly if they have the same event objects. -/
theorem eqTree_iff {w : World} {L : Nat → Prop} (r : WReach w L) {t u : Nat} (ht : L t) (hu : L u) :
    w.eqTree t w u = true ↔ w.refs t = w.refs u := by
  obtain ⟨g, _⟩ := reach_good (wreach_inv r).1
  have hnd : (w.refs 0).Nodup := refs_nodup r g.vρ
  unfold World.eqTree World.refs
  rw [beq_iff_eq]
  constructor
  · intro h
    rw [map_inj_on (S := fun a => a ∈ w.heap.lst 0) (fun a b ha hb e => mem_root_r r ha hb e)
      (fun a ha => (g.sub t ht).mem ha) (fun a ha => (g.sub u hu).mem ha) h]
  · intro h
    rw [map_inj_on (S := fun a => a ∈ w.heap.lst 0) (fun a b ha hb e => map_inj_nodup hnd ha hb e)
      (fun a ha => (g.sub t ht).mem ha) (fun a ha => (g.sub u hu).mem ha) h]

/-- C93 for models of one project and of one class, in every state: they are equal exactly if they have the same events (as
objects, in the same order); then they have equal events. -/
theorem C93_same_project_partial {w : World} {L : Nat → Prop} (r : WReach w L) {c d : Chan} (hc : L c.tree) (hd : L d.tree)
    (hcls : c.cls = d.cls) :
    ∃ b, w.chanEq c w d = .ok b ∧ (b = true ↔ w.refs c.tree = w.refs d.tree) ∧ (b = true → w.events c.tree = w.events d.tree) := by
  refine ⟨w.eqTree d.tree w c.tree, ?_, ?_, ?_⟩
  · unfold World.chanEq World.chanDunderEq
    rw [if_neg (by simp [hcls]), if_pos (by simp [ChClass.isa, hcls])]
  · rw [eqTree_iff r hd hc]
    exact ⟨Eq.symm, Eq.symm⟩
  · intro h
    rw [eqTree_iff r hd hc] at h
    unfold World.events
    rw [h]

/-- C93 is false of projects: two projects that have just been parsed are equal exactly if they have the same number of
events, whatever these are. -/
theorem C93_projects_refuted [FloatEnv] {file file' : Bytes} {p p' : Project} (_ : parseFile file = .ok p)
    (_ : parseFile file' = .ok p') :
    (World.ofProject p).eqTree 0 (World.ofProject p') 0 = true ↔ p.events.length = p'.events.length := by
  have key : ∀ q : Project, ((World.ofProject q).heap.lst 0).map (fun a => ((World.ofProject q).heap.cell a).r) =
      (List.range q.events.length).map Int.ofNat := by
    intro q
    obtain ⟨-, h2, g⟩ := Heap.ofEvents_good (q.events.zipIdx.map fun x => (x.2, x.1.id))
    have hl : (World.ofProject q).heap.lst 0 = List.range q.events.length := by
      show (Heap.ofEvents _).lst 0 = _
      unfold Heap.lst Heap.tree
      rw [h2]
      simp
    apply List.ext_getElem
    · simp [hl]
    · intro i h1 h3
      rw [List.getElem_map, List.getElem_map, List.getElem_range]
      exact g.idx i (by have := h1; rw [List.length_map] at this; exact this)
  unfold World.eqTree
  rw [beq_iff_eq, key, key]
  constructor
  · intro h
    simpa using congrArg List.length h
  · intro h
    rw [h]

/-- C93 is false of channels of different classes: comparing them raises. -/
theorem C93_classes_refuted (w w' : World) (c d : Chan) (h : c.cls ≠ d.cls) : w.chanEq c w' d = .error .typeError := by
  unfold World.chanEq World.chanDunderEq ChClass.isa
  cases hc : c.cls <;> cases hd : d.cls <;> simp_all

/-- C93: so `channel in project.channels` raises if the first channel of the rack has another class. -/
theorem C93_membership_refuted {w w' : World} {t : Nat} {c d : Chan} {ds : List Chan} {e : Option Exc}
    (h : w.iterRack t = (w', d :: ds, e)) (hcls : c.cls ≠ d.cls) : w.rackHas t c = (w', .error .typeError) := by
  unfold World.rackHas
  rw [h]
  dsimp only
  unfold World.chanIn
  rw [C93_classes_refuted w' w' d c (Ne.symm hcls)]

/-- C93: if all channels have the class of `c`, then `c in project.channels` tells whether one of them has the events of
`c`. -/
theorem C93_membership_partial {w w' : World} {L : Nat → Prop} {t : Nat} {c : Chan} {ds : List Chan}
    (h : w.iterRack t = (w', ds, none)) (r : WReach w' L) (hc : L c.tree) (hd : ∀ d ∈ ds, L d.tree ∧ d.cls = c.cls) :
    ∃ b, w.rackHas t c = (w', .ok b) ∧ (b = true ↔ ∃ d ∈ ds, w'.refs d.tree = w'.refs c.tree) := by
  unfold World.rackHas
  rw [h]
  dsimp only
  clear h
  induction ds with
  | nil => exact ⟨false, rfl, by simp⟩
  | cons d ds ih =>
    obtain ⟨b, e1, e2, -⟩ := C93_same_project_partial r (hd d (by simp)).1 hc (hd d (by simp)).2
    obtain ⟨b', e3, e4⟩ := ih fun d hd' => hd d (by simp [hd'])
    unfold World.chanIn
    rw [e1]
    cases b with
    | true => exact ⟨true, rfl, by simp [e2.1 rfl]⟩
    | false =>
      refine ⟨b', e3, e4.trans ?_⟩
      have hn : w'.refs d.tree ≠ w'.refs c.tree := fun hc => by simpa using e2.2 hc
      simp [hn]

namespace Demo

/-- A sampler and an instrument in one display group. -/
def mixedRack : Project := ⟨0, 2, 96, [⟨199, .ascii, .str (PStr.lit "20.8.3"), 7⟩, ⟨231, .unicode, .str (PStr.lit "All"), 8⟩,
  ⟨64, .u16, .lv (.int 0), 2⟩, ⟨21, .u8, .lv (.int 0), 1⟩, ⟨145, .i32, .lv (.int 0), 4⟩,
  ⟨64, .u16, .lv (.int 1), 2⟩, ⟨21, .u8, .lv (.int 2), 1⟩, ⟨145, .i32, .lv (.int 0), 4⟩]⟩

end Demo

/-- The hypotheses can be met: in the second project `rack[1] in rack` raises `TypeError`; the channels of one rack differ
from each other and are equal to themselves. -/
example : ∃ w' c d, (World.ofProject Demo.mixedRack).iterRack 0 = (w', [c, d], none) ∧ c.cls = .sampler ∧ d.cls = .instrument ∧
    WReach w' (fun u => (u = 0 ∨ u ∈ [1]) ∨ u ∈ [2, 3]) ∧ (c.tree = 2 ∧ d.tree = 3) ∧
    w'.chanEq c w' c = .ok true ∧ w'.chanEq c w' { d with cls := .sampler } = .ok false ∧
    (w'.rackHas 0 d).2 = .error .typeError :=
  ⟨_, ⟨2, .sampler, 1, .lv (.int 0)⟩, ⟨3, .instrument, 1, .lv (.int 1)⟩, rfl, rfl, rfl,
    .view (.view (.parsed Demo.mixedRack) rfl (by decide +kernel) (.separate 231)) (.inl rfl) (by decide +kernel)
      (.divide 64 World.rackIds), ⟨rfl, rfl⟩, by decide +kernel, by decide +kernel, by decide +kernel⟩

end PyFLP
