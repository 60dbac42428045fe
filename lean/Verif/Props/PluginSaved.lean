import Verif.Props.Nested
/-!
# C91: assigned plugins in saved files
-/

namespace PyFLP
open Spec

namespace Spec

/-- In the project, `n` is the closest internal name before the event `x`. -/
def NamedBy (w : World) (n x : Nat) : Prop :=
  ∃ pre mid post, w.refs 0 = pre ++ n :: (mid ++ x :: post) ∧ (w.ev n).id = 201 ∧ ∀ y ∈ mid, (w.ev y).id ≠ 201

/-- The first internal name of the model is that of its own plugin data, and of no other plugin data. -/
def OwnName (w : World) (t : Nat) : Prop :=
  ∃ n, IsFirst w t n ∧ (w.ev n).id = 201 ∧ ∀ x ∈ w.refs 0, (w.ev x).id = 213 → (x ∈ w.refs t ↔ NamedBy w n x)

/-- The events of the project with the plugin: data, wrapper and name replaced in the model `t`. -/
def withPlugin (w : World) (t n : Nat) (data wrapper : Event) (name : PStr) (x : Nat) : Event :=
  if x ∈ w.refs t ∧ (w.ev x).id = 213 then data
  else if x ∈ w.refs t ∧ (w.ev x).id = 212 then wrapper
  else if x = n then { w.ev x with value := .str name }
  else w.ev x

end Spec

theorem last_name {f : Nat → Event} (xs : List Nat) :
    (∃ a n b, xs = a ++ n :: b ∧ (f n).id = 201 ∧ (∀ y ∈ b, (f y).id ≠ 201) ∧
      ∀ g : Nat → Event, (∀ y, (g y).id = (f y).id) → lastStr 201 (xs.map g) = strOf (g n).value) ∨
    ((∀ y ∈ xs, (f y).id ≠ 201) ∧
      ∀ g : Nat → Event, (∀ y, (g y).id = (f y).id) → lastStr 201 (xs.map g) = none) := by
  generalize hk : xs.length = k
  induction k generalizing xs with
  | zero =>
    have := List.length_eq_zero_iff.1 hk
    subst this
    exact .inr ⟨by simp, fun _ _ => rfl⟩
  | succ k ih =>
    have hne : xs ≠ [] := by intro h; rw [h] at hk; cases hk
    have hx : xs = xs.dropLast ++ [xs.getLast hne] := (List.dropLast_concat_getLast hne).symm
    have hl : xs.dropLast.length = k := by simp [hk]
    generalize xs.dropLast = ys at hx hl
    generalize xs.getLast hne = y at hx
    subst hx
    by_cases hy : (f y).id = 201
    · refine .inl ⟨ys, y, [], rfl, hy, by simp, fun g hg => ?_⟩
      rw [List.map_append, List.map_cons, List.map_nil, lastStr_append, if_pos (by rw [hg, hy])]
    · rcases ih ys hl with ⟨a, n, b, h1, h2, h3, h4⟩ | h
      · refine .inl ⟨a, n, b ++ [y], by rw [h1]; simp, h2, ?_, fun g hg => ?_⟩
        · intro z hz
          rcases List.mem_append.1 hz with hz | hz
          · exact h3 z hz
          · rw [List.mem_singleton.1 hz]; exact hy
        · rw [List.map_append, List.map_cons, List.map_nil, lastStr_append, if_neg (by rw [hg]; exact hy), h4 g hg]
      · refine .inr ⟨?_, fun g hg => ?_⟩
        · intro z hz
          rcases List.mem_append.1 hz with hz | hz
          · exact h.1 z hz
          · rw [List.mem_singleton.1 hz]; exact hy
        · rw [List.map_append, List.map_cons, List.map_nil, lastStr_append, if_neg (by rw [hg]; exact hy), h.2 g hg]

theorem textKind_map {f g : Nat → Event} (hid : ∀ y, (g y).id = (f y).id) (xs : List Nat)
    (hv : ∀ y ∈ xs, (f y).id = 199 → (g y).value = (f y).value) : textKind (xs.map g) = textKind (xs.map f) := by
  generalize hk : xs.length = k
  induction k generalizing xs with
  | zero =>
    have := List.length_eq_zero_iff.1 hk
    subst this
    rfl
  | succ k ih =>
    have hne : xs ≠ [] := by intro h; rw [h] at hk; cases hk
    have hx : xs = xs.dropLast ++ [xs.getLast hne] := (List.dropLast_concat_getLast hne).symm
    have hl : xs.dropLast.length = k := by simp [hk]
    generalize xs.dropLast = ys at hx hl
    generalize xs.getLast hne = y at hx
    subst hx
    rw [List.map_append, List.map_append, List.map_cons, List.map_nil, List.map_cons, List.map_nil, textKind_append, textKind_append,
      ih ys (fun z hz => hv z (List.mem_append_left _ hz)) hl, hid]
    by_cases hy : (f y).id = 199
    · rw [if_pos hy, if_pos hy, hv y (by simp) hy]
    · rw [if_neg hy, if_neg hy]

/-- Replacing events by ones with the same ids, versions and formats, except for plugin data of the format that belongs to the
place. -/
theorem wellTyped_map {f g : Nat → Event} {xs : List Nat} (h : WellTyped (xs.map f)) (hid : ∀ y, (g y).id = (f y).id)
    (hv : ∀ y ∈ xs, (f y).id = 199 → (g y).value = (f y).value)
    (hk : ∀ y ∈ xs, (f y).id ≠ 213 → (g y).kind = (f y).kind)
    (hp : ∀ pre x post, xs = pre ++ x :: post → (f x).id = 213 → pluginKind (pre.map g) = (g x).kind) :
    WellTyped (xs.map g) := by
  intro before e after he
  obtain ⟨pre, rest, h1, h2, h3⟩ := List.map_eq_append_iff.1 he
  obtain ⟨x, post, h4, h5, h6⟩ := List.map_eq_cons_iff.1 h3
  subst h1 h4 h2 h5 h6
  obtain ⟨o1, o2, o3⟩ := h (pre.map f) (f x) (post.map f) (by simp)
  refine ⟨by rw [hid]; exact o1, ?_, fun h199 => ?_⟩
  · rw [hid]
    by_cases h213 : (f x).id = 213
    · rw [h213]
      unfold kindOf
      rw [show enumType enums 213 = none from by decide +kernel]
      exact congrArg some (hp pre x post rfl h213)
    · rw [hk x (by simp) h213, ← o2]
      unfold kindOf
      rw [textKind_map hid pre fun y hy => hv y (List.mem_append_left _ hy), if_neg h213, if_neg h213]
  · rw [hid] at h199
    rw [hv x (by simp) h199]
    exact o3 h199

theorem name_kind (p : PluginType) (name : PStr) (h : p.internalName = some name) : kindByName name = p.kind := by
  cases p <;> first | (cases h; decide) | cases h

variable [FloatEnv]

theorem name_valid (p : PluginType) (name : PStr) (h : p.internalName = some name) (k : Kind) (hk : k = .ascii ∨ k = .unicode)
    (len : Nat) : validValue k len (.str name) := by
  have : (∀ c ∈ name, c < 128) ∧ name.getLast? ≠ some 0 := by cases p <;> first | (cases h; decide) | cases h
  rcases hk with rfl | rfl
  · exact this
  · refine ⟨fun c hc => .inl ?_, this.2⟩
    have := this.1 c hc
    omega

omit [FloatEnv] in
theorem textKind_or {before : List Event} {k : Kind} (h : textKind before = some k) : k = .ascii ∨ k = .unicode := by
  unfold textKind at h
  split at h
  · cases h
  · split at h
    · cases h
    · injection h with h
      split at h
      · exact .inr h.symm
      · exact .inl h.symm

omit [FloatEnv] in
theorem refs_root {w : World} {L : Nat → Prop} (r : WReach w L) {t : Nat} (ht : L t) {x : Nat} (hx : x ∈ w.refs t) : x ∈ w.refs 0 := by
  rw [World.refs_eq] at hx ⊢
  obtain ⟨y, hy, rfl⟩ := List.mem_map.1 hx
  exact List.mem_map.2 ⟨y, (wreach_sub r ht).1.mem hy, rfl⟩

/-- C91, in the file: a plugin with a class, data and a wrapper is assigned to a channel or slot of the same project which has its
own internal name.  The project then has the data and the wrapper of the plugin and its name in place of those of the channel, is
otherwise unchanged, and a file saved from it is read as these events: the data in the format of the plugin.
Missing: as for `C91_set_partial`, and names shared with the data of other models. -/
theorem C91_saved_partial {w : World} {L : Nat → Prop} (r : WReach w L) (hst : Storable w) {t u : Nat} (ht : L t) (hu : L u)
    {p : PluginType} {ed ew : Event} (hd : (w.events u).find? (fun e => e.id == 213) = some ed)
    (hw : (w.events u).find? (fun e => e.id == 212) = some ew) {name : PStr} (hname : p.internalName = some name)
    (hown : OwnName w t) (hk : ed.kind = p.kind) :
    ∃ w' n, w.setPlugin t (p, u) = (w', .ok ()) ∧ IsFirst w t n ∧ (w.ev n).id = 201 ∧
      w'.project = { w.project with events := (w.refs 0).map (withPlugin w t n ed ew name) } ∧
      ∀ file, saveBytes w'.project = .ok file → ReadBack w' file := by
  obtain ⟨n, n1, n2, n3⟩ := hown
  have hnt : n ∈ w.refs t := by obtain ⟨a, b, h, _⟩ := n1; rw [h]; simp
  have hnv : (valueOf (w.events t) 201).isSome := by
    rcases first_find r ht 201 with ⟨x, _, f2, _, _⟩ | ⟨_, f2⟩
    · unfold valueOf; rw [f2]; rfl
    · exfalso
      have := List.find?_eq_none.1 f2 (w.ev n) (List.mem_map.2 ⟨n, hnt, rfl⟩)
      simp [n2] at this
  obtain ⟨w1, w', d, wr, s1, s2, s3, s4, s5, s6, s7, s8, -⟩ := C91_set_partial r ht hu hd hw (.inr hnv)
  obtain ⟨n', f1, f2, f3⟩ := (s7 name hname).only
  have hnn : n' = n := by
    obtain ⟨a, b, h1, h2⟩ := n1
    obtain ⟨a', b', h1', h2'⟩ := f1
    rw [h1] at h1'
    rcases List.append_eq_append_iff.1 h1' with ⟨c, c1, c2⟩ | ⟨c, c1, c2⟩
    · cases c with
      | nil => simp only [List.nil_append, List.cons.injEq] at c2; exact c2.1.symm
      | cons y c =>
        simp only [List.cons_append, List.cons.injEq] at c2
        exact absurd (n2.trans f2.symm) (h2' n (by rw [c1, ← c2.1]; simp))
    · cases c with
      | nil => simp only [List.nil_append, List.cons.injEq] at c2; exact c2.1
      | cons y c =>
        simp only [List.cons_append, List.cons.injEq] at c2
        exact absurd (f2.trans n2.symm) (h2 n' (by rw [c1, ← c2.1]; simp))
  subst hnn
  have hdid : ed.id = 213 := by simpa using List.find?_some hd
  have hwid : ew.id = 212 := by simpa using List.find?_some hw
  have hlt : n' < w.store.length := by
    obtain ⟨a, ha, hr⟩ := List.mem_map.1 hnt
    rw [← hr]
    exact (events_shown r ht ((w.heap.cell a).ref, (w.heap.cell a).id) (List.mem_map.2 ⟨a, ha, rfl⟩)).1
  have hev1 : ∀ x, w1.ev x = if x = n' then { w.ev x with value := .str name } else w.ev x := by
    intro x
    rw [f3, World.ev_setEv]
    by_cases hx : x = n'
    · rw [if_pos ⟨hx, hlt⟩, if_pos hx, hx]
    · rw [if_neg (fun h => hx h.1), if_neg hx]
  have hid1 : ∀ x, (w1.ev x).id = (w.ev x).id := fun x => by rw [hev1]; split <;> rfl
  have hrefs1 : ∀ v, w1.refs v = w.refs v := fun v => by rw [f3]; rfl
  have hev' : ∀ x, w'.ev x = w1.ev x := fun x => by unfold World.ev; rw [s8.store]
  have hL0 : L 0 := (reach_good (wreach_inv r).1).1.vρ
  let g : Nat → Event := withPlugin w t n' ed ew name
  have hevs : w'.project.events = (w.refs 0).map g := by
    show (w'.refs 0).map w'.ev = _
    rw [s8.refs 0 hL0, List.map_map, hrefs1, hrefs1]
    apply List.map_congr_left
    intro x _
    simp only [Function.comp, hid1, hrefs1, hev', g, withPlugin]
    by_cases h1 : x ∈ w.refs t ∧ (w.ev x).id = 213
    · rw [if_pos h1, if_pos h1, hev1, if_neg (fun h => by rw [h] at s3; rw [← s3, n2] at hdid; cases hdid), s3]
    · rw [if_neg h1, if_neg h1]
      by_cases h2 : x ∈ w.refs t ∧ (w.ev x).id = 212
      · rw [if_pos h2, if_pos h2, hev1, if_neg (fun h => by rw [h] at s5; rw [← s5, n2] at hwid; cases hwid), s5]
      · rw [if_neg h2, if_neg h2, hev1]
  have hproj : w'.project = { w.project with events := (w.refs 0).map g } := by
    have hh := s8.header
    have h1 : w1.format = w.format ∧ w1.channelCount = w.channelCount ∧ w1.ppq = w.ppq := by rw [f3]; exact ⟨rfl, rfl, rfl⟩
    rw [← hevs]
    unfold World.project
    rw [hh.1, hh.2.1, hh.2.2, h1.1, h1.2.1, h1.2.2]
  refine ⟨w', n', s1, n1, n2, hproj, fun file hf => storable_saved ?_ hf⟩
  have hgid : ∀ x, (g x).id = (w.ev x).id := by
    intro x
    simp only [g, withPlugin]
    split
    · next h => rw [hdid, h.2]
    · split
      · next h => rw [hwid, h.2]
      · split <;> rfl
  have hother : ∀ x, x ≠ n' → (w.ev x).id ≠ 213 → (w.ev x).id ≠ 212 → g x = w.ev x := by
    intro x h1 h2 h3
    simp only [g, withPlugin]
    rw [if_neg (fun h => h2 h.2), if_neg (fun h => h3 h.2), if_neg h1]
  have hgn : g n' = { w.ev n' with value := .str name } := by
    simp only [g, withPlugin]
    rw [if_neg (fun h => by rw [n2] at h; cases h.2), if_neg (fun h => by rw [n2] at h; cases h.2), if_pos trivial]
  have hst0 : ∀ x ∈ w.refs 0, w.ev x ∈ w.project.events := fun x hx => List.mem_map.2 ⟨x, hx, rfl⟩
  obtain ⟨k212, hk212⟩ : ∃ k, enumType enums 212 = some k := ⟨_, rfl⟩
  have hk12 : ∀ x ∈ w.refs 0, (w.ev x).id = 212 → (w.ev x).kind = k212 := fun x hx h =>
    storable_kind hst (hst0 x hx) (by rw [h]; exact hk212)
  have hdm : ed ∈ w.project.events := s3 ▸ hst0 d (refs_root r hu s2)
  have hwm : ew ∈ w.project.events := s5 ▸ hst0 wr (refs_root r hu s4)
  have hnodup := (wreach_sub r hL0).2
  refine ⟨by rw [show w'.format = w'.project.format from rfl, hproj]; exact hst.format,
    by rw [show w'.ppq = w'.project.ppq from rfl, hproj]; exact hst.ppq, ?_, ?_⟩
  · rw [hevs]
    refine wellTyped_map (f := w.ev) hst.typed hgid (fun y _ hy => ?_) (fun y hy0 hy => ?_) fun pre x post hx hx213 => ?_
    · rw [hother y (fun h => by rw [h, n2] at hy; cases hy) (by rw [hy]; decide) (by rw [hy]; decide)]
    · by_cases h2 : (w.ev y).id = 212
      · simp only [g, withPlugin]
        rw [if_neg (fun h => hy h.2)]
        split
        · rw [← s5, hk12 y hy0 h2, hk12 wr (refs_root r hu s4) (s5 ▸ hwid)]
        · split <;> rfl
      · by_cases h3 : y = n'
        · rw [h3, hgn]
        · rw [hother y h3 hy h2]
    · have hx0 : x ∈ w.refs 0 := by rw [hx]; simp
      have hnx := n3 x hx0 hx213
      have huniq : ∀ a m b c, w.refs 0 = a ++ m :: (b ++ x :: c) → pre = a ++ m :: b := by
        intro a m b c habc
        rw [hx] at hnodup
        have h := hx.symm.trans (habc.trans (show a ++ m :: (b ++ x :: c) = (a ++ m :: b) ++ x :: c by simp))
        have hnx' : x ∉ pre := fun hc => (List.nodup_append.1 hnodup).2.2 x hc x (by simp) rfl
        have hnx'' : x ∉ a ++ m :: b := by
          rw [h] at hnodup
          exact fun hc => (List.nodup_append.1 hnodup).2.2 x hc x (by simp) rfl
        rcases List.append_eq_append_iff.1 h with ⟨c', c1, c2⟩ | ⟨c', c1, c2⟩
        · cases c' with
          | nil => simpa using c1.symm
          | cons y c' =>
            simp only [List.cons_append, List.cons.injEq] at c2
            exact absurd (by rw [c1, ← c2.1]; simp) hnx''
        · cases c' with
          | nil => simpa using c1
          | cons y c' =>
            simp only [List.cons_append, List.cons.injEq] at c2
            exact absurd (by rw [c1, ← c2.1]; simp) hnx'
      have hold := (hst.typed (pre.map w.ev) (w.ev x) (post.map w.ev) (by
        show (w.refs 0).map w.ev = _
        rw [hx]; simp)).2.1
      rw [hx213] at hold
      unfold kindOf at hold
      rw [enum_213] at hold
      have hold : pluginKind (pre.map w.ev) = (w.ev x).kind := Option.some.inj hold
      by_cases hxt : x ∈ w.refs t
      · obtain ⟨a, b, c, q1, q2, q3⟩ := hnx.1 hxt
        have hpre := huniq _ _ _ _ q1
        have hgx : g x = ed := by simp only [g, withPlugin]; rw [if_pos ⟨hxt, hx213⟩]
        rw [hgx, hk, ← name_kind p name hname]
        have hls : lastStr 201 (pre.map g) = some name := by
          rcases last_name (f := w.ev) pre with ⟨a', m, b', z1, z2, z3, z4⟩ | z
          · rw [z4 g hgid]
            have : m = n' := by
              rw [hpre] at z1
              rcases List.append_eq_append_iff.1 z1 with ⟨c', c1, c2⟩ | ⟨c', c1, c2⟩
              · cases c' with
                | nil => simp only [List.nil_append, List.cons.injEq] at c2; exact c2.1.symm
                | cons y c' =>
                  simp only [List.cons_append, List.cons.injEq] at c2
                  exact absurd z2 (q3 m (by rw [c2.2]; simp))
              · cases c' with
                | nil => simp only [List.nil_append, List.cons.injEq] at c2; exact c2.1
                | cons y c' =>
                  simp only [List.cons_append, List.cons.injEq] at c2
                  exact absurd q2 (z3 n' (by rw [c2.2]; simp))
            rw [this, hgn]
            rfl
          · exfalso
            exact z.1 n' (by rw [hpre]; simp) n2
        unfold pluginKind
        rw [hls]
      · have hgx : g x = w.ev x := by
          simp only [g, withPlugin]
          rw [if_neg (fun h => hxt h.1), if_neg (fun h => hxt h.1), if_neg (fun h : x = n' => hxt (h ▸ hnt))]
        rw [hgx, ← hold]
        unfold pluginKind
        have : lastStr 201 (pre.map g) = lastStr 201 (pre.map w.ev) := by
          rcases last_name (f := w.ev) pre with ⟨a', m, b', z1, z2, z3, z4⟩ | z
          · rw [z4 g hgid, z4 w.ev fun _ => rfl]
            rw [hother m ?_ (by rw [z2]; decide) (by rw [z2]; decide)]
            intro hm
            refine hxt (hnx.2 ⟨a', b', post, ?_, n2, z3⟩)
            rw [hx, z1, hm]
            simp
          · rw [z.2 g hgid, z.2 w.ev fun _ => rfl]
        rw [this]
  · rw [hevs]
    intro e he
    obtain ⟨x, hx, rfl⟩ := List.mem_map.1 he
    simp only [g, withPlugin]
    split
    · exact hst.valid _ hdm
    · split
      · exact hst.valid _ hwm
      · split
        · next h =>
          subst h
          refine name_valid p name hname _ ?_ _
          obtain ⟨pre, post, hsp⟩ := List.append_of_mem hx
          have := (hst.typed (pre.map w.ev) (w.ev x) (post.map w.ev) (by
            show (w.refs 0).map w.ev = _
            rw [hsp]; simp)).2.1
          rw [n2] at this
          unfold kindOf at this
          rw [show enumType enums 201 = none from by decide +kernel] at this
          exact textKind_or this
        · exact hst.valid _ (hst0 x hx)

/-- The hypotheses of `C91_saved_partial` can be met: BooBass assigned to a channel with another plugin. -/
example : ∃ w L, WReach w L ∧ Storable w ∧ L 1 ∧ L 2 ∧ OwnName w 2 ∧
    ((w.events 1).find? (fun e => e.id == 213)).map Event.kind = some PluginType.booBass.kind ∧
    ((w.events 1).find? (fun e => e.id == 212)).isSome := by
  refine ⟨Demo.pluginWorld.1, _, Demo.pluginWorld_reach, ⟨by decide, by decide, ?_, ?_⟩, by simp, by simp, ?_, by decide +kernel,
    by decide +kernel⟩
  · exact Demo.wellTyped_of (by decide +kernel)
  · intro e he
    have he : e ∈ Demo.plugins.events := he
    simp only [Demo.plugins, List.mem_cons, List.not_mem_nil, or_false] at he
    rcases he with rfl | rfl | rfl | rfl | rfl | rfl | rfl | rfl | rfl
    · exact ⟨by decide, by decide⟩
    · exact ⟨_, rfl, rfl⟩
    · exact ⟨by simp [PStr.lit, isScalar], by decide⟩
    · exact ⟨rfl, rfl, by simp, rfl, rfl, rfl, rfl, rfl, rfl, rfl, rfl, rfl, rfl, rfl, rfl, rfl⟩
    · exact ⟨rfl, rfl, rfl, by simp, rfl, rfl, by simp [PyFLP.u32], rfl, rfl, by simp [PyFLP.u32], rfl, rfl,
        by simp, trivial⟩
    · exact ⟨_, rfl, rfl⟩
    · exact ⟨by simp [PStr.lit, isScalar], by decide⟩
    · exact ⟨rfl, rfl, by simp, rfl, rfl, rfl, rfl, rfl, rfl, rfl, rfl, rfl, rfl, rfl, rfl, rfl⟩
    · trivial
  · refine ⟨6, ⟨[5], [7, 8], by decide +kernel, by decide +kernel⟩, by decide +kernel, ?_⟩
    unfold NamedBy
    rw [show Demo.pluginWorld.1.refs 0 = [0, 1, 2, 3, 4, 5, 6, 7, 8] by decide +kernel,
      show Demo.pluginWorld.1.refs 2 = [5, 6, 7, 8] by decide +kernel]
    intro x hx h213
    have h : x = 4 ∨ x = 8 := by
      revert x
      decide +kernel
    rcases h with rfl | rfl
    · refine ⟨fun h => absurd h (by decide), ?_⟩
      rintro ⟨pre, mid, post, h, _⟩
      exfalso
      have : [6, 4].Sublist [0, 1, 2, 3, 4, 5, 6, 7, 8] := by
        rw [h]
        exact (List.Sublist.cons_cons 6 ((List.singleton_sublist.2 (by simp)))).trans (List.sublist_append_right _ _)
      exact absurd this (by decide)
    · exact ⟨fun _ => ⟨[0, 1, 2, 3, 4, 5], [7], [], by decide +kernel, by decide +kernel, by decide +kernel⟩, fun _ => by decide⟩

end PyFLP
