import Verif.Playlist
import Verif.Props.Items
import Verif.Props.MixerParams
/-!
# Playlist items, loop position, number of tracks (C67 – C71)
-/

namespace PyFLP

open Spec

namespace Spec

/-- Position of the last occurrence. -/
def LastAt (l : List Int) (x : Int) (k : Nat) : Prop := l[k]? = some x ∧ ∀ k' : Nat, k < k' → l[k']? ≠ some x

/-- What the record stands for: the (last) channel with this `iid` if `item_index` is at most `pattern_base`, otherwise
the (last) pattern whose `iid` is the difference. -/
def Stands (channels patterns : List Int) (r : Rec) : PLTarget → Prop
  | .channel c => r.int "item_index" ≤ r.int "pattern_base" ∧ LastAt channels (r.int "item_index") c
  | .pattern p => r.int "pattern_base" < r.int "item_index" ∧ LastAt patterns (r.int "item_index" - r.int "pattern_base") p

/-- Version 12.9.1 or later. -/
def From1291 (v : FLVersion) : Prop := fromVersion3 v.major v.minor v.patch
where
  /-- `12.9.1 ≤ a.b.c` -/
  fromVersion3 (a b c : Int) : Prop := 12 < a ∨ (a = 12 ∧ (9 < b ∨ (b = 9 ∧ 1 ≤ c)))

instance (v : FLVersion) : Decidable (From1291 v) := by unfold From1291 From1291.fromVersion3; infer_instance

/-- 12.9.1 with a build number: cannot be compared with 12.9.1. -/
def Is1291Build (v : FLVersion) : Prop := v.major = 12 ∧ v.minor = 9 ∧ v.patch = 1 ∧ v.build ≠ none

end Spec

/-! ### C71 -/

theorem le1291 {v : FLVersion} (h : ¬ Is1291Build v) :
    (⟨12, 9, 1, none⟩ : FLVersion).le v = .ok (decide (From1291 v)) := by
  unfold Is1291Build at h
  unfold FLVersion.le FLVersion.lt
  obtain ⟨a, b, c, d⟩ := v
  dsimp only at h ⊢
  by_cases he : (⟨12, 9, 1, none⟩ : FLVersion) = ⟨a, b, c, d⟩
  · rw [if_pos he]
    cases he
    rfl
  · rw [if_neg he]
    by_cases ha : (12 : Int) = a
    · subst ha
      by_cases hb : (9 : Int) = b
      · subst hb
        by_cases hc : (1 : Int) = c
        · subst hc
          cases d with
          | none => exact absurd rfl he
          | some d => exact absurd ⟨rfl, rfl, rfl, by simp⟩ h
        · rw [if_neg (by simp), if_neg (by simp), if_pos hc]
          congr 1
          rw [Bool.eq_iff_iff, decide_eq_true_iff, decide_eq_true_iff]
          unfold From1291 From1291.fromVersion3
          dsimp only
          omega
      · rw [if_neg (by simp), if_pos hb]
        congr 1
        rw [Bool.eq_iff_iff, decide_eq_true_iff, decide_eq_true_iff]
        unfold From1291 From1291.fromVersion3
        dsimp only
        omega
    · rw [if_pos ha]
      congr 1
      rw [Bool.eq_iff_iff, decide_eq_true_iff, decide_eq_true_iff]
      unfold From1291 From1291.fromVersion3
      dsimp only
      omega

/-- C71 for all versions other than 12.9.1 with a build number: 500 from 12.9.1 on, 199 before. -/
theorem C71_max_tracks_partial {v : FLVersion} (h : ¬ Is1291Build v) :
    maxTracks v = .ok (if From1291 v then 500 else 199) := by
  unfold maxTracks
  rw [le1291 h]
  by_cases hd : From1291 v <;> simp [hd]

/-- C71 is false for every build of 12.9.1: `max_tracks` raises `TypeError`, and so does iterating over tracks. -/
theorem C71_max_tracks_refuted (b : Int) : maxTracks ⟨12, 9, 1, some b⟩ = .error .typeError ∧
    ∀ (s : ListObj) channels patterns n, s.tracks ⟨12, 9, 1, some b⟩ channels patterns n = .error .typeError := by
  have h : (⟨12, 9, 1, none⟩ : FLVersion).le ⟨12, 9, 1, some b⟩ = .error .typeError := rfl
  refine ⟨by unfold maxTracks; rw [h], fun s channels patterns n => ?_⟩
  unfold ListObj.tracks maxTrackIdx
  rw [h]

example : ¬ Is1291Build ⟨20, 8, 4, some 2576⟩ ∧ maxTracks ⟨20, 8, 4, some 2576⟩ = .ok 500 ∧
    ¬ Is1291Build ⟨12, 9, 0, some 5⟩ ∧ maxTracks ⟨12, 9, 0, some 5⟩ = .ok 199 := by
  refine ⟨fun h => absurd h.1 (by decide), by decide, fun h => absurd h.2.2.1 (by decide), by decide⟩

/-! ### C67 -/

theorem byIid_fold (l : List Int) (x : Int) : ∀ (n : Nat) (d : List (Int × Nat)),
    (∃ k, LastAt l x k ∧ dictGet x ((l.zipIdx n).foldl (fun d x => dictPut x.1 x.2 d) d) = some (n + k)) ∨
    (x ∉ l ∧ dictGet x ((l.zipIdx n).foldl (fun d x => dictPut x.1 x.2 d) d) = dictGet x d) := by
  induction l with
  | nil => intro n d; exact .inr ⟨by simp, rfl⟩
  | cons a l ih =>
    intro n d
    rw [List.zipIdx_cons, List.foldl_cons]
    rcases ih (n + 1) (dictPut a n d) with ⟨k, ⟨g1, g2⟩, g3⟩ | ⟨g1, g2⟩
    · refine .inl ⟨k + 1, ⟨by simpa using g1, ?_⟩, by rw [g3]; congr 1; omega⟩
      intro k' hk
      cases k' with
      | zero => omega
      | succ k' => simpa using g2 k' (by omega)
    · rw [g2, dictGet_put]
      by_cases h : a = x
      · rw [if_pos h]
        refine .inl ⟨0, ⟨by simp [h], ?_⟩, by simp⟩
        intro k' hk hc
        cases k' with
        | zero => omega
        | succ k' => exact g1 (List.mem_of_getElem? (by simpa using hc))
      · rw [if_neg h]
        exact .inr ⟨by simp [g1, Ne.symm h], rfl⟩

theorem byIid_spec (l : List Int) (x : Int) :
    (∃ k, LastAt l x k ∧ dictGet x (byIid l) = some k) ∨ (x ∉ l ∧ dictGet x (byIid l) = none) := by
  rcases byIid_fold l x 0 [] with ⟨k, g1, g2⟩ | ⟨g1, g2⟩
  · exact .inl ⟨k, g1, by unfold byIid; rw [g2]; congr 1; omega⟩
  · exact .inr ⟨g1, g2⟩

theorem lastAt_unique {l : List Int} {x : Int} {k k' : Nat} (h : LastAt l x k) (h' : LastAt l x k') : k = k' := by
  rcases Nat.lt_trichotomy k k' with hlt | rfl | hlt
  · exact absurd h'.1 (h.2 k' hlt)
  · rfl
  · exact absurd h.1 (h'.2 k hlt)

theorem byIid_last {l : List Int} {x : Int} {k : Nat} (h : LastAt l x k) : dictGet x (byIid l) = some k := by
  rcases byIid_spec l x with ⟨k', g1, g2⟩ | ⟨g1, _⟩
  · rw [g2, lastAt_unique h g1]
  · exact absurd (List.mem_of_getElem? h.1) g1

theorem target_stands {s : ListObj} {it : Item} {channels patterns : List Int} {tgt : PLTarget}
    (h : Stands channels patterns (s.objs.getD it.ref []) tgt) :
    s.plTarget it (byIid channels) (byIid patterns) = .ok tgt := by
  unfold ListObj.plTarget ListObj.field
  cases tgt with
  | channel c =>
    obtain ⟨h1, h2⟩ := h
    rw [if_pos h1, byIid_last h2]
  | pattern p =>
    obtain ⟨h1, h2⟩ := h
    rw [if_neg (by omega), byIid_last h2]

theorem trackItems_spec (s : ListObj) (m : Int) (channels patterns : List Int) (track : Nat) (its : List Item)
    (h : ∀ it ∈ its, ∃ tgt, Stands channels patterns (s.objs.getD it.ref []) tgt) :
    ∃ l, s.trackItems m (byIid channels) (byIid patterns) track its = .ok l ∧
      l.map PLItem.item = its.filter (fun it => decide (m - (s.objs.getD it.ref []).int "track_rvidx" = track)) ∧
      ∀ x ∈ l, Stands channels patterns (s.objs.getD x.item.ref []) x.target := by
  induction its with
  | nil => exact ⟨[], rfl, rfl, by simp⟩
  | cons it its ih =>
    obtain ⟨l, h1, h2, h3⟩ := ih (fun x hx => h x (by simp [hx]))
    obtain ⟨tgt, ht⟩ := h it (by simp)
    unfold ListObj.trackItems
    by_cases hk : m - s.field it "track_rvidx" = track
    · rw [if_neg (by simpa using hk), target_stands ht, h1]
      refine ⟨⟨it, tgt⟩ :: l, rfl, ?_, ?_⟩
      · rw [List.map_cons, List.filter_cons, if_pos (by simpa [ListObj.field] using hk), h2]
      · intro x hx
        rcases List.mem_cons.1 hx with rfl | hx
        · exact ht
        · exact h3 x hx
    · rw [if_pos hk, h1]
      refine ⟨l, rfl, ?_, h3⟩
      rw [List.filter_cons, if_neg (by simpa [ListObj.field] using hk), h2]

theorem tracksFrom_spec (s : ListObj) (m : Int) (channels patterns : List Int)
    (h : ∀ it ∈ s.items, ∃ tgt, Stands channels patterns (s.objs.getD it.ref []) tgt) :
    ∀ n k, ∃ ts, s.tracksFrom m (byIid channels) (byIid patterns) k n = .ok ts ∧ ts.length = n ∧
      ∀ (j : Nat) (l : List PLItem), ts[j]? = some l →
        l.map PLItem.item = s.items.filter
          (fun it => decide (m - (s.objs.getD it.ref []).int "track_rvidx" = ((k + j : Nat) : Int))) ∧
        ∀ x ∈ l, Stands channels patterns (s.objs.getD x.item.ref []) x.target := by
  intro n
  induction n with
  | zero => intro k; exact ⟨[], rfl, rfl, by simp⟩
  | succ n ih =>
    intro k
    obtain ⟨ts, h1, h2, h3⟩ := ih (k + 1)
    obtain ⟨l, g1, g2, g3⟩ := trackItems_spec s m channels patterns k s.items h
    unfold ListObj.tracksFrom
    rw [g1, h1]
    refine ⟨l :: ts, rfl, by simp [h2], ?_⟩
    intro j l' hj
    cases j with
    | zero =>
      have : l = l' := by simpa using hj
      subst this
      exact ⟨g2, g3⟩
    | succ j =>
      have := h3 j l' (by simpa using hj)
      rw [show k + 1 + j = k + (j + 1) by omega] at this
      exact this

theorem count_filter_range {j n : Nat} (h : j < n) (q : Nat → Bool) :
    ((List.range n).filter q).count j = if q j then 1 else 0 := by
  by_cases hq : q j = true
  · rw [if_pos hq, List.count_filter hq, List.count_eq_length_filter]
    have : ∀ n, j < n → ((List.range n).filter fun x => x == j).length = 1 := by
      intro n
      induction n with
      | zero => intro h; omega
      | succ n ih =>
        intro h
        rw [List.range_succ, List.filter_append, List.length_append]
        by_cases hn : j < n
        · rw [ih hn]
          have : ¬ n = j := by omega
          simp [this]
        · have hj : j = n := by omega
          subst hj
          rw [List.filter_eq_nil_iff.2]
          · simp
          · intro a ha
            have := List.mem_range.1 ha
            simp only [beq_iff_eq]
            omega
    exact this n h
  · rw [if_neg hq, List.count_eq_zero]
    intro hm
    exact hq (List.mem_filter.1 hm).2

/-- In a reachable state items and records are in the same order. -/
theorem ireach_items {l : List Rec} {s : ListObj} {hs : List Item} {es : List Edit} (r : IReach l s hs es) :
    s.items = (List.range s.value.length).map (fun j => ⟨j, j⟩) ∧ s.value = s.objs := by
  obtain ⟨h1, h2, _⟩ := ireach_inv r
  have hv : s.value = s.objs := by rw [ireach_value r, h1]
  refine ⟨?_, hv⟩
  unfold ListObj.items
  have hl : s.value.length = l.length := by rw [ireach_value r, applyEdits_length]
  rw [h2, hl]
  apply List.ext_getElem
  · simp
  · intro i i1 i2
    simp

/-- C67, if every record stands for an existing channel or pattern and the version is not a build of 12.9.1: after any
edits, the track at position `k` has exactly the items of the records with `track_rvidx = max_tracks - 1 - k`, in their
order, each for the right channel or pattern; a record is on exactly one track if this number is one of the tracks, else
on none. -/
theorem C67_tracks_partial {l : List Rec} {s : ListObj} {hs : List Item} {es : List Edit} (r : IReach l s hs es)
    {v : FLVersion} (hv : ¬ Is1291Build v) {channels patterns : List Int}
    (hx : ∀ rec ∈ s.value, ∃ tgt, Stands channels patterns rec tgt) (n : Nat) :
    ∃ ts, s.tracks v channels patterns n = .ok ts ∧ ts.length = n ∧
      (∀ (k : Nat) (items : List PLItem), ts[k]? = some items →
        items.map (fun x => x.item.index) = (List.range s.value.length).filter (fun j =>
          decide ((s.value.getD j []).int "track_rvidx" = (if From1291 v then 500 else 199) - 1 - (k : Int))) ∧
        ∀ x ∈ items, Stands channels patterns (s.value.getD x.item.index []) x.target ∧
          ∀ key, s.get x.item key = match Rec.lookup (s.value.getD x.item.index []) key with
            | some y => .ok y | none => .error .keyError) ∧
      ∀ (j : Nat) (rec : Rec), s.value[j]? = some rec →
        (ts.flatMap fun items => items.map fun x => x.item.index).count j =
          let k := (if From1291 v then 500 else 199) - 1 - rec.int "track_rvidx"
          if 0 ≤ k ∧ k < n then 1 else 0 := by
  obtain ⟨hi, ho⟩ := ireach_items r
  have hm : maxTrackIdx v = .ok ((if From1291 v then 500 else 199) - 1) := by
    unfold maxTrackIdx
    rw [le1291 hv]
    by_cases hd : From1291 v <;> simp [hd]
  generalize (if From1291 v then (500 : Int) else 199) - 1 = m at hm ⊢
  have hst : ∀ it ∈ s.items, ∃ tgt, Stands channels patterns (s.objs.getD it.ref []) tgt := by
    intro it hit
    rw [hi] at hit
    obtain ⟨j, hj, rfl⟩ := List.mem_map.1 hit
    rw [List.mem_range] at hj
    apply hx
    rw [← ho, List.getD_eq_getElem?_getD, List.getElem?_eq_getElem hj]
    exact List.getElem_mem _
  obtain ⟨ts, h1, h2, h3⟩ := tracksFrom_spec s m channels patterns hst n 0
  have hidx : ∀ (k : Nat) (items : List PLItem), ts[k]? = some items →
      items.map (fun x => x.item.index) = (List.range s.value.length).filter (fun j =>
          decide ((s.value.getD j []).int "track_rvidx" = m - (k : Int))) := by
    intro k items hk
    have := congrArg (List.map Item.index) (h3 k items hk).1
    rw [List.map_map] at this
    rw [show (fun x : PLItem => x.item.index) = Item.index ∘ PLItem.item from rfl, this, hi, List.filter_map, List.map_map]
    rw [show (Item.index ∘ fun j : Nat => (⟨j, j⟩ : Item)) = id from rfl, List.map_id]
    apply List.filter_congr
    intro j _
    rw [← ho, Bool.eq_iff_iff]
    simp only [Function.comp_apply, decide_eq_true_eq]
    omega
  refine ⟨ts, ?_, h2, ?_, ?_⟩
  · unfold ListObj.tracks
    rw [hm]
    exact h1
  · intro k items hk
    refine ⟨hidx k items hk, ?_⟩
    intro x hxm
    have hmem : x.item ∈ s.items := by
      have : x.item ∈ items.map PLItem.item := List.mem_map.2 ⟨x, hxm, rfl⟩
      rw [(h3 k items hk).1] at this
      exact (List.mem_filter.1 this).1
    rw [hi] at hmem
    obtain ⟨j, _, hj⟩ := List.mem_map.1 hmem
    have hs := (h3 k items hk).2 x hxm
    rw [← hj] at hs ⊢
    rw [ho]
    exact ⟨hs, fun key => rfl⟩
  · intro j rec hj
    have hlt : j < s.value.length := (List.getElem?_eq_some_iff.1 hj).1
    have hcount : ∀ (k : Nat) (items : List PLItem), ts[k]? = some items →
        (items.map fun x => x.item.index).count j = if rec.int "track_rvidx" = m - (k : Int) then 1 else 0 := by
      intro k items hk
      rw [hidx k items hk, count_filter_range hlt]
      simp only [List.getD_eq_getElem?_getD, hj, Option.getD_some]
      by_cases hc : rec.int "track_rvidx" = m - (k : Int) <;> simp [hc]
    have hall : ∀ (ts' : List (List PLItem)) (a : Nat), (∀ (k : Nat) (items : List PLItem), ts'[k]? = some items →
        (items.map fun x => x.item.index).count j = if rec.int "track_rvidx" = m - ((a + k : Nat) : Int) then 1 else 0) →
        (ts'.flatMap fun items => items.map fun x => x.item.index).count j =
          if (a : Int) ≤ m - rec.int "track_rvidx" ∧ m - rec.int "track_rvidx" < ((a + ts'.length : Nat) : Int) then 1 else 0 := by
      intro ts'
      induction ts' with
      | nil =>
        intro a _
        rw [if_neg (by simp only [List.length_nil]; omega)]
        rfl
      | cons t ts' ih =>
        intro a hk
        rw [List.flatMap_cons, List.count_append, ih (a + 1), hk 0 t (by simp)]
        · simp only [List.length_cons]
          by_cases hc : rec.int "track_rvidx" = m - ((a + 0 : Nat) : Int)
          · rw [if_pos hc, if_neg (by omega), if_pos (by omega)]
          · rw [if_neg hc, Nat.zero_add]
            congr 1
            apply propext
            omega
        · intro k items hki
          rw [hk (k + 1) items (by simpa using hki), show a + (k + 1) = a + 1 + k by omega]
    have := hall ts 0 (by simpa using hcount)
    rw [this, h2]
    simp only [Nat.zero_add]
    rfl

namespace Demo

def plClip (index base rv : Int) : Rec := [("position", some (.int 0)), ("pattern_base", some (.int base)),
  ("item_index", some (.int index)), ("length", some (.int 96)), ("track_rvidx", some (.int rv)), ("group", some (.int 0)),
  ("_u1", some (.bytes [120, 0])), ("item_flags", some (.int 64)), ("_u2", some (.bytes [64, 100, 128, 128])),
  ("start_offset", some (.f32 0)), ("end_offset", some (.f32 0)), ("_u3", none)]

/-- Pattern 1 on track 0, channel 3 on track 1, pattern 2 on track 0. -/
def plClips : List Rec := [plClip 20481 20480 499, plClip 3 20480 498, plClip 20482 20480 499]

end Demo

open Demo in
example : IReach plClips (.parse plClips) [] [] ∧ (∀ rec ∈ plClips, ∃ tgt, Stands [0, 3] [1, 2] rec tgt) ∧
    (ListObj.parse plClips).tracks ⟨20, 8, 4, some 1⟩ [0, 3] [1, 2] 3 =
      .ok [[⟨⟨0, 0⟩, .pattern 0⟩, ⟨⟨2, 2⟩, .pattern 1⟩], [⟨⟨1, 1⟩, .channel 1⟩], []] := by
  refine ⟨.parsed, ?_, by decide +kernel⟩
  have last : ∀ (l : List Int) (x : Int) (k : Nat), l[k]? = some x → l.length = k + 1 → LastAt l x k := by
    intro l x k h1 h2
    refine ⟨h1, fun k' hk => ?_⟩
    rw [List.getElem?_eq_none (by omega)]
    simp
  intro rec hr
  simp only [plClips, List.mem_cons, List.not_mem_nil, or_false] at hr
  rcases hr with rfl | rfl | rfl
  · refine ⟨.pattern 0, by decide, by decide, ?_⟩
    intro k' hk
    match k', hk with
    | 1, _ => decide
    | k + 2, _ => simp
  · exact ⟨.channel 1, by decide, last _ _ _ (by decide) (by decide)⟩
  · exact ⟨.pattern 1, by decide, last _ _ _ (by decide) (by decide)⟩

/-- C67 is false if a record stands for no channel: `KeyError` is raised and no track can be had, not even those without
the record. -/
theorem C67_tracks_refuted : ∃ l : List Rec, IReach l (.parse l) [] [] ∧
    (ListObj.parse l).tracks ⟨20, 8, 4, some 1⟩ [0] [1] 500 = .error .keyError ∧
    (ListObj.parse (l.take 1)).tracks ⟨20, 8, 4, some 1⟩ [0] [1] 2 = .ok [[⟨⟨0, 0⟩, .pattern 0⟩], []] :=
  ⟨[Demo.plClip 20481 20480 499, Demo.plClip 7 20480 497], .parsed, by decide +kernel, by decide +kernel⟩

/-! ### C68 -/

theorem int_put_self (r : Rec) (key : String) (i : Int) : (Rec.put r key (some (.int i))).int key = i := by
  unfold Rec.int
  rw [(lookup_put r key (some (.int i))).1]

/-- After an assignment to an integer field through an item of a reachable state. -/
theorem set_field {l : List Rec} {s : ListObj} {hs : List Item} {es : List Edit} (r : IReach l s hs es) {it : Item}
    (hm : it ∈ hs) (key : String) (i : Int) :
    ∃ s', s.set it key (some (.int i)) = (s', .ok ()) ∧
      s'.value = s.value.modify it.index (fun r => Rec.put r key (some (.int i))) ∧
      s'.field it key = i ∧ ∀ key', key' ≠ key → s'.field it key' = s.field it key' := by
  obtain ⟨s', h1, h2, h3, h4⟩ := C40_edit_step r hm key (some (.int i))
  have look : ∀ (z : ListObj) (k : String), z.field it k =
      match z.get it k with | .ok (some (.int i)) => i | _ => 0 := by
    intro z k
    unfold ListObj.field Rec.int ListObj.get
    cases h : Rec.lookup (z.objs.getD it.ref []) k with
    | none => rfl
    | some o =>
      cases o with
      | none => rfl
      | some y => cases y <;> rfl
  refine ⟨s', h1, h2, ?_, ?_⟩
  · rw [look, h3 it hm rfl]
  · intro key' hk
    rw [look, look, h4 it hm key' (.inr hk)]

/-- C68 for channels whose `iid` is at most the record's `pattern_base` (20480 in all known files): after assigning the
channel to the item, only the record's `item_index` is another one, and reading the tracks again finds this channel. -/
theorem C68_set_channel_partial {l : List Rec} {s : ListObj} {hs : List Item} {es : List Edit} (r : IReach l s hs es)
    {it : Item} (hm : it ∈ hs) {channels patterns : List Int} {iid : Int} {c : Nat} (hc : LastAt channels iid c)
    (hb : iid ≤ s.field it "pattern_base") :
    ∃ s', s.setChannel it iid = (s', .ok ()) ∧
      s'.value = s.value.modify it.index (fun r => Rec.put r "item_index" (some (.int iid))) ∧
      s'.plTarget it (byIid channels) (byIid patterns) = .ok (.channel c) := by
  obtain ⟨s', h1, h2, h3, h4⟩ := set_field r hm "item_index" iid
  refine ⟨s', h1, h2, ?_⟩
  unfold ListObj.plTarget
  rw [h3, h4 "pattern_base" (by decide), if_pos hb, byIid_last hc]

/-- C68 for patterns whose `iid` is positive: the same for assigning a pattern. -/
theorem C68_set_pattern_partial {l : List Rec} {s : ListObj} {hs : List Item} {es : List Edit} (r : IReach l s hs es)
    {it : Item} (hm : it ∈ hs) {channels patterns : List Int} {iid : Int} {p : Nat} (hp : LastAt patterns iid p)
    (h0 : 0 < iid) :
    ∃ s', s.setPattern it iid = (s', .ok ()) ∧
      s'.value = s.value.modify it.index
        (fun r => Rec.put r "item_index" (some (.int (iid + s.field it "pattern_base")))) ∧
      s'.plTarget it (byIid channels) (byIid patterns) = .ok (.pattern p) := by
  obtain ⟨s', h1, h2, h3, h4⟩ := set_field r hm "item_index" (iid + s.field it "pattern_base")
  refine ⟨s', h1, h2, ?_⟩
  unfold ListObj.plTarget
  rw [h3, h4 "pattern_base" (by decide), if_neg (by omega), show iid + s.field it "pattern_base" - s.field it "pattern_base" =
    iid by omega, byIid_last hp]

/-- C68 is false otherwise, for every item: a channel with a greater `iid` is never found again, nor is a pattern whose
`iid` is not positive. -/
theorem C68_refuted {l : List Rec} {s : ListObj} {hs : List Item} {es : List Edit} (r : IReach l s hs es)
    {it : Item} (hm : it ∈ hs) (channels patterns : List Int) (iid : Int) :
    (s.field it "pattern_base" < iid → ∀ c,
      (s.setChannel it iid).1.plTarget it (byIid channels) (byIid patterns) ≠ .ok (.channel c)) ∧
    (iid ≤ 0 → ∀ p, (s.setPattern it iid).1.plTarget it (byIid channels) (byIid patterns) ≠ .ok (.pattern p)) := by
  constructor
  · intro hb c
    obtain ⟨s', h1, h2, h3, h4⟩ := set_field r hm "item_index" iid
    unfold ListObj.setChannel
    rw [h1]
    unfold ListObj.plTarget
    rw [h3, h4 "pattern_base" (by decide), if_neg (by omega)]
    split <;> simp
  · intro hb p
    obtain ⟨s', h1, h2, h3, h4⟩ := set_field r hm "item_index" (iid + s.field it "pattern_base")
    unfold ListObj.setPattern
    rw [h1]
    unfold ListObj.plTarget
    rw [h3, h4 "pattern_base" (by decide), if_pos (by omega)]
    split <;> simp

open Demo in
example : IReach plClips (.parse plClips) ([] ++ (ListObj.parse plClips).items) [] ∧
    (⟨1, 1⟩ : Item) ∈ [] ++ (ListObj.parse plClips).items ∧ (ListObj.parse plClips).field ⟨1, 1⟩ "pattern_base" = 20480 ∧
    LastAt [0, 3] 3 1 ∧
    (((ListObj.parse plClips).setPattern ⟨1, 1⟩ 2).1.plTarget ⟨1, 1⟩ (byIid [0, 3]) (byIid [1, 2])) = .ok (.pattern 1) :=
  ⟨.fetch .parsed, by decide, by decide, ⟨by decide, fun k' hk => by rw [List.getElem?_eq_none hk]; simp⟩, by decide⟩

/-! ### C69 -/

/-- C69. Assigning `item.offsets` is read back and changes the two offsets of this record and nothing else. -/
theorem C69_offsets {l : List Rec} {s : ListObj} {hs : List Item} {es : List Edit} (r : IReach l s hs es) {it : Item}
    (hm : it ∈ hs) (a b : Option LV) :
    ∃ s', s.setOffsets it a b = (s', .ok ()) ∧ s'.offsets it = .ok (a, b) ∧
      s'.value = s.value.modify it.index (fun r => Rec.put (Rec.put r "start_offset" a) "end_offset" b) := by
  obtain ⟨s1, h1, h2, h3, h4⟩ := C40_edit_step r hm "start_offset" a
  have r1 : IReach l s1 hs (es ++ [(it.index, "start_offset", a)]) := by
    have := r.edit hm "start_offset" a
    rw [h1] at this
    exact this
  obtain ⟨s2, g1, g2, g3, g4⟩ := C40_edit_step r1 hm "end_offset" b
  refine ⟨s2, ?_, ?_, ?_⟩
  · unfold ListObj.setOffsets
    rw [h1]
    exact g1
  · unfold ListObj.offsets
    rw [g4 it hm "start_offset" (.inr (by decide)), h3 it hm rfl, g3 it hm rfl]
  · rw [g2, h2]
    apply List.ext_getElem?
    intro i
    simp only [List.getElem?_modify]
    by_cases hi : it.index = i
    · simp [hi, Function.comp_def]
    · simp [hi]

theorem project_put (fs : Fields) (r : Rec) (key : String) (x : Option LV) (h : ∀ f ∈ fs, f.1 ≠ key) :
    Rec.project fs (Rec.put r key x) = Rec.project fs r := by
  induction fs with
  | nil => rfl
  | cons f fs ih =>
    obtain ⟨n, f⟩ := f
    unfold Rec.project
    rw [(lookup_put r key x).2 n (h (n, f) (by simp)), ih (fun f hf => h f (by simp [hf]))]

/-- C69 is false for `item.muted`, for every playlist: assigning it succeeds, but the event is saved as before. -/
theorem C69_muted_refuted [FloatEnv] {l : List Rec} {s : ListObj} {hs : List Item} {es : List Edit} (r : IReach l s hs es)
    {it : Item} (hm : it ∈ hs) (b : Bool) (cx : Ctx) :
    ∃ s', s.set it "muted" (some (.bool b)) = (s', .ok ()) ∧ s'.get it "muted" = .ok (some (.bool b)) ∧
      listBuild cx LName.playlist.fields s'.value = listBuild cx LName.playlist.fields s.value := by
  obtain ⟨s', h1, h2, h3, _⟩ := C40_edit_step r hm "muted" (some (.bool b))
  refine ⟨s', h1, h3 it hm rfl, ?_⟩
  rw [h2]
  generalize s.value = recs
  generalize it.index = i
  induction recs generalizing i with
  | nil => rw [List.modify_nil]
  | cons rec recs ih =>
    cases i with
    | zero =>
      rw [List.modify_zero_cons]
      unfold listBuild
      rw [project_put _ _ _ _ (by unfold LName.fields; decide)]
    | succ i =>
      rw [List.modify_succ_cons]
      unfold listBuild
      rw [ih i]

/-- C69 is false for reading `item.muted`: of every parsed item it raises `KeyError`. -/
theorem C69_muted_read_refuted [FloatEnv] {cx : Ctx} {bs : Bytes} {it : Item} (k : Nat) (hi : it.ref = k)
    (hk : k < (greedyParse cx LName.playlist.fields bs).1.length) :
    (ListObj.parse (greedyParse cx LName.playlist.fields bs).1).get it "muted" = .error .keyError := by
  have keys : ∀ (fs : Fields) (bs : Bytes) (rec : Rec) (rest : Bytes), structParse cx fs bs = .ok (rec, rest) →
      (∀ f ∈ fs, f.1 ≠ "muted") → Rec.lookup rec "muted" = none := by
    intro fs
    induction fs with
    | nil =>
      intro bs rec rest h _
      cases h
      rfl
    | cons f fs ih =>
      intro bs rec rest h hne
      obtain ⟨n, f⟩ := f
      unfold structParse at h
      split at h
      · cases h
      · split at h
        · cases h
        · next heq =>
          cases h
          rw [Rec.lookup, if_neg (hne (n, f) (by simp))]
          exact ih _ _ _ heq (fun f hf => hne f (by simp [hf]))
  have all : ∀ (n : Nat) (bs : Bytes), bs.length = n → ∀ rec ∈ (greedyParse cx LName.playlist.fields bs).1,
      Rec.lookup rec "muted" = none := by
    intro n
    induction n using Nat.strongRecOn with
    | ind n ih =>
      intro bs hn rec hr
      rw [greedyParse.eq_def] at hr
      split at hr
      · cases hr
      · next rec' r' heq =>
        split at hr
        · next hlt =>
          rcases List.mem_cons.1 hr with rfl | hr
          · exact keys _ _ _ _ heq (by unfold LName.fields; decide)
          · exact ih r'.length (by omega) r' rfl rec hr
        · cases hr
  unfold ListObj.get ListObj.parse
  dsimp only
  rw [hi, List.getD_eq_getElem?_getD, List.getElem?_eq_getElem hk, Option.getD_some,
    all bs.length bs rfl _ (List.getElem_mem hk)]

open Demo in
example : IReach plClips (.parse plClips) ([] ++ (ListObj.parse plClips).items) [] ∧
    (⟨1, 1⟩ : Item) ∈ [] ++ (ListObj.parse plClips).items ∧
    ((ListObj.parse plClips).setOffsets ⟨1, 1⟩ (some (.f32 7)) none).1.offsets ⟨1, 1⟩ = .ok (some (.f32 7), none) :=
  ⟨.fetch .parsed, by decide, by decide⟩

/-! ### C70 -/

/-- Assigning through `first` on any view. -/
theorem first_assign {w : World} {L : Nat → Prop} (r : WReach w L) {t : Nat} (ht : L t) {id ref : Nat} (v : Value)
    (h : w.heap.first t id = .ok ref) :
    (w.setEv ref { w.ev ref with value := v }).events t = setFirst (w.events t) id v ∧
    (∀ x, (w.setEv ref { w.ev ref with value := v }).heap.first t x = w.heap.first t x) ∧
    WReach (w.setEv ref { w.ev ref with value := v }) L ∧
    ∃ i, w.project.events[i]? = some (w.ev ref) ∧ (w.setEv ref { w.ev ref with value := v }).project =
      { w.project with events := w.project.events.set i { w.ev ref with value := v } } := by
  rcases first_spec w.heap t id with ⟨pre, post, ref', h1, h2, h3⟩ | ⟨h1, h2⟩
  · rw [h1] at h
    injection h with h
    subst h
    have hmem : (ref', id) ∈ shown w.heap t := by rw [h2]; simp
    obtain ⟨e1, e2⟩ := events_shown r ht _ hmem
    have hk : (w.refs t)[pre.length]? = some ref' := by rw [World.refs_eq, h2]; simp
    have hs := events_setEv { w.ev ref' with value := v } (refs_nodup r ht) hk e1
    have hev : w.events t = (pre.map fun x => w.ev x.1) ++ w.ev ref' :: post.map fun x => w.ev x.1 := by
      rw [World.events_eq, h2]; simp
    refine ⟨?_, fun _ => rfl, .assign r ref' v, ?_⟩
    · rw [hs, setFirst_set hev ?_ e2, hev]
      · simp
      · intro y hy
        obtain ⟨z, hz, rfl⟩ := List.mem_map.1 hy
        rw [(events_shown r ht z (by rw [h2]; simp [hz])).2]
        exact h3 z hz
    · have hm : ref' ∈ w.refs 0 := by
        rw [World.refs_eq]
        exact List.mem_map.2 ⟨_, (wreach_sub r ht).1.mem hmem, rfl⟩
      obtain ⟨i, hi, hi2⟩ := List.mem_iff_getElem.1 hm
      have hi3 : (w.refs 0)[i]? = some ref' := by rw [List.getElem?_eq_getElem hi, hi2]
      refine ⟨i, ?_, ?_⟩
      · show ((w.refs 0).map w.ev)[i]? = _
        rw [List.getElem?_map, hi3]
        rfl
      · have := events_setEv { w.ev ref' with value := v } (wreach_sub r ht).2 hi3 e1
        show Project.mk w.format w.channelCount w.ppq ((w.setEv ref' { w.ev ref' with value := v }).events 0) = _
        rw [this]
        rfl
  · rw [h1] at h; cases h

namespace Spec

/-- The loop position the events describe: start and end of the playlist selection (217), or else the old event (152). -/
def Loop (evs : List Event) (a b : Option LV) : Prop :=
  (∃ rec, valueOf evs 217 = some (.fields rec) ∧ Rec.lookup rec "start" = some a ∧ Rec.lookup rec "end" = some b) ∨
  (valueOf evs 217 = none ∧ ∃ x y, valueOf evs 152 = some (.lv (.pair x y)) ∧ a = some (.int x) ∧ b = some (.int y))

end Spec

/-- C70, reading. -/
theorem C70_get {w : World} {L : Nat → Prop} (r : WReach w L) {t : Nat} (ht : L t) :
    (∀ a b, Loop (w.events t) a b → w.loopPos t = .ok (some (a, b))) ∧
    (valueOf (w.events t) 217 = none → valueOf (w.events t) 152 = none → w.loopPos t = .ok none) := by
  constructor
  · intro a b h
    unfold World.loopPos
    rw [World.contains_eq r ht, World.contains_eq r ht]
    rcases h with ⟨rec, h1, h2, h3⟩ | ⟨h0, x, y, h1, rfl, rfl⟩
    · rw [h1]
      rcases World.first_value r ht 217 with ⟨ref, f1, _, f2, _⟩ | ⟨f1, f2⟩
      · rw [h1] at f2
        injection f2 with f2
        rw [if_pos Option.isSome_some, f1]
        simp only [structGet, ← f2, h2, h3]
      · rw [h1] at f2; cases f2
    · rw [h0, h1]
      rcases World.first_value r ht 152 with ⟨ref, f1, _, f2, _⟩ | ⟨f1, f2⟩
      · rw [h1] at f2
        injection f2 with f2
        rw [if_neg (by simp), if_pos Option.isSome_some, f1]
        simp only [← f2]
      · rw [h1] at f2; cases f2
  · intro h1 h2
    unfold World.loopPos
    rw [World.contains_eq r ht, World.contains_eq r ht, h1, h2]
    rfl

/-- C70, assigning, when both ends are present: the new position is there and one event of the project has changed its
value; without such an event nothing changes. -/
theorem C70_set_partial {w : World} {L : Nat → Prop} (r : WReach w L) {t : Nat} (ht : L t) (a b : Int) :
    (∀ x y, Loop (w.events t) (some x) (some y) → ∃ w', w.setLoopPos t a b = (w', .ok ()) ∧
      Loop (w'.events t) (some (.int a)) (some (.int b)) ∧ WReach w' L ∧
      ∃ i e v, w.project.events[i]? = some e ∧
        ((e.id = 217 ∧ ∃ rec, e.value = .fields rec ∧ (∃ x, Rec.lookup rec "start" = some (some x)) ∧
            (∃ y, Rec.lookup rec "end" = some (some y)) ∧
            v = .fields (Rec.update (Rec.update rec "start" (some (.int a))) "end" (some (.int b)))) ∨
          (e.id = 152 ∧ v = .lv (.pair a b))) ∧
        w'.project = { w.project with events := w.project.events.set i { e with value := v } }) ∧
    (valueOf (w.events t) 217 = none → valueOf (w.events t) 152 = none →
      w.setLoopPos t a b = (w, .error .propertyCannotBeSet)) := by
  constructor
  · intro x y h
    unfold World.setLoopPos
    rw [World.contains_eq r ht, World.contains_eq r ht]
    rcases h with ⟨rec, h1, h2, h3⟩ | ⟨h0, x, y, h1, hx, hy⟩
    · rw [h1]
      rcases World.first_value r ht 217 with ⟨ref, f1, flt, f2, f3⟩ | ⟨f1, f2⟩
      · rw [h1] at f2
        injection f2 with f2
        rw [if_pos Option.isSome_some, f1]
        obtain ⟨u1, u2, u3⟩ := lookup_update h2 (some (.int a))
        have hs : structSet (w.ev ref) "start" (some (.int a)) =
            .ok { w.ev ref with value := .fields (Rec.update rec "start" (some (.int a))) } := by
          simp only [structSet, ← f2, h2]
        dsimp only
        rw [hs]
        dsimp only
        have hev : (w.setEv ref { w.ev ref with value := .fields (Rec.update rec "start" (some (.int a))) }).ev ref =
            { w.ev ref with value := .fields (Rec.update rec "start" (some (.int a))) } := by
          rw [World.ev_setEv]; simp [flt]
        rw [hev]
        have hend : Rec.lookup (Rec.update rec "start" (some (.int a))) "end" = some (some y) := by
          rw [u3 "end" (by decide), h3]
        obtain ⟨u4, u5, u6⟩ := lookup_update hend (some (.int b))
        have hs2 : structSet { w.ev ref with value := .fields (Rec.update rec "start" (some (.int a))) } "end" (some (.int b)) =
            .ok { w.ev ref with value := .fields (Rec.update (Rec.update rec "start" (some (.int a))) "end" (some (.int b))) } := by
          simp only [structSet, hend]
        rw [hs2]
        dsimp only
        have hcol : ∀ e1 e2, (w.setEv ref e1).setEv ref e2 = w.setEv ref e2 := by
          intro e1 e2
          simp [World.setEv]
        rw [hcol]
        obtain ⟨g1, g2, g3, i, g4, g5⟩ := first_assign r ht
          (.fields (Rec.update (Rec.update rec "start" (some (.int a))) "end" (some (.int b)))) f1
        refine ⟨_, rfl, ?_, g3, i, w.ev ref, _, g4, .inl ⟨f3, rec, f2.symm, ⟨_, h2⟩, ⟨_, h3⟩, rfl⟩, g5⟩
        rw [g1]
        refine .inl ⟨_, valueOf_setFirst_self (by rw [h1]; rfl), ?_, u4⟩
        rw [u6 "start" (by decide), u1]
      · rw [h1] at f2; cases f2
    · rw [h0, h1]
      rcases World.first_value r ht 152 with ⟨ref, f1, flt, f2, f3⟩ | ⟨f1, f2⟩
      · rw [if_neg (by simp), if_pos Option.isSome_some, f1]
        dsimp only
        obtain ⟨g1, g2, g3, i, g4, g5⟩ := first_assign r ht (.lv (.pair a b)) f1
        refine ⟨_, rfl, ?_, g3, i, w.ev ref, _, g4, .inr ⟨f3, rfl⟩, g5⟩
        rw [g1]
        refine .inr ⟨?_, a, b, valueOf_setFirst_self (by rw [h1]; rfl), rfl, rfl⟩
        rw [valueOf_setFirst_other (by decide), h0]
      · rw [h1] at f2; cases f2
  · intro h1 h2
    unfold World.setLoopPos
    rw [World.contains_eq r ht, World.contains_eq r ht, h1, h2]
    rfl

namespace Demo

/-- A project with the old event and a selection. -/
def loops (sel : Rec) : Project :=
  { format := 0, channelCount := 0, ppq := 96
    events := [⟨152, .u16t, .lv (.pair 1 2), 4⟩, ⟨217, .struct .plSelection, .fields sel, 8⟩] }

end Demo

open Demo in
example : WReach (.ofProject (loops [("start", some (.int 0)), ("end", some (.int 96))])) (· = 0) ∧
    Loop ((World.ofProject (loops [("start", some (.int 0)), ("end", some (.int 96))])).events 0)
      (some (.int 0)) (some (.int 96)) :=
  ⟨.parsed _, .inl ⟨_, rfl, rfl, rfl⟩⟩

/-- C70 is false if the event has been parsed from less than 8 bytes: the assignment raises `PropertyCannotBeSet`, after
having changed the start. -/
theorem C70_set_refuted : ∃ (w w' : World), WReach w (· = 0) ∧
    (w.project.events.getD 1 default).value = .fields [("start", some (.int 0)), ("end", none)] ∧
    w.setLoopPos 0 5 6 = (w', .error .propertyCannotBeSet) ∧
    (w'.project.events.getD 1 default).value = .fields [("start", some (.int 5)), ("end", none)] :=
  ⟨.ofProject (Demo.loops [("start", some (.int 0)), ("end", none)]), _, .parsed _, rfl, rfl, rfl⟩

end PyFLP
