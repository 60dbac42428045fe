import Verif.Props.Offsets
import Verif.Props.ItemsSaved
/-!
# An assignment overwrites the bytes of its field and no others (C134)
-/

namespace PyFLP

open Spec Heap

namespace Spec

/-- The `w` bytes from `place` on may be others; all other bytes, and their places, are the same. -/
structure Overwritten (before after : Bytes) (place w : Nat) : Prop where
  size : after.length = before.length
  within : place + w ≤ before.length
  front : after.take place = before.take place
  back : after.drop (place + w) = before.drop (place + w)

/-- The data of the `i`-th event of the project starts at this place of its file: behind the header (22 bytes), the events before,
and the id and size of the event. -/
def DataStart [FloatEnv] (p : Project) (i start : Nat) : Prop :=
  ∃ (raws : List Bytes) (e : Event) (head data : Bytes), (p.events.take i).map Event.toBytes = raws.map .ok ∧ p.events[i]? = some e ∧
    e.payload = .ok data ∧ e.toBytes = .ok (head ++ data) ∧ start = 22 + (raws.map List.length).sum + head.length

end Spec

variable [FloatEnv]

theorem valid_width {l : Leaf} {x : LV} {w : Nat} (hw : fieldWidth l = some w) (hx : leafValid l x) :
    ∃ c, leafBuild l (some x) = .ok c ∧ c.length = w ∧ ∀ r, FieldMeans l c r x := by
  have hg : l ≠ .greedy := by rintro rfl; cases hw
  obtain ⟨c, h1, h2⟩ := leafRT_of_valid hx
  have h3 := leafBuild_valid_size hg hx h1
  refine ⟨c, h1, ?_, fun r => ?_⟩
  · rw [h3]
    cases l <;> simp only [fieldWidth, Option.some.injEq, reduceCtorEq] at hw <;> subst hw <;> rfl
  · obtain ⟨chunk, h4, h5⟩ := leafParse_means.1 (h2 r fun h => absurd h hg)
    rw [List.append_cancel_right h4]
    exact h5

theorem fieldPlaces_name {len : Nat} {fs : Fields} {off : Nat} {n : String} {o : Nat} {l : Leaf} (h : (n, o, l) ∈ fieldPlaces len fs off) :
    n ∈ fs.map Prod.fst := by
  induction fs generalizing off with
  | nil => cases h
  | cons nf fs ih =>
    obtain ⟨n', f⟩ := nf
    unfold fieldPlaces at h
    split at h
    · exact List.mem_cons_of_mem _ (ih h)
    · split at h
      · cases h
      · rcases List.mem_cons.1 h with h | h
        · cases h; simp
        · exact List.mem_cons_of_mem _ (ih h)

omit [FloatEnv] in
theorem absent_value {fs : Fields} {rec : Rec} (h : absentFields fs rec) {n : String} {y : LV} (hy : Rec.lookup rec n = some (some y)) :
    y = .bytes [] ∧ ((n, Fld.req .greedy) ∈ fs ∨ (n, Fld.opt .greedy) ∈ fs) := by
  induction fs generalizing rec with
  | nil => cases rec with
    | nil => cases hy
    | cons _ _ => simp [absentFields] at h
  | cons nf fs ih =>
    obtain ⟨n1, f⟩ := nf
    cases rec with
    | nil => cases hy
    | cons nv rec =>
      obtain ⟨n', v⟩ := nv
      unfold absentFields at h
      unfold Rec.lookup at hy
      split at h
      · next heq => cases heq
      · next heq1 heq2 =>
        cases heq1; cases heq2
        obtain ⟨rfl, hl, hr⟩ := h
        split at hy
        · cases hy
        · obtain ⟨h1, h2⟩ := ih hr hy
          exact ⟨h1, h2.imp (List.mem_cons_of_mem _) (List.mem_cons_of_mem _)⟩
      · next heq1 heq2 =>
        cases heq1; cases heq2; subst h
        split at hy
        · next hn => cases hy; rw [hn]; simp
        · cases hy
      · next heq1 heq2 =>
        cases heq1; cases heq2; subst h
        split at hy
        · next hn => cases hy; rw [hn]; simp
        · cases hy
      · exact h.elim

/-- The bytes of a record, with another value of one field. -/
theorem struct_patch {len : Nat} {fs : Fields} (hnd : (fs.map Prod.fst).Nodup) {rec : Rec} (hv : validFields ⟨len⟩ fs rec) {off : Nat}
    {n : String} {o : Nat} {l : Leaf} {w : Nat} (hm : (n, o, l) ∈ fieldPlaces len fs off) (hw : fieldWidth l = some w) {x y : LV}
    (hy : Rec.lookup rec n = some (some y)) (hx : leafValid l x) :
    ∃ a c c' b, structBuild ⟨len⟩ fs rec = .ok (a ++ c ++ b) ∧
      structBuild ⟨len⟩ fs (Rec.update rec n (some x)) = .ok (a ++ c' ++ b) ∧ off + a.length = o ∧
      c.length = w ∧ c'.length = w ∧ (∀ r, FieldMeans l c r y) ∧ (∀ r, FieldMeans l c' r x) ∧
      leafBuild l (some y) = .ok c ∧ leafBuild l (some x) = .ok c' := by
  induction fs generalizing rec off with
  | nil => cases hm
  | cons nf fs ih =>
    obtain ⟨n1, f⟩ := nf
    cases rec with
    | nil => simp [validFields] at hv
    | cons nv rec =>
      obtain ⟨n1', v⟩ := nv
      simp only [validFields] at hv
      obtain ⟨rfl, hv⟩ := hv
      simp only [List.map_cons, List.nodup_cons] at hnd
      have other : ∀ {off'}, (n, o, l) ∈ fieldPlaces len fs off' → n1 ≠ n := fun h e => hnd.1 (e ▸ fieldPlaces_name h)
      -- a field that is there
      have here : ∀ l1 x1, present len f = some l1 → (∀ v, fldBuild ⟨len⟩ f (some v) = leafBuild l1 (some v) ∨
            ∃ e, leafBuild l1 (some v) = .error e) → v = some x1 → leafValid l1 x1 →
          validFields ⟨len⟩ fs rec → ∃ a c c' b, structBuild ⟨len⟩ ((n1, f) :: fs) ((n1, v) :: rec) = .ok (a ++ c ++ b) ∧
            structBuild ⟨len⟩ ((n1, f) :: fs) (Rec.update ((n1, v) :: rec) n (some x)) = .ok (a ++ c' ++ b) ∧ off + a.length = o ∧
            c.length = w ∧ c'.length = w ∧ (∀ r, FieldMeans l c r y) ∧ (∀ r, FieldMeans l c' r x) ∧
      leafBuild l (some y) = .ok c ∧ leafBuild l (some x) = .ok c' := by
        intro l1 x1 hp hb he hx1 hr
        subst he
        have built : ∀ {v c}, leafBuild l1 (some v) = .ok c → fldBuild ⟨len⟩ f (some v) = .ok c := by
          intro v c hc
          rcases hb v with h | ⟨e, h⟩
          · rw [h, hc]
          · rw [h] at hc; cases hc
        unfold fieldPlaces at hm
        simp only [hp] at hm
        cases hw1 : fieldWidth l1 with
        | none => simp only [hw1] at hm; cases hm
        | some w1 =>
          simp only [hw1] at hm
          obtain ⟨c1, k1, k2, k3⟩ := valid_width hw1 hx1
          rcases List.mem_cons.1 hm with e | e
          · cases e
            rw [hw] at hw1
            cases hw1
            unfold Rec.lookup at hy
            rw [if_pos rfl] at hy
            cases hy
            obtain ⟨c', g1, g2, g3⟩ := valid_width hw hx
            obtain ⟨b, hb', -⟩ := struct_roundtrip ⟨len⟩ hr
            refine ⟨[], c1, c', b, ?_, ?_, rfl, k2, g2, k3, g3, k1, g1⟩
            · simp only [structBuild, if_true, built k1, hb', List.nil_append]
            · simp only [Rec.update, if_true, structBuild, built g1, hb', List.nil_append]
          · have hne := other e
            unfold Rec.lookup at hy
            rw [if_neg hne] at hy
            obtain ⟨a, c, c', b, g1, g2, g3, g4⟩ := ih hnd.2 hr e hy
            refine ⟨c1 ++ a, c, c', b, ?_, ?_, by rw [List.length_append]; omega, g4⟩
            · simp only [structBuild, if_true, built k1, g1, List.append_assoc]
            · simp only [Rec.update, if_neg hne, structBuild, if_true, built k1, g2, List.append_assoc]
      -- a field that is not there
      have skip : present len f = none → fldBuild ⟨len⟩ f v = .ok [] → validFields ⟨len⟩ fs rec →
          ∃ a c c' b, structBuild ⟨len⟩ ((n1, f) :: fs) ((n1, v) :: rec) = .ok (a ++ c ++ b) ∧
            structBuild ⟨len⟩ ((n1, f) :: fs) (Rec.update ((n1, v) :: rec) n (some x)) = .ok (a ++ c' ++ b) ∧ off + a.length = o ∧
            c.length = w ∧ c'.length = w ∧ (∀ r, FieldMeans l c r y) ∧ (∀ r, FieldMeans l c' r x) ∧
      leafBuild l (some y) = .ok c ∧ leafBuild l (some x) = .ok c' := by
        intro hp hb hr
        unfold fieldPlaces at hm
        simp only [hp] at hm
        have hne := other hm
        unfold Rec.lookup at hy
        rw [if_neg hne] at hy
        obtain ⟨a, c, c', b, g1, g2, g3, g4⟩ := ih hnd.2 hr hm hy
        refine ⟨a, c, c', b, ?_, ?_, g3, g4⟩
        · simp only [structBuild, if_true, hb, g1, List.nil_append]
        · simp only [Rec.update, if_neg hne, structBuild, if_true, hb, g2, List.nil_append]
      cases f with
      | req l1 =>
        cases v with
        | none => exact hv.elim
        | some x1 => exact here l1 x1 rfl (fun v => .inl rfl) rfl hv.1 hv.2.2
      | opt l1 =>
        cases v with
        | none =>
          exfalso
          obtain ⟨h1, h2⟩ := hv
          unfold Rec.lookup at hy
          split at hy
          · cases hy
          · next hne =>
            unfold fieldPlaces at hm
            simp only [present] at hm
            cases hw1 : fieldWidth l1 with
            | none => simp only [hw1] at hm; cases hm
            | some w1 =>
              simp only [hw1] at hm
              rcases List.mem_cons.1 hm with e | e
              · cases e; exact hne rfl
              · obtain ⟨-, h4⟩ := absent_value h2 hy
                have : ∀ {fs : Fields} {off}, (fs.map Prod.fst).Nodup → (n, o, l) ∈ fieldPlaces len fs off →
                    (n, Fld.req .greedy) ∈ fs ∨ (n, Fld.opt .greedy) ∈ fs → False := by
                  intro fs
                  induction fs with
                  | nil => intro off _ h _; cases h
                  | cons nf fs ih =>
                    intro off hnd h hg
                    obtain ⟨n', f'⟩ := nf
                    simp only [List.map_cons, List.nodup_cons] at hnd
                    have hn' : (n, o, l) ∈ fieldPlaces len fs (off + w) → n' ≠ n := fun h e => hnd.1 (e ▸ fieldPlaces_name h)
                    by_cases e : n = n'
                    · subst e
                      have hf : f' = .req .greedy ∨ f' = .opt .greedy := by
                        rcases hg with hg | hg
                        · rcases List.mem_cons.1 hg with e | e
                          · cases e; exact .inl rfl
                          · exact absurd (List.mem_map.2 ⟨_, e, rfl⟩) hnd.1
                        · rcases List.mem_cons.1 hg with e | e
                          · cases e; exact .inr rfl
                          · exact absurd (List.mem_map.2 ⟨_, e, rfl⟩) hnd.1
                      rcases hf with rfl | rfl <;> · unfold fieldPlaces at h; simp only [present, fieldWidth] at h; cases h
                    · have hg' : (n, Fld.req .greedy) ∈ fs ∨ (n, Fld.opt .greedy) ∈ fs := by
                        refine hg.imp ?_ ?_ <;>
                        · intro hg
                          rcases List.mem_cons.1 hg with e' | e'
                          · cases e'; exact absurd rfl e
                          · exact e'
                      unfold fieldPlaces at h
                      split at h
                      · exact ih hnd.2 h hg'
                      · split at h
                        · cases h
                        · rcases List.mem_cons.1 h with e' | e'
                          · cases e'; exact e rfl
                          · exact ih hnd.2 e' hg'
                exact this hnd.2 e h4
        | some x1 =>
          refine here l1 x1 rfl (fun v => ?_) rfl hv.1 hv.2.2
          cases hb : leafBuild l1 (some v) with
          | ok c => left; simp only [fldBuild, hb]
          | error e => exact .inr ⟨e, rfl⟩
      | ifLen k l1 =>
        cases v with
        | none =>
          refine skip ?_ ?_ hv.2
          · simp only [present]; rw [if_neg hv.1]
          · simp only [fldBuild]; rw [if_neg hv.1]
        | some x1 =>
          refine here l1 x1 ?_ (fun v => .inl ?_) rfl hv.2.1 hv.2.2.2
          · simp only [present]; rw [if_pos hv.1]
          · simp only [fldBuild]; rw [if_pos hv.1]
      | ifNew l1 =>
        cases v with
        | none =>
          refine skip ?_ ?_ hv.2
          · simp only [present]; rw [if_neg hv.1]
          · simp only [fldBuild]; rw [if_neg hv.1]
        | some x1 =>
          refine here l1 x1 ?_ (fun v => .inl ?_) rfl hv.2.1 hv.2.2.2
          · simp only [present]; rw [if_pos hv.1]
          · simp only [fldBuild]; rw [if_pos hv.1]

/-- The bytes of a list, with another value of one field of one item. -/
theorem list_patch {len size : Nat} {fs : Fields} (hnd : (fs.map Prod.fst).Nodup) {recs : List Rec}
    (hv : ∀ r ∈ recs, validFields ⟨len⟩ fs r) (hs : ∀ r ∈ recs, ∀ bs, structBuild ⟨len⟩ fs r = .ok bs → bs.length = size) {j : Nat} {rec : Rec}
    (hj : recs[j]? = some rec) {n : String} {o : Nat} {l : Leaf} {w : Nat} (hm : (n, o, l) ∈ fieldPlaces len fs 0)
    (hw : fieldWidth l = some w) {x y : LV} (hy : Rec.lookup rec n = some (some y)) (hx : leafValid l x) :
    ∃ a c c' b, greedyBuild ⟨len⟩ fs recs = .ok (a ++ c ++ b) ∧
      greedyBuild ⟨len⟩ fs (recs.set j (Rec.update rec n (some x))) = .ok (a ++ c' ++ b) ∧ a.length = size * j + o ∧
      c.length = w ∧ c'.length = w ∧ (∀ r, FieldMeans l c r y) ∧ ∀ r, FieldMeans l c' r x := by
  have all : ∀ recs : List Rec, (∀ r ∈ recs, validFields ⟨len⟩ fs r) → ∃ bs, greedyBuild ⟨len⟩ fs recs = .ok bs := by
    intro recs
    induction recs with
    | nil => intro _; exact ⟨[], rfl⟩
    | cons r recs ih =>
      intro h
      obtain ⟨bs, h1⟩ := ih fun r hr => h r (List.mem_cons_of_mem _ hr)
      obtain ⟨b, h2, -⟩ := struct_roundtrip ⟨len⟩ (h r (by simp))
      exact ⟨b ++ bs, by simp only [greedyBuild, h2, h1]⟩
  induction recs generalizing j with
  | nil => cases hj
  | cons r recs ih =>
    cases j with
    | zero =>
      cases hj
      obtain ⟨a, c, c', b, g1, g2, g3, g4, g5, g6, g7, -⟩ := struct_patch hnd (hv rec (by simp)) hm hw hy hx
      obtain ⟨bs, h1⟩ := all recs fun r hr => hv r (List.mem_cons_of_mem _ hr)
      refine ⟨a, c, c', b ++ bs, ?_, ?_, by omega, g4, g5, g6, g7⟩
      · simp only [greedyBuild, g1, h1, List.append_assoc]
      · simp only [List.set_cons_zero, greedyBuild, g2, h1, List.append_assoc]
    | succ j =>
      obtain ⟨b1, h1, -⟩ := struct_roundtrip ⟨len⟩ (hv r (by simp))
      have h2 := hs r (by simp) b1 h1
      obtain ⟨a, c, c', b, g1, g2, g3, g4⟩ := ih (fun r hr => hv r (List.mem_cons_of_mem _ hr))
        (fun r hr => hs r (List.mem_cons_of_mem _ hr)) (by simpa using hj)
      refine ⟨b1 ++ a, c, c', b, ?_, ?_, ?_, g4⟩
      · simp only [greedyBuild, h1, g1, List.append_assoc]
      · simp only [List.set_cons_succ, greedyBuild, h1, g2, List.append_assoc]
      · rw [List.length_append, h2, g3, Nat.mul_succ]; omega

/-- The file, with other data of the same size in one event. -/
theorem file_patch {p : Project} {file : Bytes} (hs : saveBytes p = .ok file) {i : Nat} {e : Event} (hi : p.events[i]? = some e)
    {v : Value} {a c c' b : Bytes} (h1 : e.payload = .ok (a ++ c ++ b)) (h2 : Event.payload { e with value := v } = .ok (a ++ c' ++ b))
    (hc : c'.length = c.length) :
    ∃ file' start, saveBytes { p with events := p.events.set i { e with value := v } } = .ok file' ∧ DataStart p i start ∧
      Overwritten file file' (start + a.length) c.length ∧
      bytesAt file (start + a.length) c.length = c ∧ bytesAt file' (start + a.length) c.length = c' := by
  obtain ⟨i1, i2⟩ := List.getElem?_eq_some_iff.1 hi
  obtain ⟨hdr, body, k0, k1, k2, k3, rfl⟩ := save_split hs
  have hsplit : p.events = p.events.take i ++ e :: p.events.drop (i + 1) := by
    rw [← i2, ← List.drop_eq_getElem_cons i1, List.take_append_drop]
  obtain ⟨pre, rest, b1, b2, rfl⟩ := eventsBytes_split (hsplit ▸ k3)
  obtain ⟨raw, post, b3, b4, rfl⟩ := seqBuild_inv (show seqBuild e.toBytes (eventsBytes (p.events.drop (i + 1))) = .ok rest from b2)
  obtain ⟨head, t1, t2⟩ : ∃ head, raw = head ++ (a ++ c ++ b) ∧
      Event.toBytes { e with value := v } = .ok (head ++ (a ++ c' ++ b)) := by
    unfold Event.toBytes at b3 ⊢
    dsimp only
    cases hid : intBuild 1 false (e.id : Int) with
    | error x => rw [hid] at b3; cases b3
    | ok d =>
      rw [hid, h1] at b3
      rw [h2]
      dsimp only at b3 ⊢
      have hl : (a ++ c' ++ b).length = (a ++ c ++ b).length := by simp [hc]
      by_cases hlt : e.id < 192
      · rw [if_pos hlt] at b3 ⊢
        cases b3
        exact ⟨d, rfl, rfl⟩
      · rw [if_neg hlt] at b3 ⊢
        cases b3
        exact ⟨d ++ varBuild (a ++ c ++ b).length, rfl, by rw [hl]⟩
  subst t1
  have hev : eventsBytes (p.events.set i { e with value := v }) = .ok (pre ++ (head ++ (a ++ c' ++ b) ++ post)) := by
    have : p.events.set i { e with value := v } = p.events.take i ++ { e with value := v } :: p.events.drop (i + 1) := by
      rw [List.set_eq_take_append_cons_drop, if_pos i1]
    rw [this]
    have join : ∀ (l : List Event) {x y : Bytes} {m : List Event}, eventsBytes l = .ok x → eventsBytes m = .ok y →
        eventsBytes (l ++ m) = .ok (x ++ y) := by
      intro l
      induction l with
      | nil => intro x y m hx hy; cases hx; exact hy
      | cons q l ih =>
        intro x y m hx hy
        obtain ⟨u, v, q1, q2, rfl⟩ := seqBuild_inv (show seqBuild q.toBytes (eventsBytes l) = .ok x from hx)
        show seqBuild q.toBytes (eventsBytes (l ++ m)) = _
        rw [List.append_assoc]
        exact seqBuild_ok q1 (ih q2 hy)
    exact join _ b1 (seqBuild_ok t2 b4)
  have hcs : channelStarts (p.events.set i { e with value := v }) = channelStarts p.events := by
    have key : ∀ l : List Event, channelStarts l = ((l.map Event.id).filter fun j => decide (j = 64)).length := by
      intro l
      unfold channelStarts
      rw [List.filter_map, List.length_map]
      rfl
    rw [key, key, set_id hi]
  have hlen : (pre ++ (head ++ (a ++ c' ++ b) ++ post)).length = (pre ++ (head ++ (a ++ c ++ b) ++ post)).length := by
    simp [hc]
  have hraws : ∀ {l : List Event} {x : Bytes}, eventsBytes l = .ok x →
      ∃ raws : List Bytes, l.map Event.toBytes = raws.map .ok ∧ (raws.map List.length).sum = x.length := by
    intro l
    induction l with
    | nil => intro x hx; cases hx; exact ⟨[], rfl, rfl⟩
    | cons q l ih =>
      intro x hx
      obtain ⟨u, v, q1, q2, rfl⟩ := seqBuild_inv (show seqBuild q.toBytes (eventsBytes l) = .ok x from hx)
      obtain ⟨raws, r1, r2⟩ := ih q2
      exact ⟨u :: raws, by simp [q1, r1], by simp [r2]⟩
  obtain ⟨raws, r1, r2⟩ := hraws b1
  have hsave : saveBytes { p with events := p.events.set i { e with value := v } } =
      .ok (hdr ++ magicDt ++ leBytes 4 (pre ++ (head ++ (a ++ c ++ b) ++ post)).length ++ (pre ++ (head ++ (a ++ c' ++ b) ++ post))) := by
    have hs' := hs
    unfold saveBytes at hs' ⊢
    dsimp only
    rw [channelLen_eq] at hs' ⊢
    rw [hcs]
    by_cases h0 : channelStarts p.events = 0
    · rw [if_pos h0] at hs'; cases hs'
    · rw [if_neg h0] at hs' ⊢
      dsimp only at hs' ⊢
      rw [k2] at hs' ⊢
      dsimp only at hs' ⊢
      rw [k3] at hs'
      rw [hev]
      dsimp only at hs' ⊢
      unfold assemble at hs' ⊢
      rw [hlen]
      split at hs'
      · next hlt => rw [if_pos hlt]
      · cases hs'
  have hm : magicDt.length = 4 := rfl
  have h4 : ∀ n, (leBytes 4 n).length = 4 := fun n => by simp [leBytes]
  have hat : ∀ (A d B : Bytes), bytesAt (A ++ (d ++ B)) A.length d.length = d := fun A d B => by
    unfold bytesAt; rw [List.drop_left, List.take_left]
  refine ⟨_, 22 + pre.length + head.length, hsave, ⟨raws, e, head, a ++ c ++ b, r1, hi, h1, b3, by rw [r2]⟩, ?_⟩
  generalize hZ : hdr ++ magicDt ++ leBytes 4 (pre ++ (head ++ (a ++ c ++ b) ++ post)).length = Z
  have hZl : Z.length = 22 := by rw [← hZ]; simp only [List.length_append, k1, hm, h4]
  have hA : (Z ++ pre ++ head ++ a).length = 22 + pre.length + head.length + a.length := by
    simp only [List.length_append, hZl]
  have e1 : ∀ d : Bytes, Z ++ (pre ++ (head ++ (a ++ d ++ b) ++ post)) = (Z ++ pre ++ head ++ a) ++ (d ++ (b ++ post)) := by
    intro d; simp only [List.append_assoc]
  rw [e1 c, e1 c', ← hA]
  refine ⟨⟨by simp [hc], by simp only [List.length_append]; omega, ?_, ?_⟩, hat _ _ _, ?_⟩
  · rw [List.take_left, List.take_left]
  · rw [← List.drop_drop, ← List.drop_drop, List.drop_left, List.drop_left, List.drop_left, ← hc, List.drop_left]
  · rw [← hc]; exact hat _ _ _

/-- **C134**, fields of struct events: assigning a value that fits the field to a field that has one overwrites the bytes of this field
in the saved file, and no others.  The bytes are at the place of the field (`structLayout`, see C131). -/
theorem C134_field {p : Project} {file : Bytes} (hs : saveBytes p = .ok file) {i : Nat} {e : Event} (hi : p.events[i]? = some e)
    {s : SName} {rec : Rec} (hk : e.kind = .struct s) (hval : e.value = .fields rec) (hv : validValue e.kind e.len e.value)
    {n : String} {place w : Nat} {l : Leaf} (hn : (n, place, l) ∈ structLayout s e.len) (hw : fieldWidth l = some w) {y x : LV}
    (hy : rec.lookup n = some (some y)) (hx : leafValid l x) :
    ∃ file' start, saveBytes { p with events := p.events.set i { e with value := .fields (Rec.update rec n (some x)) } } = .ok file' ∧
      DataStart p i start ∧ Overwritten file file' (start + place) w ∧
      FieldMeans l (bytesAt file (start + place) w) [] y ∧ FieldMeans l (bytesAt file' (start + place) w) [] x := by
  rw [hk, hval] at hv
  obtain ⟨a, c, c', b, g1, g2, g3, g4, g5, g6, g7, -⟩ :=
    struct_patch (fields_nodup s) hv ((structLayout_places s e.len).1 _ hn) hw hy hx
  have h1 : e.payload = .ok (a ++ c ++ b) := by
    unfold Event.payload; rw [hk, hval]; exact g1
  have h2 : Event.payload { e with value := .fields (Rec.update rec n (some x)) } = .ok (a ++ c' ++ b) := by
    unfold Event.payload; dsimp only; rw [hk]; exact g2
  obtain ⟨file', start, f1, f2, f3, f4, f5⟩ := file_patch hs hi h1 h2 (g5.trans g4.symm)
  rw [Nat.zero_add] at g3
  rw [g3, g4] at f3 f4 f5
  exact ⟨file', start, f1, f2, f3, by rw [f4]; exact g6 _, by rw [f5]; exact g7 _⟩

theorem item_fields {cx : Ctx} {fs : Fields} (hg : ∀ nf ∈ fs, nf.2.leaf ≠ .greedy) {r : Rec} (h : validItem cx fs r) :
    validFields cx fs r := by
  induction fs generalizing r with
  | nil => cases r with
    | nil => trivial
    | cons _ _ => simp [validItem] at h
  | cons nf fs ih =>
    obtain ⟨n, f⟩ := nf
    have hg' := fun nf h => hg nf (List.mem_cons_of_mem _ h)
    have hgf := hg (n, f) (by simp)
    cases r with
    | nil => cases f <;> simp [validItem] at h
    | cons nv rec =>
      obtain ⟨n', v⟩ := nv
      cases f with
      | req l =>
        cases v with
        | none => simp [validItem] at h
        | some y => exact ⟨h.1, h.2.1, fun e => absurd e hgf, ih hg' h.2.2⟩
      | ifNew l =>
        cases v with
        | none => exact ⟨h.1, h.2.1, ih hg' h.2.2⟩
        | some y => exact ⟨h.1, h.2.1, h.2.2.1, hgf, ih hg' h.2.2.2⟩
      | opt l => simp [validItem] at h
      | ifLen k l => simp [validItem] at h

omit [FloatEnv] in
theorem list_nogreedy (l : LName) : ∀ nf ∈ l.fields, nf.2.leaf ≠ .greedy := by cases l <;> decide

omit [FloatEnv] in
theorem list_maxSize (l : LName) (len : Nat) : fixedFields l.fields = true ∧ maxSize ⟨len⟩ l.fields = recordSize l len := by
  cases l
  case playlist =>
    by_cases h : len % 60 = 0 <;>
      simp [LName.fields, fixedFields, maxSize, leafMax, leafSize, recordSize, u32, u16, u8, i32, h]
  all_goals simp [LName.fields, fixedFields, maxSize, leafMax, leafSize, recordSize, u32, u16, u8, i32]

/-- **C134**, items of list events (notes, controllers, playlist items, mixer parameters): assigning a value that fits to a field of
an item overwrites the bytes of this field of this item in the saved file, and no others. -/
theorem C134_item {p : Project} {file : Bytes} (hs : saveBytes p = .ok file) {i : Nat} {e : Event} (hi : p.events[i]? = some e)
    {ln : LName} {recs : List Rec} (hk : e.kind = .list ln) (hval : e.value = .items recs) (hv : validValue e.kind e.len e.value)
    {j : Nat} {rec : Rec} (hj : recs[j]? = some rec) {n : String} {place w : Nat} {l : Leaf} (hn : (n, place, l) ∈ listLayout ln)
    (hw : fieldWidth l = some w) {y x : LV} (hy : rec.lookup n = some (some y)) (hx : leafValid l x) :
    ∃ file' start,
      saveBytes { p with events := p.events.set i { e with value := .items (recs.set j (Rec.put rec n (some x))) } } = .ok file' ∧
      DataStart p i start ∧ Overwritten file file' (start + (recordSize ln e.len * j + place)) w ∧
      FieldMeans l (bytesAt file (start + (recordSize ln e.len * j + place)) w) [] y ∧
      FieldMeans l (bytesAt file' (start + (recordSize ln e.len * j + place)) w) [] x := by
  rw [hk, hval] at hv
  have hput : Rec.put rec n (some x) = Rec.update rec n (some x) := by unfold Rec.put; rw [hy]; rfl
  obtain ⟨p1, -, -, -, hnd⟩ := listLayout_places ln e.len
  obtain ⟨z1, z2⟩ := list_maxSize ln e.len
  have hvf : ∀ r ∈ recs, validFields ⟨e.len⟩ ln.fields r := fun r hr => item_fields (list_nogreedy ln) (hv.1 r hr)
  obtain ⟨a, c, c', b, g1, g2, g3, g4, g5, g6, g7⟩ :=
    list_patch hnd hvf (fun r hr bs hb => (structBuild_valid_size _ z1 (hvf r hr) hb).trans z2) hj (p1 _ hn) hw hy hx
  have h1 : e.payload = .ok (a ++ c ++ b) := by
    unfold Event.payload; rw [hk, hval]; exact g1
  have h2 : Event.payload { e with value := .items (recs.set j (Rec.put rec n (some x))) } = .ok (a ++ c' ++ b) := by
    unfold Event.payload; dsimp only; rw [hk, hput]; exact g2
  obtain ⟨file', start, f1, f2, f3, f4, f5⟩ := file_patch hs hi h1 h2 (g5.trans g4.symm)
  rw [g3, g4] at f3 f4 f5
  exact ⟨file', start, f1, f2, f3, by rw [f4]; exact g6 _, by rw [f5]; exact g7 _⟩

/-- **C134**, events that are one number: assigning a value that fits overwrites the data of this event in the saved file, and no
other bytes. -/
theorem C134_number {p : Project} {file : Bytes} (hs : saveBytes p = .ok file) {i : Nat} {e : Event} (hi : p.events[i]? = some e)
    {l : Leaf} (hk : e.kind.leaf = some l) {y x : LV} (hval : e.value = .lv y) (hv : leafValid l y) (hx : leafValid l x) :
    ∃ file' start w, fieldWidth l = some w ∧ saveBytes { p with events := p.events.set i { e with value := .lv x } } = .ok file' ∧
      DataStart p i start ∧ Overwritten file file' start w ∧
      FieldMeans l (bytesAt file start w) [] y ∧ FieldMeans l (bytesAt file' start w) [] x := by
  obtain ⟨w, hw⟩ : ∃ w, fieldWidth l = some w := by
    cases hkk : e.kind <;> rw [hkk] at hk <;> simp only [Kind.leaf, reduceCtorEq, Option.some.injEq] at hk <;> subst hk <;> exact ⟨_, rfl⟩
  obtain ⟨c, g1, g2, g3⟩ := valid_width hw hv
  obtain ⟨c', g1', g2', g3'⟩ := valid_width hw hx
  have build : ∀ {z : LV} {d : Bytes}, leafBuild l (some z) = .ok d → leafValid l z → Kind.build e.kind e.len (.lv z) = .ok d := by
    intro z d hd hz
    cases hkk : e.kind <;> rw [hkk] at hk <;> simp only [Kind.leaf, reduceCtorEq, Option.some.injEq] at hk <;> subst hk <;>
      (unfold Kind.build; exact hd)
  have h1 : e.payload = .ok ([] ++ c ++ []) := by
    unfold Event.payload; rw [hval]; simpa using build g1 hv
  have h2 : Event.payload { e with value := .lv x } = .ok ([] ++ c' ++ []) := by
    unfold Event.payload; dsimp only; simpa using build g1' hx
  obtain ⟨file', start, f1, f2, f3, f4, f5⟩ := file_patch hs hi h1 h2 (g2'.trans g2.symm)
  simp only [List.length_nil, Nat.add_zero, g2] at f3 f4 f5
  exact ⟨file', start, w, hw, f1, f2, f3, by rw [f4]; exact g3 _, by rw [f5]; exact g3' _⟩

omit [FloatEnv] in
theorem structLayout_names (s : SName) (len : Nat) : (structLayout s len).map Prod.fst = (structLayout s 0).map Prod.fst := by
  cases s <;> rfl

omit [FloatEnv] in
/-- **C134**: every property of the table that stands for a field of a struct event has a place (the fields of `Arp` are no fields of
any event, see C75; the one of `AutomationLFO` is in the data of automation clips). -/
theorem C134_placed : ∀ p ∈ propTable, p.cls ≠ "Arp" → ∀ key, p.acc = .field key → ∀ id ∈ p.idsOf, ∀ s, p.kindAt id = some (.struct s) →
    ∀ len, ∃ place l, (key, place, l) ∈ structLayout s len := by
  have fin : ∀ p ∈ propTable, p.cls ≠ "Arp" → ∀ id ∈ p.idsOf, (match p.acc, p.kindAt id with
      | .field key, some (.struct s) => ((structLayout s 0).map Prod.fst).contains key
      | _, _ => true) = true := by decide +kernel
  intro p hp ha key hacc id hid s hk len
  have := fin p hp ha id hid
  rw [hacc, hk] at this
  simp only [List.contains_eq_mem, decide_eq_true_eq] at this
  rw [← structLayout_names s len] at this
  obtain ⟨⟨n, place, l⟩, h1, rfl⟩ := List.mem_map.1 this
  exact ⟨place, l, h1⟩

/-- **C134**, properties: assigning a value that fits to a property that stands for a field of a struct event overwrites the bytes of
this field of this event in the saved file, and no others. -/
theorem C134_property {w w' : World} {L : Nat → Prop} (r : WReach w L) {t : Nat} (ht : L t) (ver : PyVer) (ids : List Nat) (key : String)
    {k : Nat} {e : Event} (hT : Target (w.events t) ids k e) {s : SName} (hk : e.kind = .struct s)
    (hv : validValue e.kind e.len e.value) {place width : Nat} {l : Leaf} (hn : (key, place, l) ∈ structLayout s e.len)
    (hw : fieldWidth l = some width) {x : LV} (hx : leafValid l x)
    (h : (Access.descr ver ids none (.field key)).write w t x = (w', .ok ())) {before : Bytes} (hb : saveBytes w.project = .ok before) :
    ∃ i start after, w.project.events[i]? = some e ∧ DataStart w.project i start ∧ saveBytes w'.project = .ok after ∧
      Overwritten before after (start + place) width ∧ FieldMeans l (bytesAt after (start + place) width) [] x := by
  obtain ⟨ref, g1, g2, g3, g4, ⟨i, i1, i2, i3⟩, g5⟩ := write_spec r ht (structProp ids key) rfl x hT
  have h' : (structProp ids key).write w t x = (w', .ok ()) := h
  rw [g5] at h'
  have hrec : ∃ rec, e.value = .fields rec := by
    rw [hk] at hv
    cases hval : e.value <;> rw [hval] at hv <;> first | exact ⟨_, rfl⟩ | skip
    all_goals first | exact hv.elim | (obtain ⟨l', h1, -⟩ := hv; cases h1)
  obtain ⟨rec, hval⟩ := hrec
  have hset : (structProp ids key).set e x = structSet e key (some x) := rfl
  rw [hset] at h'
  unfold structSet at h'
  rw [hval] at h'
  dsimp only at h'
  cases hl : Rec.lookup rec key with
  | none => rw [hl] at h'; cases h'
  | some o =>
    rw [hl] at h'
    cases o with
    | none => cases h'
    | some y =>
      dsimp only at h'
      obtain ⟨file', start, f1, f2, f3, -, f5⟩ := C134_field hb i2 hk hval hv hn hw hl hx
      have hp : w'.project = { w.project with events := w.project.events.set i { e with value := .fields (Rec.update rec key (some x)) } } := by
        have : w' = w.setEv ref { e with value := .fields (Rec.update rec key (some x)) } := by
          injection h' with h' _; exact h'.symm
        rw [this]; exact i3 _
      rw [← hp] at f1
      exact ⟨i, start, file', i2, f2, f1, f3, f5⟩

/-- The demo project: `plugin.bass = 9` overwrites four bytes, those of the bass, at 4 in the data of the plugin; and switching a channel
off overwrites the one byte of the event that says so. -/
example : (∃ file' start, DataStart Demo.project 4 start ∧ Overwritten Demo.file file' (start + 4) 4 ∧
      FieldMeans (.int 4 false) (bytesAt file' (start + 4) 4) [] (.int 9)) ∧
    ∃ file' start w, DataStart Demo.project 8 start ∧ Overwritten Demo.file file' start w := by
  constructor
  · obtain ⟨f, s, -, h2, h3, -, h5⟩ := C134_field Demo.saved (i := 4) rfl (s := .booBass) rfl rfl
      ⟨rfl, rfl, rfl, (by decide), rfl, rfl, nofun, rfl, rfl, nofun, rfl, rfl, nofun, trivial⟩
      (n := "bass") (place := 4) (w := 4) (l := .int 4 false) (by decide) rfl rfl (x := .int 9) rfl
    exact ⟨f, s, h2, h3, h5⟩
  · obtain ⟨f, s, w, -, -, h2, h3, -⟩ := C134_number Demo.saved (i := 8) rfl (l := .flag) rfl (x := .bool false) rfl trivial trivial
    exact ⟨f, s, w, h2, h3⟩

/-- The same assignment as a property. -/
example : ∃ w' i start after, (Access.descr .from311 [213] none (.field "bass")).write (World.ofProject Demo.project) 0 (.int 9) = (w', .ok ()) ∧
    saveBytes w'.project = .ok after ∧ DataStart Demo.project i start ∧ Overwritten Demo.file after (start + 4) 4 := by
  have hT : Target ((World.ofProject Demo.project).events 0) [213] 4 Demo.project.events[4] := by
    rw [show (World.ofProject Demo.project).events 0 = Demo.project.events from rfl]
    exact .inr ⟨[], [], Demo.project.events.take 4, Demo.project.events.drop 5, rfl, by simp, rfl, by decide, rfl⟩
  obtain ⟨w', hw⟩ : ∃ w', (Access.descr .from311 [213] none (.field "bass")).write (World.ofProject Demo.project) 0 (.int 9) = (w', .ok ()) :=
    ⟨_, rfl⟩
  obtain ⟨i, start, after, -, h2, h3, h4, -⟩ := C134_property (.parsed Demo.project) rfl .from311 [213] "bass" hT (s := .booBass) rfl
    ⟨rfl, rfl, rfl, (by decide), rfl, rfl, nofun, rfl, rfl, nofun, rfl, rfl, nofun, trivial⟩
    (place := 4) (width := 4) (l := .int 4 false) (by decide) rfl (x := .int 9) rfl hw Demo.saved
  exact ⟨w', i, start, after, hw, h3, h2, h4⟩

open Demo in
/-- Two notes: `notes[1].velocity = 90` overwrites one byte, at 24 + 21 in the data of the notes. -/
example {file : Bytes} (hs : saveBytes played = .ok file) : ∃ file' start, DataStart played 3 start ∧
    Overwritten file file' (start + (24 * 1 + 21)) 1 := by
  obtain ⟨f, s, -, h2, h3, -⟩ := C134_item hs (i := 3) rfl (ln := .notes) rfl rfl
    ⟨fun r hr => by
      simp only [List.mem_cons, List.not_mem_nil, or_false, or_self] at hr
      subst hr
      exact ⟨rfl, rfl, rfl, rfl, rfl, rfl, rfl, rfl, rfl, rfl, rfl, rfl, rfl, rfl, rfl, rfl, rfl, rfl, rfl, rfl, rfl,
        rfl, rfl, rfl, rfl, rfl, rfl, rfl, trivial⟩, nofun⟩
    (j := 1) rfl (n := "velocity") (place := 21) (w := 1) (l := .int 1 false) (by decide) rfl rfl (x := .int 90) rfl
  exact ⟨f, s, h2, h3⟩

namespace Spec

/-- One assignment of a value that fits: the project before, the place and size in its file of the field that is assigned, and the
project after. -/
inductive FieldWrite [FloatEnv] : Project → Nat × Nat → Project → Prop
  /-- a field of a struct event -/
  | field {p : Project} {i : Nat} {e : Event} {s : SName} {rec : Rec} {n : String} {start place w : Nat} {l : Leaf} {y x : LV} :
      p.events[i]? = some e → e.kind = .struct s → e.value = .fields rec → (n, place, l) ∈ structLayout s e.len →
      fieldWidth l = some w → rec.lookup n = some (some y) → leafValid l x → DataStart p i start →
      FieldWrite p (start + place, w) { p with events := p.events.set i { e with value := .fields (Rec.update rec n (some x)) } }
  /-- a field of an item of a list event -/
  | item {p : Project} {i : Nat} {e : Event} {ln : LName} {recs : List Rec} {j : Nat} {rec : Rec} {n : String}
      {start place w : Nat} {l : Leaf} {y x : LV} :
      p.events[i]? = some e → e.kind = .list ln → e.value = .items recs → recs[j]? = some rec → (n, place, l) ∈ listLayout ln →
      fieldWidth l = some w → rec.lookup n = some (some y) → leafValid l x → DataStart p i start →
      FieldWrite p (start + (recordSize ln e.len * j + place), w)
        { p with events := p.events.set i { e with value := .items (recs.set j (Rec.put rec n (some x))) } }
  /-- an event that is one number -/
  | number {p : Project} {i : Nat} {e : Event} {l : Leaf} {y x : LV} {start w : Nat} :
      p.events[i]? = some e → e.kind.leaf = some l → e.value = .lv y → fieldWidth l = some w → leafValid l x → DataStart p i start →
      FieldWrite p (start, w) { p with events := p.events.set i { e with value := .lv x } }

/-- Any number of such assignments, with the places of the fields. -/
inductive FieldWrites [FloatEnv] : Project → List (Nat × Nat) → Project → Prop
  | none {p : Project} : FieldWrites p [] p
  | more {p q r : Project} {a : Nat × Nat} {places : List (Nat × Nat)} :
      FieldWrite p a q → FieldWrites q places r → FieldWrites p (a :: places) r

end Spec

theorem dataStart_unique {p : Project} {i a b : Nat} (ha : DataStart p i a) (hb : DataStart p i b) : a = b := by
  obtain ⟨raws, e, head, data, h1, h2, h3, h4, h5⟩ := ha
  obtain ⟨raws', e', head', data', g1, g2, g3, g4, g5⟩ := hb
  rw [h2] at g2; cases g2
  rw [h3] at g3; cases g3
  rw [h4] at g4
  have hh : head = head' := by
    have : head ++ data = head' ++ data := by injection g4
    exact List.append_cancel_right this
  have hr : raws = raws' := by
    rw [h1] at g1
    exact (List.map_inj_right fun x y h => by injection h).1 g1
  rw [h5, g5, hh, hr]

omit [FloatEnv] in
theorem fieldPlaces_leaf {len : Nat} {fs : Fields} {off : Nat} {n : String} {o : Nat} {l : Leaf} (h : (n, o, l) ∈ fieldPlaces len fs off) :
    ∃ f, (n, f) ∈ fs ∧ f.leaf = l := by
  induction fs generalizing off with
  | nil => cases h
  | cons nf fs ih =>
    obtain ⟨n', f⟩ := nf
    have up : ∀ {off}, (n, o, l) ∈ fieldPlaces len fs off → ∃ f', (n, f') ∈ (n', f) :: fs ∧ f'.leaf = l := fun h =>
      let ⟨f', h1, h2⟩ := ih h
      ⟨f', List.mem_cons_of_mem _ h1, h2⟩
    unfold fieldPlaces at h
    split at h
    · exact up h
    · next hp =>
      split at h
      · cases h
      · rcases List.mem_cons.1 h with h | h
        · cases h
          refine ⟨f, by simp, ?_⟩
          unfold present at hp
          split at hp
          · cases hp; rfl
          · cases hp; rfl
          · split at hp
            · cases hp; rfl
            · cases hp
          · split at hp
            · cases hp; rfl
            · cases hp
        · exact up h

omit [FloatEnv] in
theorem name_field {fs : Fields} (hnd : (fs.map Prod.fst).Nodup) {n : String} {f f' : Fld} (h : (n, f) ∈ fs) (h' : (n, f') ∈ fs) : f = f' := by
  induction fs with
  | nil => cases h
  | cons a fs ih =>
    simp only [List.map_cons, List.nodup_cons] at hnd
    rcases List.mem_cons.1 h with rfl | h1 <;> rcases List.mem_cons.1 h' with h2 | h2
    · cases h2; rfl
    · exact absurd (List.mem_map.2 ⟨_, h2, rfl⟩) hnd.1
    · subst h2; exact absurd (List.mem_map.2 ⟨_, h1, rfl⟩) hnd.1
    · exact ih hnd.2 h1 h2

/-- An assignment of a value that fits leaves values that fit. -/
theorem fieldWrite_valid {p q : Project} {a : Nat × Nat} (h : FieldWrite p a q) (hv : ∀ e ∈ p.events, validValue e.kind e.len e.value) :
    ∀ e ∈ q.events, validValue e.kind e.len e.value := by
  have fits : ∀ {len : Nat} {fs : Fields}, (fs.map Prod.fst).Nodup → ∀ {n : String} {o : Nat} {l : Leaf} {w : Nat} {x : LV},
      (n, o, l) ∈ fieldPlaces len fs 0 → fieldWidth l = some w → leafValid l x → ∀ f, (n, f) ∈ fs → leafValid f.leaf x ∧ f.leaf ≠ .greedy := by
    intro len fs hnd n o l w x hp hw hx f hf
    obtain ⟨f', h1, h2⟩ := fieldPlaces_leaf hp
    rw [name_field hnd hf h1, h2]
    exact ⟨hx, by rintro rfl; cases hw⟩
  intro e' he'
  cases h with
  | @field i e s rec n start place w l y x hi hk hval hn hw hy hx _ =>
    rcases List.mem_or_eq_of_mem_set he' with h | rfl
    · exact hv _ h
    · have := hv e (List.mem_of_getElem? hi)
      dsimp only
      rw [hk, hval] at this
      rw [hk]
      exact validFields_update this hy (fits (fields_nodup s) ((structLayout_places s e.len).1 _ hn) hw hx)
  | @item i e ln recs j rec n start place w l y x hi hk hval hj hn hw hy hx _ =>
    rcases List.mem_or_eq_of_mem_set he' with h | rfl
    · exact hv _ h
    · have := hv e (List.mem_of_getElem? hi)
      dsimp only
      rw [hk, hval] at this
      rw [hk]
      obtain ⟨p1, -, -, -, hnd⟩ := listLayout_places ln e.len
      have hput : Rec.put rec n (some x) = Rec.update rec n (some x) := by unfold Rec.put; rw [hy]; rfl
      refine ⟨fun r hr => ?_, by rw [List.length_set]; exact this.2⟩
      rcases List.mem_or_eq_of_mem_set hr with hr | rfl
      · exact this.1 _ hr
      · rw [hput]
        exact validItem_update (this.1 _ (List.mem_of_getElem? hj)) hy fun f hf => (fits hnd (p1 _ hn) hw hx f hf).1
  | @number i e l y x start w hi hk hval hw hx _ =>
    rcases List.mem_or_eq_of_mem_set he' with h | rfl
    · exact hv _ h
    · dsimp only
      cases hkk : e.kind <;> rw [hkk] at hk <;> simp only [Kind.leaf, reduceCtorEq, Option.some.injEq] at hk <;> subst hk <;>
        exact ⟨_, rfl, hx⟩

theorem fieldWrite_saves {p q : Project} {a : Nat × Nat} (h : FieldWrite p a q) (hv : ∀ e ∈ p.events, validValue e.kind e.len e.value)
    {file : Bytes} (hs : saveBytes p = .ok file) : ∃ file', saveBytes q = .ok file' ∧ Overwritten file file' a.1 a.2 := by
  cases h with
  | @field i e s rec n start place w l y x hi hk hval hn hw hy hx hd =>
    obtain ⟨f, s', f1, f2, f3, -⟩ := C134_field hs hi hk hval (hv e (List.mem_of_getElem? hi)) hn hw hy hx
    rw [dataStart_unique f2 hd] at f3
    exact ⟨f, f1, f3⟩
  | @item i e ln recs j rec n start place w l y x hi hk hval hj hn hw hy hx hd =>
    obtain ⟨f, s', f1, f2, f3, -⟩ := C134_item hs hi hk hval (hv e (List.mem_of_getElem? hi)) hj hn hw hy hx
    rw [dataStart_unique f2 hd] at f3
    exact ⟨f, f1, f3⟩
  | @number i e l y x start w hi hk hval hw hx hd =>
    have hl : leafValid l y := by
      have := hv e (List.mem_of_getElem? hi)
      rw [hval] at this
      cases hkk : e.kind <;> rw [hkk] at hk this <;> simp only [Kind.leaf, reduceCtorEq, Option.some.injEq] at hk <;> subst hk
      all_goals
        obtain ⟨l', h1, h2⟩ := this
        cases h1
        exact h2
    obtain ⟨f, s', w', hw', f1, f2, f3, -⟩ := C134_number hs hi hk hval hl hx
    rw [hw] at hw'; cases hw'
    rw [dataStart_unique f2 hd] at f3
    exact ⟨f, f1, f3⟩

omit [FloatEnv] in
theorem overwritten_byte {a b : Bytes} {place w : Nat} (h : Overwritten a b place w) {k : Nat} (hk : k < place ∨ place + w ≤ k) :
    b[k]? = a[k]? := by
  rcases hk with hk | hk
  · rw [← List.getElem?_take_of_lt hk, h.front, List.getElem?_take_of_lt hk]
  · obtain ⟨d, rfl⟩ := Nat.exists_eq_add_of_le hk
    rw [← List.getElem?_drop, h.back, List.getElem?_drop]

/-- **C134**, any number of assignments: the saved file has the same size, and every byte that is in none of the assigned fields is as
it was. -/
theorem C134_history {p q : Project} {places : List (Nat × Nat)} (h : FieldWrites p places q)
    (hv : ∀ e ∈ p.events, validValue e.kind e.len e.value) {file : Bytes} (hs : saveBytes p = .ok file) :
    ∃ file', saveBytes q = .ok file' ∧ file'.length = file.length ∧
      ∀ k, (∀ a ∈ places, k < a.1 ∨ a.1 + a.2 ≤ k) → file'[k]? = file[k]? := by
  induction h generalizing file with
  | none => exact ⟨file, hs, rfl, fun _ _ => rfl⟩
  | more hw _ ih =>
    obtain ⟨f, f1, f2⟩ := fieldWrite_saves hw hv hs
    obtain ⟨f', g1, g2, g3⟩ := ih (fieldWrite_valid hw hv) f1
    refine ⟨f', g1, g2.trans f2.size, fun k hk => ?_⟩
    rw [g3 k fun a ha => hk a (List.mem_cons_of_mem _ ha), overwritten_byte f2 (hk _ (by simp))]

/-- **C134**, the file that was opened: if it is as PyFLP itself writes files (C05), then after any number of such assignments the
saved file is the file that was opened with the bytes of the assigned fields changed, and no others. -/
theorem C134_opened {file : Bytes} {p q : Project} (ho : parseFile file = .ok p) (fs : List (Nat × Bytes)) (hfs : file.drop 22 = frames fs)
    (hok : ∀ f ∈ fs, FrameOK f) (hc : p.channelCount = channelStarts p.events) (hpos : channelStarts p.events ≠ 0)
    (hcanon : ∀ x ∈ fs.zip p.events, canonPayload x.2.kind x.1.2) (hv : ∀ e ∈ p.events, validValue e.kind e.len e.value)
    {places : List (Nat × Nat)} (h : FieldWrites p places q) :
    ∃ file', saveBytes q = .ok file' ∧ file'.length = file.length ∧
      ∀ k, (∀ a ∈ places, k < a.1 ∨ a.1 + a.2 ≤ k) → file'[k]? = file[k]? :=
  C134_history h hv (C05_parse_save file p ho fs hfs hok hc hpos hcanon)

/-- The demo project, `plugin.bass = 9` and then a channel switched off: two fields, five bytes. -/
example : ∃ a b q file', FieldWrites Demo.project [(a + 4, 4), (b, 1)] q ∧ saveBytes q = .ok file' ∧ file'.length = Demo.file.length ∧
    ∀ k, (k < a + 4 ∨ a + 8 ≤ k) ∧ (k < b ∨ b + 1 ≤ k) → file'[k]? = Demo.file[k]? := by
  obtain ⟨f, a, h1, h2, -⟩ := C134_field Demo.saved (i := 4) rfl (s := .booBass) rfl rfl (Demo.valid _ (by simp [Demo.project, Demo.events]))
      (n := "bass") (place := 4) (w := 4) (l := .int 4 false) (by decide) rfl rfl (x := .int 9) rfl
  obtain ⟨f', b, w, hw, -, h4, -⟩ := C134_number h1 (i := 8) rfl (l := .flag) rfl (x := .bool false) rfl trivial trivial
  cases hw
  have H : FieldWrites Demo.project [(a + 4, 4), (b, 1)] _ :=
    .more (.field (i := 4) rfl (s := .booBass) rfl rfl (n := "bass") (place := 4) (w := 4) (l := .int 4 false) (by decide) rfl rfl
        (x := .int 9) rfl h2)
      (.more (.number (i := 8) rfl (l := .flag) rfl rfl rfl (x := .bool false) trivial h4) .none)
  obtain ⟨file', g1, g2, g3⟩ := C134_history H Demo.valid Demo.saved
  exact ⟨a, b, _, file', H, g1, g2, fun k hk => g3 k (by
    intro p hp
    simp only [List.mem_cons, List.not_mem_nil, or_false] at hp
    rcases hp with rfl | rfl
    · exact hk.1
    · exact hk.2)⟩

end PyFLP
