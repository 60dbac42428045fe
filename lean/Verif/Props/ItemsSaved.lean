import Verif.Props.Notes
import Verif.Props.PropSaved
/-!
# Edited notes, controllers, playlist items and points in saved files (C103) and slides (C104)
-/

namespace PyFLP

open Spec Heap

/-! ### Statement -/

namespace Spec

/-- The edit stores a value that fits the field: the record has the field, and the value can be written. -/
def EditFits [FloatEnv] (l : LName) (recs : List Rec) (e : Edit) : Prop :=
  ∃ x, e.2.2 = some x ∧ (∀ f, (e.2.1, f) ∈ l.fields → leafValid f.leaf x) ∧
    ∀ r, recs[e.1]? = some r → ∃ old, Rec.lookup r e.2.1 = some (some old)

end Spec

variable [FloatEnv]

theorem edits_valid {l : LName} {len : Nat} (es : List Edit) {recs : List Rec}
    (hv : ∀ r ∈ recs, validItem ⟨len⟩ l.fields r) (he : ∀ e ∈ es, EditFits l recs e) :
    ∀ r ∈ es.foldl applyEdit recs, validItem ⟨len⟩ l.fields r := by
  induction es generalizing recs with
  | nil => exact hv
  | cons e es ih =>
    rw [List.foldl_cons]
    obtain ⟨x, hx, hf, hold⟩ := he e (by simp)
    refine ih ?_ ?_
    · intro r hr
      obtain ⟨i, hi⟩ := List.mem_iff_getElem?.1 hr
      unfold applyEdit at hi
      rw [List.getElem?_modify] at hi
      cases hri : recs[i]? with
      | none => rw [hri] at hi; simp at hi
      | some r0 =>
        have hv0 := hv r0 (List.mem_of_getElem? hri)
        rw [hri] at hi
        by_cases h : e.1 = i
        · obtain ⟨old, ho⟩ := hold r0 (by rw [h]; exact hri)
          simp only [Option.map_eq_map, Option.map_some, if_pos h, Option.some.injEq] at hi
          subst hi
          unfold Rec.put
          rw [if_pos (by rw [ho]; rfl), hx]
          exact validItem_update hv0 ho hf
        · simp only [Option.map_eq_map, Option.map_some, if_neg h, Option.some.injEq] at hi
          subst hi
          exact hv0
    · intro e' he'
      obtain ⟨x', hx', hf', hold'⟩ := he e' (List.mem_cons_of_mem _ he')
      refine ⟨x', hx', hf', ?_⟩
      intro r hr
      unfold applyEdit at hr
      rw [List.getElem?_modify] at hr
      cases hri : recs[e'.1]? with
      | none => rw [hri] at hr; simp at hr
      | some r0 =>
        obtain ⟨old, ho⟩ := hold' r0 hri
        rw [hri] at hr
        by_cases h : e.1 = e'.1
        · simp only [Option.map_eq_map, Option.map_some, if_pos h, Option.some.injEq] at hr
          subst hr
          by_cases hk : e'.2.1 = e.2.1
          · rw [hk, (lookup_put _ _ _).1, hx]
            exact ⟨x, rfl⟩
          · rw [(lookup_put _ _ _).2 _ hk]
            exact ⟨old, ho⟩
        · simp only [Option.map_eq_map, Option.map_some, if_neg h, Option.some.injEq] at hr
          subst hr
          exact ⟨old, ho⟩

/-- Bytes of a list event with fitting records: their number depends on the number of records only. -/
theorem list_bytes {e : Event} {l : LName} (hk : e.kind = .list l) (hid : e.id < 256) {recs recs' : List Rec}
    (hv : ∀ r ∈ recs, validItem ⟨e.len⟩ l.fields r) (hv' : ∀ r ∈ recs', validItem ⟨e.len⟩ l.fields r)
    (hlen : recs'.length = recs.length) :
    ∃ x y, Event.toBytes { e with value := .items recs } = .ok x ∧
      Event.toBytes { e with value := .items recs' } = .ok y ∧ x.length = y.length := by
  obtain ⟨b, hb, bl, -⟩ := greedy_roundtrip ⟨e.len⟩ (itemSize_list l e.len) (l.size_pos e.len) hv
  obtain ⟨b', hb', bl', -⟩ := greedy_roundtrip ⟨e.len⟩ (itemSize_list l e.len) (l.size_pos e.len) hv'
  rw [hlen, ← bl] at bl'
  have hi := intBuild_nat (w := 1) (n := e.id) (by omega)
  have p1 : Event.payload { e with value := .items recs } = .ok b := by
    unfold Event.payload; dsimp only; rw [hk]; exact hb
  have p2 : Event.payload { e with value := .items recs' } = .ok b' := by
    unfold Event.payload; dsimp only; rw [hk]; exact hb'
  unfold Event.toBytes
  rw [p1, p2]
  dsimp only
  rw [hi]
  dsimp only
  by_cases h : e.id < 192
  · rw [if_pos h, if_pos h]; exact ⟨_, _, rfl, rfl, by simp [bl']⟩
  · rw [if_neg h, if_neg h]; exact ⟨_, _, rfl, rfl, by simp [bl']⟩

omit [FloatEnv] in
theorem flatten_set {raws : List Bytes} {i : Nat} {x y : Bytes} (hx : raws[i]? = some x) (hl : x.length = y.length) :
    (raws.set i y).flatten.length = raws.flatten.length := by
  induction raws generalizing i with
  | nil => cases hx
  | cons a raws ih =>
    cases i with
    | zero => cases hx; simp [hl]
    | succ i =>
      simp only [List.getElem?_cons_succ] at hx
      simp only [List.set_cons_succ, List.flatten_cons, List.length_append, ih hx]

/-- C103. Any edits of notes, controllers, playlist items through item objects, with values that fit, leave a
project that can be saved, into a file of the same size; parsing that file gives the same events, except that
the edited event has its records with exactly the edits made to each. -/
theorem C103_saved [UniEnv] {p : Project} {file : Bytes} (hf : p.format ∈ formats) (hq : p.ppq ∈ ppqs)
    (hwt : WellTyped p.events) (hv : ∀ e ∈ p.events, validValue e.kind e.len e.value) (hsave : saveBytes p = .ok file)
    {i : Nat} {e : Event} (hi : p.events[i]? = some e) {l : LName} (hk : e.kind = .list l) {recs : List Rec}
    (hrecs : e.value = .items recs) {s : ListObj} {hs : List Item} {es : List Edit} (r : IReach recs s hs es)
    (hes : ∀ x ∈ es, EditFits l recs x) :
    ∃ file' q recs', saveBytes { p with events := p.events.set i { e with value := .items s.value } } = .ok file' ∧
      file'.length = file.length ∧ parseFile file' = .ok q ∧ q.format = p.format ∧ q.ppq = p.ppq ∧
      q.events.map observe = (p.events.set i { e with value := .items recs' }).map observe ∧
      recs'.length = recs.length ∧
      ∀ j : Nat, recs'[j]? = recs[j]?.map fun rec =>
        (es.filter fun x => x.1 = j).foldl (fun rec x => Rec.put rec x.2.1 x.2.2) rec := by
  obtain ⟨c1, c2⟩ := C40_edits r
  have hve := hv e (List.mem_of_getElem? hi)
  rw [hk, hrecs] at hve
  obtain ⟨v1, v2⟩ := hve
  have hvs : ∀ r ∈ s.value, validItem ⟨e.len⟩ l.fields r := by
    rw [ireach_value r]; exact edits_valid es v1 hes
  have hil := List.getElem?_eq_some_iff.1 hi
  have hsplit : p.events = p.events.take i ++ e :: p.events.drop (i + 1) := by
    have := List.take_append_drop i p.events
    rw [List.drop_eq_getElem_cons hil.1, hil.2] at this
    exact this.symm
  have hsplit' : p.events.set i { e with value := .items s.value } =
      p.events.take i ++ { e with value := .items s.value } :: p.events.drop (i + 1) := by
    rw [List.set_eq_take_append_cons_drop, if_pos hil.1]
  have hkind := (hwt _ _ _ hsplit).2.1
  have hid : e.id < 256 := (hwt _ _ _ hsplit).1
  have hlistid : ∀ id : Nat, id = 199 ∨ id = 201 → ∀ before l, kindOf before id ≠ some (.list l) := by
    have htext : ∀ before l, textKind before ≠ some (.list l) := by
      intro before l h
      unfold textKind at h
      split at h
      · cases h
      split at h
      · cases h
      · split at h <;> cases h
    rintro id (rfl | rfl) before l h <;> unfold kindOf at h
    · rw [show enumType enums 199 = some .ascii by decide +kernel] at h
      cases h
    · rw [show enumType enums 201 = none by decide +kernel] at h
      exact htext _ _ h
  have h199 : e.id ≠ 199 := fun h => hlistid _ (.inl h) _ _ (hkind.trans (by rw [hk]))
  have h201 : e.id ≠ 201 := fun h => hlistid _ (.inr h) _ _ (hkind.trans (by rw [hk]))
  have hwt' : WellTyped (p.events.set i { e with value := .items s.value }) := by
    rw [hsplit']
    refine wellTyped_replace (e := e) (hsplit ▸ hwt) rfl rfl (fun h => absurd h h199) ?_ (fun h => absurd h h201)
    rw [textKind_append, textKind_append]
    simp [h199]
  have hv' : ∀ y ∈ p.events.set i { e with value := .items s.value }, validValue y.kind y.len y.value := by
    intro y hy
    rcases List.mem_or_eq_of_mem_set hy with hy | rfl
    · exact hv y hy
    · show validValue e.kind e.len (.items s.value)
      rw [hk]
      exact ⟨hvs, by rw [c1]; exact v2⟩
  obtain ⟨x, y, hx, hy, hxy⟩ := list_bytes (e := e) hk hid v1 hvs c1
  have hx' : e.toBytes = .ok x := by
    rw [← hx, ← hrecs]
  obtain ⟨raws, k1, k2, k3, k4, k5⟩ := (C03_save_succeeds p).1 ⟨_, hsave⟩
  have hri : raws[i]? = some x := by
    have := congrArg (fun z => z[i]?) k1
    simp only [List.getElem?_map, hi, Option.map_some, hx'] at this
    cases hz : raws[i]? with
    | none => rw [hz] at this; cases this
    | some z => rw [hz] at this; cases this; rfl
  have hcs : channelStarts (p.events.set i { e with value := .items s.value }) = channelStarts p.events := by
    have key : ∀ l : List Event, channelStarts l = ((l.map Event.id).filter fun j => decide (j = 64)).length := by
      intro l
      unfold channelStarts
      rw [List.filter_map, List.length_map]
      rfl
    rw [key, key, set_id hi]
  have hraws : (p.events.set i { e with value := .items s.value }).map Event.toBytes = (raws.set i y).map .ok := by
    rw [List.map_set, k1, List.map_set, hy]
  obtain ⟨file', hf'⟩ := (C03_save_succeeds { p with events := p.events.set i { e with value := .items s.value } }).2
    ⟨raws.set i y, hraws, by dsimp only; rw [hcs]; exact k2, k3, k4, by rw [flatten_set hri hxy]; exact k5⟩
  obtain ⟨q, q1, q2, q3, _, q5, _⟩ := C04_save_parse
    { p with events := p.events.set i { e with value := .items s.value } } file' hf hq hwt' hv' hf'
  refine ⟨file', q, s.value, hf', ?_, q1, q2, q3, q5, c1, c2⟩
  have hlen : ∀ {p : Project} {file : Bytes} {raws : List Bytes}, saveBytes p = .ok file →
      p.events.map Event.toBytes = raws.map .ok → file.length = 22 + raws.flatten.length := by
    intro p file raws h hr
    obtain ⟨⟨_, _, _, _, _, _, _, _, _, _, raws', a1, _, _, _, _, a6⟩, _⟩ := C03_saved_header p file h
    have : raws' = raws := by
      have hinj : (raws'.map Except.ok : List (Py Bytes)) = raws.map .ok := a6.symm.trans hr
      exact List.map_inj_right (fun _ _ h => Except.ok.inj h) |>.1 hinj
    rw [a1, this]
    simp
    omega
  rw [hlen hf' hraws, hlen hsave k1, flatten_set hri hxy]

omit [FloatEnv] in
/-- C103. The notes (224) or controllers (223) of a pattern are the records of its first such event; a pattern
without one has none. -/
theorem C103_read {w : World} {L : Nat → Prop} (r : WReach w L) {t : Nat} (ht : L t) (id : Nat) :
    ((∀ e ∈ w.events t, e.id ≠ id) → w.listRecords t id = .ok []) ∧
    ∀ pre e post recs, w.events t = pre ++ e :: post → (∀ x ∈ pre, x.id ≠ id) → e.id = id → e.value = .items recs →
      w.listRecords t id = .ok recs := by
  unfold World.listRecords
  rw [World.contains_eq r ht]
  rcases World.first_value r ht id with ⟨ref, h1, h2, h3, _⟩ | ⟨h1, h2⟩
  · rw [h1, h3]
    refine ⟨fun h => ?_, fun pre e post recs hs hpre he hv => ?_⟩
    · exfalso
      unfold valueOf at h3
      cases hf : (w.events t).find? (fun e => e.id == id) with
      | none => rw [hf] at h3; cases h3
      | some x =>
        exact h x (List.mem_of_find?_eq_some hf) (by simpa using List.find?_some hf)
    · have : valueOf (w.events t) id = some (.items recs) := by
        unfold valueOf
        rw [hs, List.find?_append, List.find?_eq_none.2 (by simpa using hpre)]
        simp [he, hv]
      rw [h3] at this
      injection this with this
      simp only [this]
      rfl
  · rw [h2]
    refine ⟨fun _ => rfl, fun pre e post recs hs hpre he hv => ?_⟩
    exfalso
    unfold valueOf at h2
    rw [hs, List.find?_append, List.find?_eq_none.2 (by simpa using hpre)] at h2
    simp [he] at h2

/-! ### C104 -/

omit [FloatEnv] in
/-- The common part: what assigning `slide` does. -/
theorem slide_set {l : List Rec} {s : ListObj} {hs : List Item} {es : List Edit} (r : IReach l s hs es) {it : Item}
    (hm : it ∈ hs) {n : Nat} (hn : s.get it "flags" = .ok (some (.int n))) (ver : PyVer) (b : Bool) :
    ∃ s', ∃ m : Nat, s.setNoteSlide ver it b = (s', .ok ()) ∧ IReach l s' hs (es ++ [(it.index, "flags", some (.int m))]) ∧
      s'.value = s.value.modify it.index (fun r => Rec.put r "flags" (some (.int m))) ∧
      (m : Int) = (if b then flagOr n 8 else flagAndNot ver 8 n 8) ∧
      (∀ it' ∈ hs, it'.index = it.index → s'.get it' "flags" = .ok (some (.int m))) ∧
      (∀ it' ∈ hs, ∀ key', it'.index ≠ it.index ∨ key' ≠ "flags" → s'.get it' key' = s.get it' key') := by
  obtain ⟨m, hmm⟩ : ∃ m : Nat, (m : Int) = (if b then flagOr n 8 else flagAndNot ver 8 n 8) := by
    cases b
    · cases ver <;> exact ⟨_, rfl⟩
    · exact ⟨_, rfl⟩
  obtain ⟨s', h1, h2, h3, h4⟩ := C40_edit_step r hm "flags" (some (.int m))
  refine ⟨s', m, ?_, ?_, h2, hmm, h3, h4⟩
  · unfold ListObj.setNoteSlide
    rw [hn]
    simp only [flagWrite, flagWord, Except.map]
    rw [← h1, hmm]
    cases b <;> rfl
  · have := r.edit hm "flags" (some (.int m))
    rw [h1] at this
    exact this

omit [FloatEnv] in
/-- C104. Assigning `note.slide` always succeeds and reads back, through every object for the note; only the
flags of this note change; setting it to `True` (and, up to Python 3.10, to `False`) keeps its other flags. -/
theorem C104_slide_partial {l : List Rec} {s : ListObj} {hs : List Item} {es : List Edit} (r : IReach l s hs es) {it : Item}
    (hm : it ∈ hs) {n : Nat} (hn : s.get it "flags" = .ok (some (.int n))) (ver : PyVer) (b : Bool) :
    ∃ s', ∃ m : Nat, s.setNoteSlide ver it b = (s', .ok ()) ∧
      (∀ it' ∈ hs, it'.index = it.index → s'.noteSlide it' = .ok (some b)) ∧
      s'.value = s.value.modify it.index (fun r => Rec.put r "flags" (some (.int m))) ∧
      (∀ it' ∈ hs, ∀ key', it'.index ≠ it.index ∨ key' ≠ "flags" → s'.get it' key' = s.get it' key') ∧
      Nat.testBit m 3 = b ∧ (b = true ∨ ver = .upTo310 → ∀ i, i ≠ 3 → m.testBit i = n.testBit i) := by
  obtain ⟨s', m, h1, _, h2, h3, h4, h5⟩ := slide_set r hm hn ver b
  obtain ⟨b1, b2, _⟩ := flag_bits (ver := ver) (members := 8) (flag := 8) (by decide) (by decide) h3
  have t8 : ∀ i, Nat.testBit 8 i = decide (i = 3) := by
    intro i
    rw [show 8 = 2 ^ 3 from rfl, Nat.testBit_two_pow]
    simp [eq_comm]
  refine ⟨s', m, h1, ?_, h2, h5, b1 3 (by decide), fun hv i hi => b2 hv i (by rw [t8]; simp [hi])⟩
  intro it' hit' he
  unfold ListObj.noteSlide
  rw [h4 it' hit' he]
  simp only [flagRead, flagWord, Except.map]
  congr 2
  have hb := b1 3 (by decide)
  have : flagIn m 8 = m.testBit 3 := by
    unfold flagIn
    rw [Int.toNat_natCast]
    cases hm3 : m.testBit 3 with
    | true =>
      rw [beq_iff_eq]
      apply Nat.eq_of_testBit_eq
      intro i
      rw [Nat.testBit_and, t8]
      by_cases hi : i = 3
      · subst hi; simp [hm3]
      · simp [hi]
    | false =>
      rw [beq_eq_false_iff_ne]
      intro hc
      have := congrArg (fun x => Nat.testBit x 3) hc
      simp only [Nat.testBit_and, hm3, Bool.false_and] at this
      revert this
      decide
  rw [this, hb]
  cases b <;> rfl

omit [FloatEnv] in
/-- C104 is false from Python 3.11 on: `note.slide = False` deletes all flags of the note from 8 upwards, so also
the flag 0x4000 of a note that has it. -/
theorem C104_slide_refuted {l : List Rec} {s : ListObj} {hs : List Item} {es : List Edit} (r : IReach l s hs es) {it : Item}
    (hm : it ∈ hs) {n : Nat} (hn : s.get it "flags" = .ok (some (.int n))) :
    ∃ s', s.setNoteSlide .from311 it false = (s', .ok ()) ∧ s'.get it "flags" = .ok (some (.int (n % 8 : Nat))) := by
  obtain ⟨s', m, h1, _, _, h3, h4, _⟩ := slide_set r hm hn .from311 false
  refine ⟨s', h1, ?_⟩
  rw [h4 it hm rfl]
  have : (m : Int) = ((n &&& 7 : Nat) : Int) := h3
  rw [this]
  congr 4
  exact Nat.and_two_pow_sub_one_eq_mod n 3

namespace Demo

/-- A note with the flag 0x4000. -/
def note : Rec := [("position", some (.int 0)), ("flags", some (.int 16384)), ("rack_channel", some (.int 0)),
  ("length", some (.int 96)), ("key", some (.int 60)), ("group", some (.int 0)), ("fine_pitch", some (.int 120)),
  ("_u1", some (.int 0)), ("release", some (.int 64)), ("midi_channel", some (.int 0)), ("pan", some (.int 64)),
  ("velocity", some (.int 100)), ("mod_x", some (.int 128)), ("mod_y", some (.int 128))]

/-- The hypotheses of the theorems of C104 can be met. -/
example : ∃ s it hs, IReach [note] s hs [] ∧ it ∈ hs ∧ s.get it "flags" = .ok (some (.int (16384 : Nat))) :=
  ⟨.parse [note], ⟨0, 0⟩, _, .fetch .parsed, by decide, by decide⟩

/-- Its bytes. -/
def noteBytes : Bytes := [0, 0, 0, 0, 0, 64, 0, 0, 96, 0, 0, 0, 60, 0, 0, 0, 120, 0, 64, 0, 64, 100, 128, 128]

theorem toBytes_frame {e : Event} {b : Bytes} (hid : e.id < 256) (h : e.payload = .ok b) :
    e.toBytes = .ok (frame (e.id, b)) := by
  rw [toBytes_eq hid h]
  unfold Event.fr
  rw [pay_eq h]

/-- A pattern with two notes and a channel. -/
def played : Project := ⟨0, 1, 96, [⟨199, .ascii, .str (PStr.lit "20.8.3"), 7⟩, ⟨64, .u16, .lv (.int 0), 2⟩,
  ⟨65, .u16, .lv (.int 1), 2⟩, ⟨224, .list .notes, .items [note, note], 48⟩]⟩

/-- The hypotheses of `C103_saved` can be met, with edits of both notes. -/
example : played.format ∈ formats ∧ played.ppq ∈ ppqs ∧ WellTyped played.events ∧
    (∀ e ∈ played.events, validValue e.kind e.len e.value) ∧ (∃ file, saveBytes played = .ok file) ∧
    ∃ s hs, IReach [note, note] s hs [(0, "key", some (.int 61)), (1, "velocity", some (.int 90))] ∧
      ∀ x ∈ ([(0, "key", some (.int 61)), (1, "velocity", some (.int 90))] : List Edit), EditFits .notes [note, note] x := by
  refine ⟨by decide, by decide, wellTyped_of (by decide +kernel), ?_, ?_, ?_⟩
  · intro e he
    simp only [played, List.mem_cons, List.not_mem_nil, or_false] at he
    rcases he with rfl | rfl | rfl | rfl
    · exact ⟨by decide, by decide⟩
    · exact ⟨_, rfl, rfl⟩
    · exact ⟨_, rfl, rfl⟩
    · refine ⟨fun r hr => ?_, nofun⟩
      simp only [List.mem_cons, List.not_mem_nil, or_false, or_self] at hr
      subst hr
      exact ⟨rfl, rfl, rfl, rfl, rfl, rfl, rfl, rfl, rfl, rfl, rfl, rfl, rfl, rfl, rfl, rfl, rfl, rfl, rfl, rfl, rfl,
        rfl, rfl, rfl, rfl, rfl, rfl, rfl, trivial⟩
  · rw [C03_save_succeeds]
    refine ⟨[frame (199, [50, 48, 46, 56, 46, 51, 0]), frame (64, [0, 0]), frame (65, [1, 0]), frame (224, noteBytes ++ noteBytes)],
      ?_, by decide, by decide, by decide, by simp [frame, varBuild_small, noteBytes]⟩
    simp only [played, List.map_cons, List.map_nil]
    rw [toBytes_frame (b := [50, 48, 46, 56, 46, 51, 0]) (by decide) rfl, toBytes_frame (b := [0, 0]) (by decide) rfl,
      toBytes_frame (b := [1, 0]) (by decide) rfl, toBytes_frame (b := noteBytes ++ noteBytes) (by decide) rfl]
  · refine ⟨_, _, IReach.edit (it := ⟨1, 1⟩) (.edit (it := ⟨0, 0⟩) (.fetch .parsed) (by decide) "key" (some (.int 61))) (by decide)
      "velocity" (some (.int 90)), ?_⟩
    intro x hx
    simp only [List.mem_cons, List.not_mem_nil, or_false] at hx
    rcases hx with rfl | rfl
    · refine ⟨.int 61, rfl, fun f hf => ?_, fun r hr => ?_⟩
      · simp [LName.fields] at hf; subst hf; rfl
      · cases hr; exact ⟨_, rfl⟩
    · refine ⟨.int 90, rfl, fun f hf => ?_, fun r hr => ?_⟩
      · simp [LName.fields] at hf; subst hf; rfl
      · cases hr; exact ⟨_, rfl⟩

end Demo

end PyFLP
