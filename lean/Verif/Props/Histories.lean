import Verif.Props.Sessions
/-!
# C123: files that are opened, edited and saved again and again
-/

namespace PyFLP

open Spec Heap

namespace Spec

/-- `file'` has been made of `file` in any number of rounds: open, edit in any way (`Session`), save. -/
inductive Later [FloatEnv] [FloatAdd] [UniEnv] (removals insertions : Prop) (file : Bytes) : Bytes → Prop
  | same : Later removals insertions file file
  | round {f f' : Bytes} (h : Later removals insertions file f) {p : Project} (hopen : parseFile f = .ok p) {w : World}
      {L : Nat → Prop} (s : Session p removals insertions w L) (hs : saveBytes w.project = .ok f') :
      Later removals insertions file f'

/-- What stays the same of an event whatever is assigned: id and type. -/
def tag (e : Event) : Nat × Kind := (e.id, e.kind)

end Spec

section
variable [FloatEnv]

theorem validFields_ctx {a b : Nat} : ∀ {fs : Fields} {r : Rec}, ctxAgree fs a b → validFields ⟨a⟩ fs r → validFields ⟨b⟩ fs r
  | [], [], _, _ => trivial
  | [], _ :: _, _, h => h.elim
  | _ :: _, [], _, h => h.elim
  | (n, f) :: fs, (n', v) :: rec, hc, h => by
    have hc' : ctxAgree fs a b := fun nf hnf => hc nf (by simp [hnf])
    have hf := hc (n, f) (by simp)
    obtain ⟨hn, h⟩ := h
    refine ⟨hn, ?_⟩
    cases f <;> cases v <;> dsimp only at h hf ⊢
    case req.some => exact ⟨h.1, h.2.1, validFields_ctx hc' h.2.2⟩
    case opt.some => exact ⟨h.1, h.2.1, validFields_ctx hc' h.2.2⟩
    case opt.none => exact h
    case ifLen.some => exact ⟨hf.1 h.1, h.2.1, h.2.2.1, validFields_ctx hc' h.2.2.2⟩
    case ifLen.none => exact ⟨fun x => h.1 (hf.2 x), validFields_ctx hc' h.2⟩
    case ifNew.some => exact ⟨hf.1 h.1, h.2.1, h.2.2.1, validFields_ctx hc' h.2.2.2⟩
    case ifNew.none => exact ⟨fun x => h.1 (hf.2 x), validFields_ctx hc' h.2⟩

theorem validItem_ctx {a b : Nat} : ∀ {fs : Fields} {r : Rec}, ctxAgree fs a b → validItem ⟨a⟩ fs r → validItem ⟨b⟩ fs r
  | [], [], _, _ => trivial
  | [], _ :: _, _, h => h.elim
  | _ :: _, [], _, h => by simp [validItem] at h
  | (n, f) :: fs, (n', v) :: rec, hc, h => by
    have hc' : ctxAgree fs a b := fun nf hnf => hc nf (by simp [hnf])
    have hf := hc (n, f) (by simp)
    cases f <;> cases v <;> simp only [validItem] at h hf ⊢
    case req.some => exact ⟨h.1, h.2.1, validItem_ctx hc' h.2.2⟩
    case ifNew.some => exact ⟨h.1, hf.1 h.2.1, h.2.2.1, validItem_ctx hc' h.2.2.2⟩
    case ifNew.none => exact ⟨h.1, fun x => h.2.1 (hf.2 x), validItem_ctx hc' h.2.2⟩

/-- A value that fits its type fits it as well when it is read back. -/
theorem valid_reread {k : Kind} {a b : Nat} {v : Value} (hc : ctxAgree k.ctxFields a b) (h : validValue k a v) :
    validValue k b v := by
  cases k
  case struct s =>
    cases v <;> try exact h
    exact validFields_ctx hc h
  case list l =>
    cases v <;> try exact h
    refine ⟨fun r hr => validItem_ctx hc (h.1 r hr), fun hl h60 => h.2 hl fun ha => ?_⟩
    subst hl
    have := hc ("_u3", .ifNew (.raw 28)) (by decide)
    exact h60 (this.1 ha)
  case u16t =>
    cases v <;> try exact h
    next x => cases x <;> exact h
  all_goals cases v <;> exact h

/-- What is read from a file that a session has written. -/
theorem saved_valid {w : World} (hst : Storable w) {file : Bytes} (hs : saveBytes w.project = .ok file) :
    ∃ q, parseFile file = .ok q ∧ q.events.map observe = w.project.events.map observe ∧
      ∀ e ∈ q.events, validValue e.kind e.len e.value := by
  have hstored : ∀ e ∈ w.project.events, e.stored := fun e he => stored_of (kind_roundtrip (hst.valid e he))
  refine ⟨_, parse_save hst.format hst.ppq hst.typed hstored hs, ?_, ?_⟩
  · rw [List.map_map]
    exact List.map_congr_left fun e _ => rfl
  · intro e he
    obtain ⟨e0, h0, rfl⟩ := List.mem_map.1 he
    exact valid_reread (hstored e0 h0).2.2 (hst.valid e0 h0)

theorem tag_of_observe {a b : List Event} (h : a.map observe = b.map observe) : a.map tag = b.map tag := by
  have : ∀ l : List Event, l.map tag = (l.map observe).map fun x => (x.1, x.2.1) := by
    intro l; rw [List.map_map]; rfl
  rw [this, this, h]

theorem tag_of_shape {a b : List Event} (h : (a.map shape).Sublist (b.map shape)) : (a.map tag).Sublist (b.map tag) := by
  have : ∀ l : List Event, l.map tag = (l.map shape).map fun x => (x.1, x.2.1) := by
    intro l; rw [List.map_map]; rfl
  rw [this, this]
  exact h.map _

theorem later_state [FloatAdd] [UniEnv] {file : Bytes} {p : Project} (hopen : parseFile file = .ok p)
    (hvalid : ∀ e ∈ p.events, validValue e.kind e.len e.value) {removals insertions : Prop} {f : Bytes}
    (h : Later removals insertions file f) : ∃ q, parseFile f = .ok q ∧
      (∀ e ∈ q.events, validValue e.kind e.len e.value) ∧
      (¬ insertions → (q.events.map tag).Sublist (p.events.map tag)) ∧
      (¬ removals → (p.events.map tag).Sublist (q.events.map tag)) := by
  induction h with
  | same => exact ⟨p, hopen, hvalid, fun _ => .refl _, fun _ => .refl _⟩
  | @round _ _ h q hopen' w L s hs ih =>
    obtain ⟨q', q1, q2, q3, q4⟩ := ih
    rw [hopen'] at q1
    injection q1 with q1
    subst q1
    obtain ⟨s1, s2, -, -⟩ := C108_session_partial hopen' q2 s
    obtain ⟨t1, t2, t3⟩ := C04_parsed_wellTyped _ _ hopen'
    have hp : Storable (World.ofProject q) := by
      refine ⟨t2, t3, ?_, ?_⟩ <;> rw [ofProject_project]
      · exact t1
      · exact q2
    obtain ⟨-, h2, -, -⟩ := session_state hp s
    obtain ⟨q', r1, r2, r3⟩ := saved_valid h2 hs
    refine ⟨q', r1, r3, fun hi => ?_, fun hr => ?_⟩ <;> rw [tag_of_observe r2]
    · exact (tag_of_shape (s1 hi)).trans (q3 hi)
    · exact (q4 hr).trans (tag_of_shape (s2 hr))

/-- C123. A file is opened, edited in any way and saved, and this is repeated any number of times.  Every file so obtained can
be opened.  It has the events of the first file in their order and with their types (without those that have been
removed, and with those that have been inserted, in any of the rounds); and every further round works the same way: what is saved is read
back exactly, and saving it again gives the same file. -/
theorem C123_history_partial [FloatAdd] [UniEnv] {file : Bytes} {p : Project} (hopen : parseFile file = .ok p)
    (hvalid : ∀ e ∈ p.events, validValue e.kind e.len e.value) {removals insertions : Prop} {f : Bytes}
    (h : Later removals insertions file f) :
    ∃ q, parseFile f = .ok q ∧
      (¬ insertions → (q.events.map tag).Sublist (p.events.map tag)) ∧
      (¬ removals → (p.events.map tag).Sublist (q.events.map tag)) ∧
      (¬ removals → ¬ insertions → q.events.map tag = p.events.map tag) ∧
      ∀ w L, Session q removals insertions w L → ∀ f', saveBytes w.project = .ok f' →
        ∃ q', parseFile f' = .ok q' ∧ q'.format = w.format ∧ q'.ppq = w.ppq ∧
          q'.events.map observe = w.project.events.map observe ∧ saveBytes q' = .ok f' := by
  obtain ⟨q, q1, q2, q3, q4⟩ := later_state hopen hvalid h
  exact ⟨q, q1, q3, q4, fun hr hi => (q3 hi).eq_of_length_le (q4 hr).length_le,
    fun w L s => (C108_session_partial q1 q2 s).2.2.2⟩

/-- C123, saving: in every round, whatever has been done in it and before, each event can be written, and the file can be saved as
long as it has between 1 and 65535 channels and less than 4 GB of events. -/
theorem C123_saves_partial [FloatAdd] [UniEnv] {file : Bytes} {p : Project} (hopen : parseFile file = .ok p)
    (hvalid : ∀ e ∈ p.events, validValue e.kind e.len e.value) {removals insertions : Prop} {f : Bytes}
    (h : Later removals insertions file f) {q : Project} (hq : parseFile f = .ok q) {w : World} {L : Nat → Prop}
    (s : Session q removals insertions w L)
    (hchan : 1 ≤ channelStarts w.project.events ∧ channelStarts w.project.events < 65536) :
    ∃ raws : List Bytes, w.project.events.map Event.toBytes = raws.map .ok ∧
      (raws.flatten.length < 2 ^ 32 → ∃ f', saveBytes w.project = .ok f' ∧ Later removals insertions file f') := by
  obtain ⟨q', q1, q2, -, -⟩ := later_state hopen hvalid h
  rw [hq] at q1; cases q1
  obtain ⟨raws, h1, h2⟩ := C108_saves_partial hq q2 s (.inl hchan)
  refine ⟨raws, h1, fun hl => ?_⟩
  obtain ⟨f', hf'⟩ := h2 hl
  exact ⟨f', hf', .round h hq s hf'⟩

end

namespace Demo

/-- The file of `sessionEvents`. -/
def sessionBytes (bpm pattern : UInt8) : Bytes :=
  [70, 76, 104, 100, 6, 0, 0, 0, 0, 0, 1, 0, 96, 0] ++ [70, 76, 100, 116, 21, 0, 0, 0] ++
  [199, 7, 50, 48, 46, 56, 46, 51, 0, 66, bpm, 0, 64, 0, 0, 65, pattern, 0, 255, 1, 9]

def sessionAt (bpm pattern : Int) : Project := ⟨0, 1, 96, sessionEvents bpm pattern [⟨255, .unknown, .bytes [9], 1⟩]⟩

theorem sessionAt_parsed [FloatEnv] : parseFile (sessionBytes 140 1) = .ok (sessionAt 140 1) := by
  have hfr : (sessionBytes 140 1).drop 22 = frames [(199, [50, 48, 46, 56, 46, 51, 0]), (66, [140, 0]), (64, [0, 0]), (65, [1, 0]), (255, [9])] := by
    simp [frames, frame, varBuild_small]
    rfl
  refine (C07_parse_iff _ _).2 ⟨0, 0, 1, 0, 96, 0, 21, 0, 0, 0, (sessionBytes 140 1).drop 22, rfl, by decide, by decide, by decide,
    by decide, rfl, rfl, rfl, _, by
      rw [hfr]
      exact splits_frames (by simp [FrameOK, sizeOK]), ?_⟩
  refine .cons ⟨rfl, rfl, by decide +kernel, rfl, by simp, by simp, by simp, fun _ => ⟨_, rfl, [20, 8, 3], by decide +kernel⟩⟩ ?_
  refine .cons ⟨rfl, rfl, by decide +kernel, rfl, by simp, by simp, by simp, by simp⟩ ?_
  refine .cons ⟨rfl, rfl, by decide +kernel, rfl, by simp, by simp, by simp, by simp⟩ ?_
  refine .cons ⟨rfl, rfl, by decide +kernel, rfl, by simp, by simp, by simp, by simp⟩ ?_
  refine .cons ⟨rfl, rfl, by decide +kernel, rfl, by simp, by simp, by simp, by simp⟩ .nil

theorem sessionAt_saved [FloatEnv] {pattern : UInt8} {n : Int} (h : pattern = 1 ∧ n = 1 ∨ pattern = 7 ∧ n = 7) :
    saveBytes (sessionAt 140 n) = .ok (sessionBytes 140 pattern) := by
  have he : eventsBytes (sessionAt 140 n).events = .ok ((sessionBytes 140 pattern).drop 22) := by
    show seqBuild (Event.toBytes _) (seqBuild (Event.toBytes _) (seqBuild (Event.toBytes _) (seqBuild (Event.toBytes _)
      (seqBuild (Event.toBytes _) _)))) = _
    rw [Demo.toBytes_frame (b := [50, 48, 46, 56, 46, 51, 0]) (by decide) rfl,
      Demo.toBytes_frame (b := [140, 0]) (by decide) rfl, Demo.toBytes_frame (b := [0, 0]) (by decide) rfl,
      Demo.toBytes_frame (b := [pattern, 0]) (show 65 < 256 by decide) ?_, Demo.toBytes_frame (b := [9]) (by decide) rfl]
    · simp [frame, varBuild_small]
      rfl
    · rcases h with ⟨rfl, rfl⟩ | ⟨rfl, rfl⟩ <;> rfl
  unfold saveBytes
  rw [he]
  rcases h with ⟨rfl, rfl⟩ | ⟨rfl, rfl⟩ <;> rfl

end Demo

/-- The hypotheses of `C123_history_partial` and `C123_saves_partial` can be met, with two rounds: the tempo is changed in the first and
the pattern number in the second. -/
example [FloatEnv] [FloatAdd] [UniEnv] : parseFile Demo.sessionFile = .ok Demo.sessionProject ∧
    (∀ e ∈ Demo.sessionProject.events, validValue e.kind e.len e.value) ∧
    Later False False Demo.sessionFile (Demo.sessionBytes 140 7) ∧ Demo.sessionFile = Demo.sessionBytes 130 1 := by
  refine ⟨Demo.session_parsed, Demo.session_valid, ?_, rfl⟩
  have s1 : Session Demo.sessionProject False False (World.ofProject (Demo.sessionAt 140 1)) (· = 0) :=
    Session.opened.edit (.tempo (.int 140) (by decide +kernel))
  have l1 : Later False False Demo.sessionFile (Demo.sessionBytes 140 1) :=
    .round .same Demo.session_parsed s1 (by rw [ofProject_project]; exact Demo.sessionAt_saved (.inl ⟨rfl, rfl⟩))
  have s2 : Session (Demo.sessionAt 140 1) False False (World.ofProject (Demo.sessionAt 140 7)) (· = 0) :=
    Session.opened.edit (EditStep.patternIid (L := fun x => x = 0) (u := 0) (by rfl) 7 (by decide))
  exact .round l1 Demo.sessionAt_parsed s2 (by rw [ofProject_project]; exact Demo.sessionAt_saved (.inr ⟨rfl, rfl⟩))

end PyFLP
