import Verif.Props.Files
/-!
# C12 and C19: `save` step by step (`SaveSteps.lean`)

`SaveReach p old (pc, disk)`: after some steps of `save`, started when the target
held `old` (`none`: no file), the target holds `disk`.
-/

namespace PyFLP

open Spec

variable [FloatEnv]

/-! ## C12 A failing save leaves the target file alone -/

/-- If the project cannot be serialised, the target keeps its content at every
moment; and whenever the target differs from the old content, the complete new
content has been produced. -/
theorem C12_failing_save (p : Project) (old : Disk) (pc : SavePC) (disk : Disk)
    (h : SaveReach p old (pc, disk)) :
    ((∃ e, saveBytes p = .error e) → disk = old) ∧ (∀ e, pc = .raised e → disk = old) ∧
    (disk ≠ old → ∃ file, saveBytes p = .ok file) := by
  have hi := saveInv h
  cases pc with
  | start => exact ⟨fun _ => hi, (fun _ h => by cases h), fun hc => absurd hi hc⟩
  | events => exact ⟨fun _ => hi.1, (fun _ h => by cases h), fun h => absurd hi.1 h⟩
  | ready => exact ⟨fun _ => hi.1, (fun _ h => by cases h), fun h => absurd hi.1 h⟩
  | writing =>
    refine ⟨?_, (fun _ h => by cases h), fun _ => ⟨_, hi.1⟩⟩
    rintro ⟨e, he⟩; rw [hi.1] at he; cases he
  | done =>
    obtain ⟨buf, h1, h2⟩ := hi
    refine ⟨?_, (fun _ h => by cases h), fun _ => ⟨_, h1⟩⟩
    rintro ⟨e, he⟩; rw [h1] at he; cases he
  | raised => exact ⟨fun _ => hi.1, fun _ _ => hi.1, fun h => absurd hi.1 h⟩
  | ioFailed =>
    obtain ⟨buf, h1, h2⟩ := hi
    refine ⟨?_, (fun _ h => by cases h), fun _ => ⟨_, h1⟩⟩
    rintro ⟨e, he⟩; rw [h1] at he; cases he

/-- A save that fails: there is no channel. -/
example : ∃ e, SaveReach ⟨0, 0, 96, []⟩ (some [1, 2, 3]) (.raised e, some [1, 2, 3]) :=
  ⟨_, .step .init (.noChannels (e := .noModelsFound) rfl)⟩

/-- A save that fails in the middle of the events (300 does not fit a byte). -/
example : ∃ e, SaveReach ⟨0, 1, 96, [⟨64, .u16, .lv (.int 0), 2⟩, ⟨21, .u8, .lv (.int 300), 1⟩]⟩
    (some [1]) (.raised e, some [1]) :=
  ⟨_, .step (.step (.step .init (.header (n := 1) rfl rfl)) (.event rfl)) (.badEvent (x := .formatFieldError) rfl)⟩

/-! ## C19 A crash during save never yields a silently wrong project -/

/-- At every crash point the target has its old content, or the complete new
content, or something that `parse` refuses with `HeaderCorrupted`. -/
theorem C19_crash_detected (p : Project) (old : Disk) (pc : SavePC) (disk : Disk)
    (h : SaveReach p old (pc, disk)) :
    disk = old ∨ (∃ file, saveBytes p = .ok file ∧ disk = some file) ∨
    (∃ content, disk = some content ∧ parseFile content = .error .headerCorrupted) := by
  have cut : ∀ buf k, saveBytes p = .ok buf → k ≤ buf.length →
      (∃ file, saveBytes p = .ok file ∧ some (buf.take k) = some file) ∨
      (∃ content, some (buf.take k) = some content ∧ parseFile content = .error .headerCorrupted) := by
    intro buf k hb hk
    by_cases h : k < buf.length
    · exact .inr ⟨_, rfl, (C02_cut_or_padded_detected p buf hb).1 k h⟩
    · exact .inl ⟨buf, hb, by rw [List.take_of_length_le (by omega)]⟩
  have hi := saveInv h
  cases pc with
  | start => exact .inl hi
  | events => exact .inl hi.1
  | ready => exact .inl hi.1
  | raised => exact .inl hi.1
  | writing buf k =>
    obtain ⟨h1, h2, rfl⟩ := hi
    exact .inr (cut buf k h1 h2)
  | done =>
    obtain ⟨buf, h1, rfl⟩ := hi
    exact .inr (.inl ⟨buf, h1, rfl⟩)
  | ioFailed =>
    obtain ⟨buf, h1, rfl | ⟨k, h2, rfl⟩⟩ := hi
    · exact .inl rfl
    · exact .inr (cut buf k h1 h2)

/-- A save that returned has replaced the content completely. -/
theorem C19_done_complete (p : Project) (old disk : Disk) (h : SaveReach p old (.done, disk)) :
    ∃ file, saveBytes p = .ok file ∧ disk = some file := saveInv h

/-- The old file can be lost: whenever saving gets as far as opening the target,
there is a crash point at which both the old and the new content are gone. -/
theorem C19_never_lost_refuted (p : Project) (file old : Bytes) (h : saveBytes p = .ok file) (hold : old ≠ []) :
    ∃ pc disk, SaveReach p (some old) (pc, disk) ∧ disk ≠ some old ∧ disk ≠ some file := by
  refine ⟨_, _, (save_reaches h).step .openFile, ?_, ?_⟩
  · intro hc; exact hold (Option.some.inj hc).symm
  · intro hc
    have hl := (C02_cut_or_padded_detected p file h)
    obtain ⟨_, _, _, _, _, _, _, _, _, _, h1, -⟩ := saveBytes_ok h
    rw [h1] at hc
    simp at hc

/-- The demo project reaches every stage. -/
example (old : Disk) : SaveReach Demo.project old (.done, some Demo.file) := by
  have h := ((save_reaches (old := old) Demo.saved).step .openFile).step
    (.write (k' := Demo.file.length) (by decide) (Nat.le_refl _))
  rw [List.take_length] at h
  exact h.step .close

/-- What the target can hold while `save` runs, or after a crash or an I/O error: the old content, or any number of the first
bytes of the new content - exactly these. -/
theorem C19_exact (p : Project) (old disk : Disk) :
    (∃ pc, SaveReach p old (pc, disk)) ↔
      disk = old ∨ ∃ file k, saveBytes p = .ok file ∧ k ≤ file.length ∧ disk = some (file.take k) := by
  constructor
  · rintro ⟨pc, h⟩
    have hi := saveInv h
    cases pc with
    | start => exact .inl hi
    | events => exact .inl hi.1
    | ready => exact .inl hi.1
    | raised => exact .inl hi.1
    | writing buf k => exact .inr ⟨buf, k, hi⟩
    | done =>
      obtain ⟨buf, h1, rfl⟩ := hi
      exact .inr ⟨buf, buf.length, h1, Nat.le_refl _, by rw [List.take_length]⟩
    | ioFailed =>
      obtain ⟨buf, h1, h2 | ⟨k, h2, h3⟩⟩ := hi
      · exact .inl h2
      · exact .inr ⟨buf, k, h1, h2, h3⟩
  · rintro (rfl | ⟨file, k, h, hk, rfl⟩)
    · exact ⟨_, .init⟩
    · have := (save_reaches (old := old) h).step .openFile
      cases k with
      | zero => exact ⟨_, this⟩
      | succ k => exact ⟨_, this.step (.write (Nat.succ_pos k) hk)⟩

/-- `save` never gets stuck: in every state but the final ones (it returned, or raised) another step is possible, and without
I/O errors the only final state is the one `saveBytes` tells: it returns iff the project can be serialised. -/
theorem C19_progress (p : Project) (old : Disk) (pc : SavePC) (disk : Disk) (h : SaveReach p old (pc, disk)) :
    ((∃ s, SaveStep p (pc, disk) s) ∨ pc = .done ∨ pc = .ioFailed ∨ ∃ e, pc = .raised e) ∧
    (pc = .done → ∃ file, saveBytes p = .ok file) ∧ (∀ e, pc = .raised e → saveBytes p = .error e) := by
  have hi := saveInv h
  refine ⟨?_, ?_, ?_⟩
  · cases pc with
    | start =>
      left
      cases hc : channelLen p.events with
      | error e => exact ⟨_, .noChannels hc⟩
      | ok n =>
        cases hh : packHeader p.format n p.ppq with
        | error e => exact ⟨_, .badHeader hc hh⟩
        | ok hdr => exact ⟨_, .header hc hh⟩
    | events buf rest total =>
      left
      cases rest with
      | nil =>
        by_cases ht : total < 2 ^ 32
        · exact ⟨_, .patch ht⟩
        · exact ⟨_, .tooLong ht⟩
      | cons e rest =>
        cases he : e.toBytes with
        | error x => exact ⟨_, .badEvent he⟩
        | ok raw => exact ⟨_, .event he⟩
    | ready => exact .inl ⟨_, .openFile⟩
    | writing => exact .inl ⟨_, .writeFails⟩
    | done => exact .inr (.inl rfl)
    | ioFailed => exact .inr (.inr (.inl rfl))
    | raised e => exact .inr (.inr (.inr ⟨e, rfl⟩))
  · rintro rfl
    obtain ⟨buf, h1, -⟩ := hi
    exact ⟨buf, h1⟩
  · rintro e rfl
    exact hi.2

/-! ## C135 Saving again and again to the same path -/

namespace Spec

/-- Attempts to save projects to one path, one after the other; each of them ended somewhere: it returned, raised, or was cut
short by a crash, at any step. -/
inductive Attempts : Disk → List (Project × SavePC) → Disk → Prop
  | none {d : Disk} : Attempts d [] d
  | one {d d1 d2 : Disk} {p : Project} {pc : SavePC} {l : List (Project × SavePC)} (h : SaveReach p d (pc, d1))
      (t : Attempts d1 l d2) : Attempts d ((p, pc) :: l) d2


end Spec

theorem attempts_append {d d2 : Disk} {l l' : List (Project × SavePC)} :
    Attempts d (l ++ l') d2 ↔ ∃ d1, Attempts d l d1 ∧ Attempts d1 l' d2 := by
  induction l generalizing d with
  | nil =>
    constructor
    · exact fun h => ⟨d, .none, h⟩
    · rintro ⟨d1, h, h'⟩; cases h; exact h'
  | cons a l ih =>
    constructor
    · intro h
      cases h with
      | one h t =>
        obtain ⟨d1, h1, h2⟩ := ih.1 t
        exact ⟨d1, .one h h1, h2⟩
    · rintro ⟨d1, h, h'⟩
      cases h with
      | one h t => exact .one h (ih.2 ⟨d1, t, h'⟩)

theorem attempts_kept {d d2 : Disk} {l : List (Project × SavePC)} (h : Attempts d l d2)
    (hr : ∀ a ∈ l, ∃ e, saveBytes a.1 = .error e) : d2 = d := by
  induction h with
  | none => rfl
  | @one d d1 d2 q qc l h t ih =>
    rw [ih fun a ha => hr a (List.mem_cons_of_mem _ ha)]
    exact (C12_failing_save q d qc d1 h).1 (hr _ (List.mem_cons_self ..))

/-- **C135** After any number of attempts the target holds the content from before them all, or the complete bytes of one of
the projects, or something `parse` refuses with `HeaderCorrupted`. -/
theorem C135_attempts (old disk : Disk) (l : List (Project × SavePC)) (h : Attempts old l disk) :
    disk = old ∨ (∃ p pc file, (p, pc) ∈ l ∧ saveBytes p = .ok file ∧ disk = some file) ∨
    (∃ content, disk = some content ∧ parseFile content = .error .headerCorrupted) := by
  induction h with
  | none => exact .inl rfl
  | @one d d1 d2 p pc l h t ih =>
    rcases ih with rfl | ⟨q, qc, file, hm, hf, hd⟩ | hc
    · rcases C19_crash_detected p d pc d2 h with h | ⟨file, hf, hd⟩ | hc
      · exact .inl h
      · exact .inr (.inl ⟨p, pc, file, List.mem_cons_self .., hf, hd⟩)
      · exact .inr (.inr hc)
    · exact .inr (.inl ⟨q, qc, file, List.mem_cons_of_mem _ hm, hf, hd⟩)
    · exact .inr (.inr hc)

/-- **C135** What the target holds was decided by the last attempt that returned: once a save has returned, and as long as
all later attempts raise because their project cannot be serialised, the target holds the complete bytes of that save,
whatever happened before it. -/
theorem C135_last (old disk : Disk) (before after : List (Project × SavePC)) (p : Project)
    (h : Attempts old (before ++ (p, .done) :: after) disk) (hr : ∀ a ∈ after, ∃ e, saveBytes a.1 = .error e) :
    ∃ file, saveBytes p = .ok file ∧ disk = some file := by
  obtain ⟨d1, -, h2⟩ := attempts_append.1 h
  cases h2 with
  | one h t =>
    obtain ⟨file, h1, h2⟩ := C19_done_complete p d1 _ h
    exact ⟨file, h1, (attempts_kept t hr).trans h2⟩

/-- **C135** A damaged target can be repaired by saving again: whatever happened before, `save` of a project that can be
serialised may return, and the target then holds its complete bytes. -/
theorem C135_repair (old disk : Disk) (l : List (Project × SavePC)) (h : Attempts old l disk) (p : Project) (file : Bytes)
    (hf : saveBytes p = .ok file) :
    Attempts old (l ++ [(p, .done)]) (some file) ∧
    ∀ disk', Attempts old (l ++ [(p, .done)]) disk' → disk' = some file := by
  constructor
  · refine attempts_append.2 ⟨disk, h, .one ?_ .none⟩
    have h0 := (save_reaches (old := disk) hf).step .openFile
    have hp : 0 < file.length := by
      obtain ⟨_, _, _, _, _, _, _, _, _, _, h1, -⟩ := saveBytes_ok hf
      rw [h1]; simp
    have := h0.step (.write hp (Nat.le_refl _))
    rw [List.take_length] at this
    exact this.step .close
  · intro disk' h'
    obtain ⟨g, h1, h2⟩ := C135_last old disk' l [] p h' (fun a ha => by cases ha)
    rw [hf] at h1
    injection h1 with h1
    rw [h2, h1]

/-- A crash after three bytes, a project that cannot be serialised, and a save that returns. -/
example (old : Disk) :
    Attempts old [(Demo.project, .writing Demo.file 3), (⟨0, 0, 96, []⟩, .raised .noModelsFound), (Demo.project, .done)]
      (some Demo.file) ∧
    Attempts old [(Demo.project, .writing Demo.file 3)] (some [70, 76, 104]) ∧
    parseFile [70, 76, 104] = .error .headerCorrupted := by
  have crash : SaveReach Demo.project old (.writing Demo.file 3, some [70, 76, 104]) :=
    ((save_reaches (old := old) Demo.saved).step .openFile).step (.write (k' := 3) (by decide) (by decide +kernel))
  refine ⟨?_, .one crash .none, rfl⟩
  have := (C135_repair old (some [70, 76, 104])
    [(Demo.project, .writing Demo.file 3), (⟨0, 0, 96, []⟩, .raised .noModelsFound)]
    (.one crash (.one (.step .init (.noChannels rfl)) .none)) Demo.project Demo.file Demo.saved).1
  exact this

end PyFLP
