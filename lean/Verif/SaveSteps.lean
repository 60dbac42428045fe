import Verif.ParseSpec
/-!
# `pyflp.save` as a sequence of steps (`__init__.py:176-199`)

The buffer is produced completely in memory, then the target is opened (which
truncates it) and the buffer is written.  A crash, or an I/O error, can happen
between any two steps and after any number of written bytes; the operating
system stores the written bytes in order.
-/

namespace PyFLP

/-- Where `save` is. -/
inductive SavePC
  /-- nothing done yet -/
  | start
  /-- in the loop over the events (`__init__.py:191-195`) -/
  | events (buf : Bytes) (rest : List Event) (total : Nat)
  /-- buffer complete, target not opened yet (`__init__.py:196-197`) -/
  | ready (buf : Bytes)
  /-- target opened, `k` bytes stored (`__init__.py:198-199`) -/
  | writing (buf : Bytes) (k : Nat)
  | done
  /-- serialisation raised -/
  | raised (e : Exc)
  /-- opening or writing raised `OSError` -/
  | ioFailed

/-- The target path: `none` if there is no file. -/
abbrev Disk := Option Bytes

variable [FloatEnv]

/-- One step of `save p`. -/
inductive SaveStep (p : Project) : SavePC × Disk → SavePC × Disk → Prop
  /-- `len(project.channels)` raises (`__init__.py:187`) -/
  | noChannels {d e} (h : channelLen p.events = .error e) : SaveStep p (.start, d) (.raised e, d)
  /-- `FLP_HEADER.pack` raises (`__init__.py:188`) -/
  | badHeader {d n e} (h : channelLen p.events = .ok n) (h' : packHeader p.format n p.ppq = .error e) :
      SaveStep p (.start, d) (.raised e, d)
  /-- header and a zero data size (`__init__.py:188-191`) -/
  | header {d n hdr} (h : channelLen p.events = .ok n) (h' : packHeader p.format n p.ppq = .ok hdr) :
      SaveStep p (.start, d) (.events (hdr ++ magicDt ++ [0, 0, 0, 0]) p.events 0, d)
  /-- `bytes(event)` raises (`__init__.py:193`) -/
  | badEvent {d buf e rest total x} (h : e.toBytes = .error x) :
      SaveStep p (.events buf (e :: rest) total, d) (.raised x, d)
  /-- `buf.extend(raw)` (`__init__.py:193-195`) -/
  | event {d buf e rest total raw} (h : e.toBytes = .ok raw) :
      SaveStep p (.events buf (e :: rest) total, d) (.events (buf ++ raw) rest (total + raw.length), d)
  /-- `total_size.to_bytes(4, "little")` raises (`__init__.py:196`) -/
  | tooLong {d buf total} (h : ¬ total < 2 ^ 32) :
      SaveStep p (.events buf [] total, d) (.raised .overflowError, d)
  /-- `buf[18:22] = ...` (`__init__.py:196`) -/
  | patch {d buf total} (h : total < 2 ^ 32) :
      SaveStep p (.events buf [] total, d) (.ready (buf.take 18 ++ leBytes 4 total ++ buf.drop 22), d)
  /-- `open(file, "wb")` truncates or creates the target (`__init__.py:198`) -/
  | openFile {d buf} : SaveStep p (.ready buf, d) (.writing buf 0, some [])
  | openFails {d buf} : SaveStep p (.ready buf, d) (.ioFailed, d)
  /-- some more bytes reach the file (`__init__.py:199`) -/
  | write {d buf k k'} (h : k < k') (h' : k' ≤ buf.length) :
      SaveStep p (.writing buf k, d) (.writing buf k', some (buf.take k'))
  | writeFails {d buf k} : SaveStep p (.writing buf k, d) (.ioFailed, d)
  | close {d buf} : SaveStep p (.writing buf buf.length, d) (.done, d)

/-- States `save p` can be in, starting with the given file at the target. -/
inductive SaveReach (p : Project) (old : Disk) : SavePC × Disk → Prop
  | init : SaveReach p old (.start, old)
  | step {s t} (h : SaveReach p old s) (st : SaveStep p s t) : SaveReach p old t

/-- The invariant of `save`. -/
def SaveInv (p : Project) (old : Disk) : SavePC × Disk → Prop
  | (.start, d) => d = old
  | (.events buf rest total, d) => d = old ∧ ∃ n hdr pre body, channelLen p.events = .ok n ∧
      packHeader p.format n p.ppq = .ok hdr ∧ p.events = pre ++ rest ∧ eventsBytes pre = .ok body ∧
      buf = hdr ++ magicDt ++ [0, 0, 0, 0] ++ body ∧ total = body.length
  | (.ready buf, d) => d = old ∧ saveBytes p = .ok buf
  | (.writing buf k, d) => saveBytes p = .ok buf ∧ k ≤ buf.length ∧ d = some (buf.take k)
  | (.done, d) => ∃ buf, saveBytes p = .ok buf ∧ d = some buf
  | (.raised e, d) => d = old ∧ saveBytes p = .error e
  | (.ioFailed, d) => ∃ buf, saveBytes p = .ok buf ∧
      (d = old ∨ ∃ k, k ≤ buf.length ∧ d = some (buf.take k))

omit [FloatEnv] in
theorem seqBuild_error_left {b : Py Bytes} {x : Exc} : seqBuild (.error x) b = .error x := by
  cases b <;> rfl

omit [FloatEnv] in
theorem seqBuild_error_right {a : Bytes} {x : Exc} : seqBuild (.ok a) (.error x) = .error x := rfl

theorem eventsBytes_snoc {pre : List Event} {body : Bytes} (h : eventsBytes pre = .ok body) (e : Event)
    (rest : List Event) :
    (∀ x, e.toBytes = .error x → eventsBytes (pre ++ e :: rest) = .error x) ∧
    (∀ raw, e.toBytes = .ok raw → eventsBytes (pre ++ [e]) = .ok (body ++ raw)) := by
  induction pre generalizing body with
  | nil =>
    cases h
    refine ⟨?_, ?_⟩
    · intro x hx
      exact (congrFun (congrArg seqBuild hx) _).trans seqBuild_error_left
    · intro raw hr
      have := seqBuild_ok hr (b := .ok []) rfl
      rw [List.append_nil] at this
      exact this
  | cons a pre ih =>
    obtain ⟨x, y, h1, h2, rfl⟩ := seqBuild_inv h
    obtain ⟨i1, i2⟩ := ih h2
    refine ⟨?_, ?_⟩
    · intro z hz
      have := i1 z hz
      refine (congr (congrArg seqBuild h1) this).trans seqBuild_error_right
    · intro raw hr
      rw [List.append_assoc]
      exact seqBuild_ok h1 (i2 raw hr)

theorem saveInv_step {p : Project} {old : Disk} {s t : SavePC × Disk} (hs : SaveInv p old s)
    (st : SaveStep p s t) : SaveInv p old t := by
  have hmg : magicDt.length = 4 := rfl
  cases st with
  | noChannels h => exact ⟨hs, by unfold saveBytes; rw [h]⟩
  | badHeader h h' => exact ⟨hs, by unfold saveBytes; rw [h]; dsimp only; rw [h']⟩
  | header h h' => exact ⟨hs, _, _, [], [], h, h', rfl, rfl, by simp, rfl⟩
  | badEvent h =>
    obtain ⟨hd, n, hdr, pre, body, h1, h2, h3, h4, h5, h6⟩ := hs
    refine ⟨hd, ?_⟩
    unfold saveBytes
    rw [h1]; dsimp only
    rw [h2]; dsimp only
    rw [h3, (eventsBytes_snoc h4 _ _).1 _ h]
  | event h =>
    obtain ⟨hd, n, hdr, pre, body, h1, h2, h3, h4, h5, h6⟩ := hs
    refine ⟨hd, n, hdr, _, _, h1, h2, ?_, (eventsBytes_snoc h4 _ []).2 _ h, ?_, ?_⟩
    · rw [h3]; simp
    · rw [h5]; simp
    · rw [h6]; simp
  | tooLong h =>
    obtain ⟨hd, n, hdr, pre, body, h1, h2, h3, h4, h5, h6⟩ := hs
    rw [List.append_nil] at h3
    refine ⟨hd, ?_⟩
    unfold saveBytes
    rw [h1]; dsimp only
    rw [h2]; dsimp only
    rw [h3, h4]
    dsimp only
    unfold assemble
    rw [if_neg (by omega)]
  | patch h =>
    obtain ⟨hd, n, hdr, pre, body, h1, h2, h3, h4, h5, h6⟩ := hs
    rw [List.append_nil] at h3
    refine ⟨hd, ?_⟩
    obtain ⟨f0, f1, c0, c1, p0, p1, hh, -⟩ := packHeader_ok h2
    unfold saveBytes
    rw [h1]; dsimp only
    rw [h2]; dsimp only
    rw [h3, h4]
    dsimp only
    unfold assemble
    rw [if_pos (by omega), h5, h6, hh]
    rfl
  | openFile => exact ⟨hs.2, Nat.zero_le _, rfl⟩
  | openFails => exact ⟨_, hs.2, .inl hs.1⟩
  | write h h' => exact ⟨hs.1, h', rfl⟩
  | writeFails => exact ⟨_, hs.1, .inr ⟨_, hs.2.1, hs.2.2⟩⟩
  | close => exact ⟨_, hs.1, by rw [hs.2.2, List.take_length]⟩

theorem saveInv {p : Project} {old : Disk} {s : SavePC × Disk} (h : SaveReach p old s) :
    SaveInv p old s := by
  induction h with
  | init => rfl
  | step _ st ih => exact saveInv_step ih st

/-- `save` gets to the end of the loop. -/
theorem save_reaches {p : Project} {old : Disk} {buf : Bytes} (h : saveBytes p = .ok buf) :
    SaveReach p old (.ready buf, old) := by
  have loop : ∀ rest pre n hdr body, channelLen p.events = .ok n →
      packHeader p.format n p.ppq = .ok hdr → p.events = pre ++ rest → eventsBytes pre = .ok body →
      (∀ e ∈ rest, ∃ raw, e.toBytes = .ok raw) →
      SaveReach p old (.events (hdr ++ magicDt ++ [0, 0, 0, 0] ++ body) rest body.length, old) →
      ∃ body', eventsBytes p.events = .ok body' ∧
        SaveReach p old (.events (hdr ++ magicDt ++ [0, 0, 0, 0] ++ body') [] body'.length, old) := by
    intro rest
    induction rest with
    | nil =>
      intro pre n hdr body h1 h2 h3 h4 _ hr
      exact ⟨body, by rw [h3, List.append_nil]; exact h4, hr⟩
    | cons e rest ih =>
      intro pre n hdr body h1 h2 h3 h4 hok hr
      obtain ⟨raw, hraw⟩ := hok e (by simp)
      have := hr.step (.event hraw)
      refine ih (pre ++ [e]) n hdr (body ++ raw) h1 h2 (by rw [h3]; simp)
        ((eventsBytes_snoc h4 e []).2 raw hraw) (fun x hx => hok x (by simp [hx])) ?_
      rw [List.length_append, ← List.append_assoc]
      exact this
  have hinv := h
  unfold saveBytes at h
  split at h
  · cases h
  · next n hn =>
    split at h
    · cases h
    · next hdr hh =>
      split at h
      · cases h
      · next body hb =>
        obtain ⟨g1, -⟩ := eventsBytes_ok hb
        have h0 := SaveReach.init (p := p) (old := old) |>.step (.header hn hh)
        obtain ⟨body', hb', hr⟩ := loop p.events [] n hdr [] hn hh rfl rfl
          (fun e he => ⟨_, toBytes_eq (g1 e he).1 (g1 e he).2⟩) (by simpa using h0)
        have hlt : body'.length < 2 ^ 32 := by
          rw [hb] at hb'
          cases hb'
          unfold assemble at h
          split at h
          · assumption
          · cases h
        have hr' := hr.step (.patch hlt)
        have := (saveInv hr').2
        rw [hinv] at this
        cases this
        exact hr'

end PyFLP
