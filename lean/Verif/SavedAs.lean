import Verif.Props.Settles
import Verif.Descriptors

/-!
# Saving projects whose events are read back with other values

`parse_save` asks that every event is read back as it is.  Here events may be read back with other values, as long as the
version and the names of plugins stay.
-/

namespace PyFLP

open Spec

variable [FloatEnv]

/-- `e` is written as bytes that are read as `e'`; texts that give types to other events are kept. -/
def WrittenAs (e e' : Event) : Prop := Reopened e e' ∧ (e.id = 199 ∨ e.id = 201 → e'.value = e.value)

theorem decoded_as {before before' evs evs' : List Event}
    (hwt : ∀ pre e post, evs = pre ++ e :: post →
      e.id < 256 ∧ kindOf (before ++ pre) e.id = some e.kind ∧
      (e.id = 199 → ∃ s, e.value = .str s ∧ ∃ parts, intParts (pySplit 46 s) = some parts))
    (hp : ∀ e ∈ evs, e.payload = .ok e.pay) (hr : Pointwise WrittenAs evs evs')
    (h1 : lastStr 199 before = lastStr 199 before') (h2 : lastStr 201 before = lastStr 201 before') :
    Decoded before' (evs.map Event.fr) evs' := by
  induction hr generalizing before before' with
  | nil => exact .nil
  | @cons e e' evs evs' r t ih =>
    obtain ⟨⟨r1, r2, r3, r4⟩, rv⟩ := r
    obtain ⟨w1, w2, w3⟩ := hwt [] e evs rfl
    rw [List.append_nil] at w2
    have hst : StateAt before ⟨lastStr 201 before, textKind before⟩ := ⟨rfl, rfl⟩
    obtain ⟨-, hw⟩ := resolve_facts w1 (okStr_textKind before) ((resolve_kindOf hst).2 w2)
    have hb : ∀ n, fixedSize e.id = some n → e.pay.length = n := fun n hn => build_width (hw n hn) (hp e (by simp))
    refine .cons ⟨r1, r3, ?_, ?_, ?_, ?_, ?_, ?_⟩ (ih (before := before ++ [e]) ?_ (fun x hx => hp x (by simp [hx])) ?_ ?_)
    · show kindOf before' e.id = some e'.kind
      rw [← kindOf_lastStr h1 h2, r2]
      exact w2
    · rw [r2]; exact r4
    · intro h
      have h : e.id < 64 := h
      exact hb 1 (by unfold fixedSize; rw [if_pos h])
    · intro a b
      have a : 64 ≤ e.id := a
      have b : e.id < 128 := b
      exact hb 2 (by unfold fixedSize; rw [if_neg (Nat.not_lt.2 a), if_pos b])
    · intro a b
      have a : 128 ≤ e.id := a
      have b : e.id < 192 := b
      exact hb 4 (by unfold fixedSize; rw [if_neg (by omega), if_neg (by omega), if_pos b])
    · intro h
      have h : e.id = 199 := h
      rw [rv (.inl h)]
      exact w3 h
    · intro pre x post hx
      have := hwt (e :: pre) x post (by rw [hx]; rfl)
      simpa using this
    · rw [lastStr_append, lastStr_append, r1, h1]
      by_cases h : e.id = 199
      · rw [if_pos h, if_pos h, rv (.inl h)]
      · rw [if_neg h, if_neg h]
    · rw [lastStr_append, lastStr_append, r1, h2]
      by_cases h : e.id = 201
      · rw [if_pos h, if_pos h, rv (.inr h)]
      · rw [if_neg h, if_neg h]

/-- Saving then parsing, when events are read back with other values. -/
theorem parse_saved_as {p : Project} {file : Bytes} (hf : p.format ∈ formats) (hq : p.ppq ∈ ppqs)
    (hwt : WellTyped p.events) {evs' : List Event} (hr : Pointwise WrittenAs p.events evs') (h : saveBytes p = .ok file) :
    parseFile file = .ok ⟨p.format, channelStarts p.events, p.ppq, evs'⟩ := by
  obtain ⟨f0, f1, c0, c1, p0, p1, s0, s1, s2, s3, h1, h2, h3, h4, h5, h6⟩ := saveBytes_ok h
  have hcl : channelStarts p.events ≠ 0 ∧ word c0 c1 = channelStarts p.events := by
    rw [channelLen_eq] at h3
    split at h3
    · cases h3
    · next hz => exact ⟨hz, (Except.ok.inj h3).symm⟩
  have hne : frames (p.events.map Event.fr) ≠ [] := by
    intro he
    cases hev : p.events with
    | nil => exact hcl.1 (by rw [hev]; rfl)
    | cons e evs =>
      have := frames_mem_length (fs := p.events.map Event.fr) (f := e.fr) (by rw [hev]; simp)
      rw [he] at this
      simp at this
  have hfo : ∀ f ∈ p.events.map Event.fr, FrameOK f := by
    intro f hfm
    obtain ⟨e, he, rfl⟩ := List.mem_map.1 hfm
    obtain ⟨pre, post, hpp⟩ := List.append_of_mem he
    obtain ⟨w1, w2, -⟩ := hwt pre e post hpp
    have hst : StateAt pre ⟨lastStr 201 pre, textKind pre⟩ := ⟨rfl, rfl⟩
    obtain ⟨-, hw⟩ := resolve_facts w1 (okStr_textKind pre) ((resolve_kindOf hst).2 w2)
    have hb : ∀ n, fixedSize e.id = some n → e.pay.length = n := fun n hn => build_width (hw n hn) (h6 e he).2
    have hlt := frames_mem_length hfm
    have hdw := dword_lt s0 s1 s2 s3
    have h7 : e.fr.2.length = e.pay.length := rfl
    refine ⟨w1, ?_, ?_, ?_, fun _ => by omega⟩
    · intro h; exact hb 1 (by simp [fixedSize, show e.id < 64 from h])
    · rintro ⟨a, b⟩
      have a : 64 ≤ e.id := a
      have b : e.id < 128 := b
      exact hb 2 (by unfold fixedSize; rw [if_neg (Nat.not_lt.2 a), if_pos b])
    · rintro ⟨a, b⟩
      have a : 128 ≤ e.id := a
      have b : e.id < 192 := b
      exact hb 4 (by unfold fixedSize; rw [if_neg (by omega), if_neg (by omega), if_pos b])
  have hd : Decoded [] (p.events.map Event.fr) evs' :=
    decoded_as (before := []) (fun pre e post he => by simpa using hwt pre e post he) (fun e he => (h6 e he).2) hr rfl rfl
  exact parse_iff.2 ⟨f0, f1, c0, c1, p0, p1, s0, s1, s2, s3, _, h1, by rw [h2]; exact hf, by rw [h4]; exact hq, hne, h5,
    h2.symm, hcl.2.symm, h4.symm, _, splits_frames hfo, hd⟩

theorem writtenAs_stored {e : Event} (hs : e.stored) : WrittenAs e e.reread :=
  ⟨⟨rfl, rfl, rfl, hs.2.1⟩, fun _ => rfl⟩

end PyFLP
