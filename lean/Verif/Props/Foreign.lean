import Verif.Props.Damage
/-!
# WholeEvents events added to a file or left out of it (C140)
-/

namespace PyFLP

open Spec

namespace Spec

/-- The bytes are this many whole events: for each the id, the size where there is one, and as much data as the size says. -/
inductive WholeEvents : Nat → Bytes → Prop
  | none : WholeEvents 0 []
  | next {x : UInt8} {pre data a : Bytes} {i : Nat} (hs : SizeFor x.toNat pre data.length) (t : WholeEvents i a) :
      WholeEvents (i + 1) ([x] ++ pre ++ data ++ a)

/-- An id that the library does not know and whose data it keeps as it is: no model declares it, and it is not in the range of
numbers (below 192) or texts (below 208, and 231, 239, 241) and not the data of a plugin (213). -/
def Foreign (id : Nat) : Prop :=
  enumType enums id = Option.none ∧ 208 ≤ id ∧ id < 256 ∧ id ≠ 231 ∧ id ≠ 239 ∧ id ≠ 241 ∧ id ≠ 213

end Spec

/-! ### Bytes -/

theorem whole_splits {i : Nat} {a : Bytes} (h : WholeEvents i a) : ∃ fs : List (Nat × Bytes), fs.length = i ∧
    ∀ b hs, Splits b hs → Splits (a ++ b) (fs ++ hs) := by
  induction h with
  | none => exact ⟨[], rfl, fun b hs h => h⟩
  | @next x pre data a i hs t ih =>
    obtain ⟨fs, h1, h2⟩ := ih
    refine ⟨(x.toNat, data) :: fs, by simp [h1], fun b gs hb => ?_⟩
    have := framed_iff.1 (Framed.event hs (.inl rfl) (framed_iff.2 (h2 b gs hb)))
    simpa using this

/-- What follows whole events splits by itself. -/
theorem whole_rest {i : Nat} {a b : Bytes} (h : WholeEvents i a) {gs : List (Nat × Bytes)} (hg : Splits (a ++ b) gs) :
    ∃ hs, Splits b hs := by
  induction h generalizing gs with
  | none => exact ⟨gs, hg⟩
  | @next x pre data a i hs t ih =>
    have e : [x] ++ pre ++ data ++ a ++ b = x :: (pre ++ (data ++ (a ++ b))) := by simp
    rw [e] at hg
    generalize hb : x :: (pre ++ (data ++ (a ++ b))) = bs at hg
    cases hg with
    | nil => cases hb
    | @cons id pre' payload rest n fs ha hn t' =>
      injection hb with h1 h2
      subst h1
      have r1 := readPayload_announces (sizeFor_iff.1 hs) (.inl (rfl : data.length = data.length)) (rest := a ++ b)
      have r2 := readPayload_announces ha hn
      rw [h2, r2] at r1
      injection r1 with r1
      injection r1 with _ r1
      rw [r1] at t'
      exact ih t'

/-- The header with another size and other events. -/
theorem parse_parts [FloatEnv] {head s data : Bytes} (hh : head.length = 18) (hs : s.length = 4) {p : Project}
    (h : parseFile (head ++ s ++ data) = .ok p) :
    ∃ fs, Splits data fs ∧ Decoded [] fs p.events ∧ ∀ s' data' fs' evs', s'.length = 4 → littleEndian s' = data'.length →
      data' ≠ [] → Splits data' fs' → Decoded [] fs' evs' →
      parseFile (head ++ s' ++ data') = .ok { p with events := evs' } := by
  obtain ⟨f0, f1, c0, c1, p0, p1, s0, s1, s2, s3, bs, h1, h2, h3, h4, h5, h6, h7, h8, fs, h9, h10⟩ := parse_iff.1 h
  have e1 : head ++ s ++ data = [70, 76, 104, 100, 6, 0, 0, 0, f0, f1, c0, c1, p0, p1, 70, 76, 100, 116] ++ ([s0, s1, s2, s3] ++ bs) := by
    rw [h1]; rfl
  rw [List.append_assoc] at e1
  obtain ⟨rfl, e2⟩ := List.append_inj e1 (by rw [hh]; rfl)
  obtain ⟨rfl, rfl⟩ := List.append_inj e2 (by rw [hs]; rfl)
  refine ⟨fs, h9, h10, fun s' data' fs' evs' hl hsz hne hsp hd => ?_⟩
  obtain ⟨t0, t1, t2, t3, rfl⟩ : ∃ a b c d, s' = [a, b, c, d] := by
    match s', hl with
    | [a, b, c, d], _ => exact ⟨a, b, c, d, rfl⟩
  have hdw : dword t0 t1 t2 t3 = data'.length := by
    rw [← hsz]; simp only [dword, littleEndian]; omega
  exact parse_iff.2 ⟨f0, f1, c0, c1, p0, p1, t0, t1, t2, t3, data', rfl, h2, h3, hne, hdw, h6, h7, h8, fs', hsp, hd⟩

/-! ### Events -/

section
variable [FloatEnv]

omit [FloatEnv] in
theorem kindOf_last {b b' : List Event} (h1 : lastStr 199 b = lastStr 199 b') (h2 : lastStr 201 b = lastStr 201 b') (id : Nat) :
    kindOf b id = kindOf b' id := kindOf_needs (fun _ => h1) (fun _ => h2)

theorem decoded_after {b b' : List Event} {fs : List (Nat × Bytes)} {evs : List Event} (h1 : lastStr 199 b = lastStr 199 b')
    (h2 : lastStr 201 b = lastStr 201 b') (h : Decoded b fs evs) : Decoded b' fs evs := by
  induction h generalizing b' with
  | nil => exact .nil
  | @cons before f e fs evs d t ih =>
    refine .cons ⟨d.id, d.len, ?_, d.value, d.size1, d.size2, d.size4, d.version⟩ (ih ?_ ?_)
    · rw [← kindOf_last h1 h2]; exact d.kind
    · rw [lastStr_append, lastStr_append, h1]
    · rw [lastStr_append, lastStr_append, h2]

theorem decoded_parts {b : List Event} {fs gs : List (Nat × Bytes)} {evs : List Event} : Decoded b (fs ++ gs) evs ↔
    ∃ l r, evs = l ++ r ∧ l.length = fs.length ∧ Decoded b fs l ∧ Decoded (b ++ l) gs r := by
  induction fs generalizing b evs with
  | nil =>
    constructor
    · intro h; exact ⟨[], evs, rfl, rfl, .nil, by simpa using h⟩
    · rintro ⟨l, r, rfl, hl, h, h'⟩
      cases h
      simpa using h'
  | cons f fs ih =>
    constructor
    · intro h
      cases h with
      | cons d t =>
        obtain ⟨l, r, rfl, hl, h1, h2⟩ := ih.1 t
        exact ⟨_ :: l, r, rfl, by simp [hl], .cons d h1, by simpa using h2⟩
    · rintro ⟨l, r, rfl, hl, h, h'⟩
      cases h with
      | cons d t => exact .cons d (ih.2 ⟨_, r, rfl, by simpa using hl, t, by simpa using h'⟩)

/-- An event that is not a version and not an internal name among others. -/
theorem decoded_insert {fs gs : List (Nat × Bytes)} {f : Nat × Bytes} (hv : f.1 ≠ 199) (hn : f.1 ≠ 201) {evs : List Event} :
    Decoded [] (fs ++ f :: gs) evs ↔
      ∃ l e r, evs = l ++ e :: r ∧ l.length = fs.length ∧ Decoded [] (fs ++ gs) (l ++ r) ∧ DecodesTo l f e := by
  have last : ∀ (l : List Event) (e : Event) id, e.id ≠ id → lastStr id (l ++ [e]) = lastStr id l := by
    intro l e id h
    rw [lastStr_append, if_neg h]
  constructor
  · intro h
    obtain ⟨l, r, rfl, hl, h1, h2⟩ := decoded_parts.1 h
    cases h2 with
    | @cons _ _ e _ r d t =>
      have d' : DecodesTo l f e := by simpa using d
      refine ⟨l, e, r, rfl, hl, decoded_parts.2 ⟨l, r, rfl, hl, h1, ?_⟩, d'⟩
      rw [List.nil_append] at t ⊢
      exact decoded_after (last _ _ _ (by rw [d'.id]; exact hv)) (last _ _ _ (by rw [d'.id]; exact hn)) t
  · rintro ⟨l, e, r, rfl, hl, h, d⟩
    obtain ⟨l', r', he, hl', h1, h2⟩ := decoded_parts.1 h
    obtain ⟨rfl, rfl⟩ := List.append_inj he (by rw [hl, hl'])
    refine decoded_parts.2 ⟨l, e :: r, rfl, hl, h1, .cons (by simpa using d) ?_⟩
    rw [List.nil_append] at h2 ⊢
    exact decoded_after (last _ _ _ (by rw [d.id]; exact hv)).symm (last _ _ _ (by rw [d.id]; exact hn)).symm h2

/-! ### Files -/

/-- C140, an event more.  To a file that can be opened a whole event is added between two others, which is not a version and not
the internal name of a plugin; the size in the header is adjusted.  The file can be opened exactly if the data means a value of
the type that belongs to the id at this place, and then the project has the new event at its place, and is otherwise the same. -/
theorem C140_added {head s s' a b pre data : Bytes} {x : UInt8} {i : Nat} (hh : head.length = 18) (hs : s.length = 4)
    (hs' : s'.length = 4) (hl : littleEndian s' = (a ++ ([x] ++ pre ++ data) ++ b).length) (ha : WholeEvents i a)
    (hx : SizeFor x.toNat pre data.length) (hv : x.toNat ≠ 199) (hn : x.toNat ≠ 201) {p : Project}
    (h : parseFile (head ++ s ++ (a ++ b)) = .ok p) (p' : Project) :
    parseFile (head ++ s' ++ (a ++ ([x] ++ pre ++ data) ++ b)) = .ok p' ↔
      ∃ e, EventMeans (p.events.take i) (x.toNat, data) e ∧
        p' = { p with events := p.events.take i ++ e :: p.events.drop i } := by
  obtain ⟨fs0, s1, d1, mk⟩ := parse_parts hh hs h
  obtain ⟨fs, hi, hsp⟩ := whole_splits ha
  obtain ⟨gs, hg⟩ := whole_rest ha s1
  have e1 := splits_unique s1 (hsp b gs hg)
  subst e1
  have hnew : Splits ([x] ++ pre ++ data ++ b) ((x.toNat, data) :: gs) :=
    framed_iff.1 (Framed.event hx (.inl rfl) (framed_iff.2 hg))
  have hnew' : Splits (a ++ ([x] ++ pre ++ data) ++ b) (fs ++ (x.toNat, data) :: gs) := by
    have := hsp _ _ hnew
    rwa [← List.append_assoc] at this
  have hne : a ++ ([x] ++ pre ++ data) ++ b ≠ [] := by simp
  constructor
  · intro h'
    obtain ⟨fs2, s2, d2, _⟩ := parse_parts hh hs' h'
    have e2 := splits_unique s2 hnew'
    subst e2
    have hp := mk s' _ _ _ hs' hl hne hnew' d2
    rw [h'] at hp
    injection hp with hp
    obtain ⟨l, e, r, he, hll, hd, d⟩ := (decoded_insert (f := (x.toNat, data)) hv hn).1 d2
    have hev : p.events = l ++ r := by
      obtain ⟨len1, all1⟩ := decoded_iff.1 d1
      obtain ⟨len2, all2⟩ := decoded_iff.1 hd
      have key : ∀ j, (p.events.take j) = ((l ++ r).take j) := by
        intro j
        induction j with
        | zero => simp
        | succ j ih =>
          by_cases hj : j < p.events.length
          · have hj2 : j < (l ++ r).length := by omega
            rw [List.take_succ_eq_append_getElem hj, List.take_succ_eq_append_getElem hj2, ih]
            have hf : j < (fs ++ gs).length := by omega
            have a1 := all1 j _ _ (List.getElem?_eq_getElem hf) (List.getElem?_eq_getElem hj)
            have a2 := all2 j _ _ (List.getElem?_eq_getElem hf) (List.getElem?_eq_getElem hj2)
            rw [ih] at a1
            rw [decodes_same rfl a1 a2]
          · rw [List.take_of_length_le (by omega), List.take_of_length_le (by omega)]
            have := ih
            rwa [List.take_of_length_le (by omega), List.take_of_length_le (by omega)] at this
      have := key (max p.events.length (l ++ r).length)
      rwa [List.take_of_length_le (by omega), List.take_of_length_le (by omega)] at this
    have ht : p.events.take i = l := by rw [hev, ← hi, ← hll]; simp
    have hdr : p.events.drop i = r := by rw [hev, ← hi, ← hll]; simp
    refine ⟨e, ?_, ?_⟩
    · rw [ht]; exact eventMeans_iff.2 d
    · rw [ht, hdr, ← he]; exact hp
  · rintro ⟨e, d, rfl⟩
    refine mk s' _ _ _ hs' hl hne hnew' ((decoded_insert (f := (x.toNat, data)) hv hn).2
      ⟨_, e, _, rfl, ?_, by rw [List.take_append_drop]; exact d1, eventMeans_iff.1 d⟩)
    have := (decoded_iff.1 d1).1
    rw [List.length_take, this]
    simp only [List.length_append]
    omega

/-- C140, an event less.  From a file that can be opened a whole event (the last may be cut short) is left out, which is not a
version and not the internal name of a plugin and not the only event; the size in the header is adjusted.  The file can be
opened, and the project is the same without this event. -/
theorem C140_left_out {head s s' a b pre data : Bytes} {x : UInt8} {i n : Nat} (hh : head.length = 18) (hs : s.length = 4)
    (hs' : s'.length = 4) (hl : littleEndian s' = (a ++ b).length) (hne : a ++ b ≠ []) (ha : WholeEvents i a)
    (hx : SizeFor x.toNat pre n) (hd : data.length = n ∨ (data.length < n ∧ b = [])) (hv : x.toNat ≠ 199) (hn : x.toNat ≠ 201)
    {p : Project} (h : parseFile (head ++ s ++ (a ++ ([x] ++ pre ++ data) ++ b)) = .ok p) :
    parseFile (head ++ s' ++ (a ++ b)) = .ok { p with events := p.events.eraseIdx i } := by
  obtain ⟨fs0, s1, d1, mk⟩ := parse_parts hh hs h
  obtain ⟨fs, hi, hsp⟩ := whole_splits ha
  obtain ⟨gs0, hg0⟩ := whole_rest (b := [x] ++ pre ++ data ++ b) ha (by rw [← List.append_assoc] ; exact s1)
  have hg : ∃ gs, Splits b gs := by
    have e : [x] ++ pre ++ data ++ b = x :: (pre ++ (data ++ b)) := by simp
    rw [e] at hg0
    generalize hb : x :: (pre ++ (data ++ b)) = bs at hg0
    cases hg0 with
    | nil => cases hb
    | @cons id pre' payload rest n' fs ha' hn' t' =>
      injection hb with h1 h2
      subst h1
      have r1 := readPayload_announces (sizeFor_iff.1 hx) hd
      have r2 := readPayload_announces ha' hn'
      rw [h2, r2] at r1
      injection r1 with r1
      injection r1 with _ r1
      rw [r1] at t'
      exact ⟨_, t'⟩
  obtain ⟨gs, hg⟩ := hg
  have hnew : Splits ([x] ++ pre ++ data ++ b) ((x.toNat, data) :: gs) :=
    framed_iff.1 (Framed.event hx hd (framed_iff.2 hg))
  have hnew' : Splits (a ++ ([x] ++ pre ++ data) ++ b) (fs ++ (x.toNat, data) :: gs) := by
    have := hsp _ _ hnew
    rwa [← List.append_assoc] at this
  have e1 := splits_unique s1 hnew'
  subst e1
  obtain ⟨l, e, r, he, hll, hdd, _⟩ := (decoded_insert (f := (x.toNat, data)) hv hn).1 d1
  have : p.events.eraseIdx i = l ++ r := by
    rw [he, ← hi, ← hll, List.eraseIdx_append_of_length_le (Nat.le_refl _), Nat.sub_self]
    rfl
  rw [this]
  exact mk s' _ _ _ hs' hl hne (hsp b gs hg) hdd

omit [FloatEnv] in
theorem foreign_kind {id : Nat} (h : Foreign id) (before : List Event) : kindOf before id = some .unknown := by
  obtain ⟨h1, h2, h3, h4, h5, h6, h7⟩ := h
  unfold kindOf
  rw [h1]
  dsimp only
  rw [if_neg (by omega), if_neg (by omega), if_neg (by omega), if_neg (by omega), if_neg h7]

/-- C140, unknown ids.  Whatever the data of an added event is whose id the library does not know: the file can be opened, and
the project has an event with this id and exactly these bytes at its place. -/
theorem C140_unknown {head s s' a b pre data : Bytes} {x : UInt8} {i : Nat} (hh : head.length = 18) (hs : s.length = 4)
    (hs' : s'.length = 4) (hl : littleEndian s' = (a ++ ([x] ++ pre ++ data) ++ b).length) (ha : WholeEvents i a)
    (hx : SizeFor x.toNat pre data.length) (hf : Foreign x.toNat) {p : Project}
    (h : parseFile (head ++ s ++ (a ++ b)) = .ok p) :
    parseFile (head ++ s' ++ (a ++ ([x] ++ pre ++ data) ++ b)) =
      .ok { p with events := p.events.take i ++ ⟨x.toNat, .unknown, .bytes data, data.length⟩ :: p.events.drop i } := by
  have h208 := hf.2.1
  refine (C140_added hh hs hs' hl ha hx (by omega) (by omega) h _).2 ⟨_, ⟨rfl, rfl, foreign_kind hf _, ?_, ?_, ?_⟩, rfl⟩
  · exact (C131_event .unknown _ _).1 rfl
  · intro _ _ h1; exact absurd h1 (by show ¬ x.toNat < 192; omega)
  · intro h1; exact absurd h1 (by show ¬ x.toNat = 199; omega)

theorem eventsBytes_parts {l r : List Event} {body : Bytes} (h : eventsBytes (l ++ r) = .ok body) :
    ∃ a b, body = a ++ b ∧ eventsBytes l = .ok a ∧ eventsBytes r = .ok b := by
  induction l generalizing body with
  | nil => exact ⟨[], body, rfl, rfl, h⟩
  | cons e l ih =>
    obtain ⟨x, y, h1, h2, rfl⟩ := seqBuild_inv h
    obtain ⟨a, b, rfl, h3, h4⟩ := ih h2
    exact ⟨x ++ a, b, by simp, seqBuild_ok h1 h3, h4⟩

theorem eventsBytes_join {l r : List Event} {a b : Bytes} (h1 : eventsBytes l = .ok a) (h2 : eventsBytes r = .ok b) :
    eventsBytes (l ++ r) = .ok (a ++ b) := by
  induction l generalizing a with
  | nil => cases h1; exact h2
  | cons e l ih =>
    obtain ⟨x, y, h3, h4, rfl⟩ := seqBuild_inv h1
    rw [List.append_assoc]
    exact seqBuild_ok h3 (ih h4)

theorem eventsBytes_raws {l : List Event} {a : Bytes} (h : eventsBytes l = .ok a) :
    ∃ la : List Bytes, l.map Event.toBytes = la.map .ok ∧ a = la.flatten := by
  induction l generalizing a with
  | nil => cases h; exact ⟨[], rfl, rfl⟩
  | cons e l ih =>
    obtain ⟨x, y, h3, h4, rfl⟩ := seqBuild_inv h
    obtain ⟨la, h5, h6⟩ := ih h4
    exact ⟨x :: la, by simp [h3, h5], by simp [h6]⟩

/-- C140, saving.  If a project can be saved, it can also be saved with one event more that is not the start of a channel (as
long as the file is below 4 GiB): the bytes of this event come between those of its neighbours, and apart from the size in the
header nothing else changes.  An event with an unknown id is written with exactly the bytes it holds. -/
theorem C140_saved {p : Project} {file : Bytes} (h : saveBytes p = .ok file) (l r : List Event) (hp : p.events = l ++ r)
    (e : Event) (hc : e.id ≠ 64) (raw : Bytes) (he : e.toBytes = .ok raw) (hsz : file.length + raw.length < 2 ^ 32) :
    ∃ head s s' a b, file = head ++ s ++ (a ++ b) ∧ head.length = 18 ∧ s.length = 4 ∧ s'.length = 4 ∧
      (∃ la : List Bytes, l.map Event.toBytes = la.map .ok ∧ a = la.flatten) ∧ (∃ lb : List Bytes, r.map Event.toBytes = lb.map .ok ∧ b = lb.flatten) ∧
      littleEndian s' = (a ++ raw ++ b).length ∧
      saveBytes { p with events := l ++ e :: r } = .ok (head ++ s' ++ (a ++ raw ++ b)) := by
  unfold saveBytes at h ⊢
  have hch : channelLen (l ++ e :: r) = channelLen p.events := by
    rw [channelLen_eq, channelLen_eq, hp]
    have : channelStarts (l ++ e :: r) = channelStarts (l ++ r) := by
      unfold channelStarts
      simp [List.filter_append, hc]
    rw [this]
  dsimp only
  rw [hch]
  split at h
  · cases h
  · next n hn =>
    split at h
    · cases h
    · next hdr hh =>
      split at h
      · cases h
      · next body hb =>
        rw [hp] at hb
        obtain ⟨a, b, rfl, ha, hb'⟩ := eventsBytes_parts hb
        have hlen : hdr.length = 14 := by
          unfold packHeader at hh
          split at hh
          · next h1 h2 h3 =>
            cases hh
            simp [intBuild_length h1, intBuild_length h2, intBuild_length h3, magicHd]
          · cases hh
        unfold assemble at h
        split at h
        · next hlt =>
          injection h with h
          have hnew : eventsBytes (l ++ e :: r) = .ok (a ++ raw ++ b) := by
            rw [List.append_assoc]
            exact eventsBytes_join ha (seqBuild_ok he hb')
          have hle : (a ++ raw ++ b).length < 2 ^ 32 := by
            rw [← h] at hsz
            simp only [List.length_append] at hsz ⊢
            omega
          refine ⟨hdr ++ magicDt, leBytes 4 (a ++ b).length, leBytes 4 (a ++ raw ++ b).length, a, b, h.symm, ?_, by simp, by simp,
            eventsBytes_raws ha, eventsBytes_raws hb', ?_, ?_⟩
          · rw [List.length_append, hlen]; rfl
          · obtain ⟨t0, t1, t2, t3, h1, h2⟩ := dword_leBytes hle
            rw [h1, ← h2]; simp only [dword, littleEndian]; omega
          · rw [hnew]
            dsimp only
            unfold assemble
            rw [if_pos hle]
        · cases h

theorem unknown_bytes {x : UInt8} (hf : Foreign x.toNat) (data : Bytes) (n : Nat) :
    Event.toBytes ⟨x.toNat, .unknown, .bytes data, n⟩ = .ok ([x] ++ varBuild data.length ++ data) := by
  unfold Event.toBytes
  have h1 : intBuild 1 false (x.toNat : Int) = .ok [x] := by
    have := u8_toNat_lt x
    unfold intBuild
    rw [if_pos (by simp [intFits]; omega)]
    have h2 : ((x.toNat : Int) % (256 ^ 1 : Nat)).toNat = x.toNat := by omega
    rw [h2]
    simp [leBytes]
  dsimp only
  rw [h1]
  dsimp only
  have h2 : Event.payload ⟨x.toNat, .unknown, .bytes data, n⟩ = .ok data := rfl
  rw [h2]
  dsimp only
  have := hf.2.1
  rw [if_neg (by omega)]

/-- C140, unknown ids, opened and saved.  An event whose id the library does not know is added to a file that can be opened and
saved.  The file with the event can be saved too, as long as the result is below 4 GiB: the result is what the file without it
is saved as, with the id, the size in as few bytes as possible and exactly the data in between, and the size in the header
adjusted. -/
theorem C140_kept {head s s' a b pre data : Bytes} {x : UInt8} {i : Nat} (hh : head.length = 18) (hs : s.length = 4)
    (hs' : s'.length = 4) (hl : littleEndian s' = (a ++ ([x] ++ pre ++ data) ++ b).length) (ha : WholeEvents i a)
    (hx : SizeFor x.toNat pre data.length) (hf : Foreign x.toNat) {p : Project}
    (h : parseFile (head ++ s ++ (a ++ b)) = .ok p) {file : Bytes} (hsave : saveBytes p = .ok file)
    (hsz : file.length + pre.length + data.length + 1 < 2 ^ 32) :
    ∃ p' head' t t' c d short, parseFile (head ++ s' ++ (a ++ ([x] ++ pre ++ data) ++ b)) = .ok p' ∧
      file = head' ++ t ++ (c ++ d) ∧ head'.length = 18 ∧ t.length = 4 ∧ t'.length = 4 ∧
      (∃ lc : List Bytes, (p.events.take i).map Event.toBytes = lc.map .ok ∧ c = lc.flatten) ∧
      (∃ ld : List Bytes, (p.events.drop i).map Event.toBytes = ld.map .ok ∧ d = ld.flatten) ∧
      SizeBytes short data.length ∧ (∀ other, SizeBytes other data.length → short.length ≤ other.length) ∧
      littleEndian t' = (c ++ ([x] ++ short ++ data) ++ d).length ∧
      saveBytes p' = .ok (head' ++ t' ++ (c ++ ([x] ++ short ++ data) ++ d)) := by
  have h208 := hf.2.1
  obtain ⟨w1, w2⟩ := C131_written.1 data.length
  have hpre : SizeBytes pre data.length := by
    unfold SizeFor at hx
    rw [if_neg (by omega), if_neg (by omega), if_neg (by omega)] at hx
    exact hx.1
  have hle := w2 pre hpre
  obtain ⟨head', t, t', c, d, g1, g2, g3, g4, g5, g6, g7, g8⟩ := C140_saved hsave (p.events.take i) (p.events.drop i)
    (List.take_append_drop ..).symm ⟨x.toNat, .unknown, .bytes data, data.length⟩ (by show x.toNat ≠ 64; omega) _
    (unknown_bytes hf data data.length) (by simp only [List.length_append, List.length_cons, List.length_nil]; omega)
  exact ⟨_, head', t, t', c, d, varBuild data.length, C140_unknown hh hs hs' hl ha hx hf h, g1, g2, g3, g4, g5, g6, w1, w2, g7, g8⟩

/-- Ids that the library does not know: among others 230 and 255. -/
example : Foreign 230 ∧ Foreign 255 ∧ ¬ Foreign 199 ∧ ¬ Foreign 64 := by
  unfold Foreign; decide +kernel

/-- The hypotheses can be met: to the demo file an unknown event of three bytes is added as the second. -/
example : ∃ p p', parseFile (Demo.file.take 18 ++ [77, 0, 0, 0] ++ ((Demo.file.drop 22).take 9 ++ Demo.file.drop 31)) = .ok p ∧
    parseFile (Demo.file.take 18 ++ [82, 0, 0, 0] ++ ((Demo.file.drop 22).take 9 ++ ([230] ++ [3] ++ [7, 0, 9]) ++ Demo.file.drop 31)) =
      .ok p' ∧ p'.events = p.events.take 1 ++ ⟨230, .unknown, .bytes [7, 0, 9], 3⟩ :: p.events.drop 1 ∧ p.events.length = 10 := by
  have hw : WholeEvents 1 ((Demo.file.drop 22).take 9) := by
    have : SizeFor (199 : UInt8).toNat [7] ([50, 48, 46, 56, 46, 51, 0] : Bytes).length :=
      ⟨.last (b := 7) (by decide), by decide⟩
    exact WholeEvents.next this .none
  have hz : SizeFor (230 : UInt8).toNat [3] ([7, 0, 9] : Bytes).length := ⟨.last (b := 3) (by decide), by decide⟩
  obtain ⟨q, h1, _, _, _, h2, _⟩ := C04_save_parse Demo.project Demo.file (by decide) (by decide) Demo.wellTyped Demo.valid Demo.saved
  have hf : Demo.file = Demo.file.take 18 ++ [77, 0, 0, 0] ++ ((Demo.file.drop 22).take 9 ++ Demo.file.drop 31) := rfl
  rw [hf] at h1
  refine ⟨q, _, h1, C140_unknown (by decide) (by decide) (by decide) (by decide) hw hz (by unfold Foreign; decide +kernel) h1, rfl, ?_⟩
  have := congrArg List.length h2
  simp only [List.length_map] at this
  rw [this]; rfl

end

end PyFLP
