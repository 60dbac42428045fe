import Verif.Props.Layout
/-!
# What damaged bytes do to a project (C138)
-/

namespace PyFLP

open Spec

namespace Spec

/-- In the event data `a ++ data ++ b` the bytes `data` are the data of the event number `i`, which has this id. -/
inductive DataAt (id : Nat) (data b : Bytes) : Nat → Bytes → Prop
  | here {x : UInt8} {pre : Bytes} {n : Nat} {fs : List (Nat × Bytes)} (hx : x.toNat = id) (hs : SizeFor id pre n)
      (hn : data.length = n ∨ (data.length < n ∧ b = [])) (t : Framed b fs) : DataAt id data b 0 ([x] ++ pre)
  | later {x : UInt8} {pre other a : Bytes} {n i : Nat} (hs : SizeFor x.toNat pre n) (hn : other.length = n)
      (t : DataAt id data b i a) : DataAt id data b (i + 1) ([x] ++ pre ++ other ++ a)

/-- The type of the event number `j` is decided by the event number `k`: of a text without a declared type by the closest
version before it, of the data of a plugin by the closest internal name before it. -/
def DecidedBy (evs : List Event) (j k : Nat) : Prop :=
  ∃ e d, evs[j]? = some e ∧ evs[k]? = some d ∧ k < j ∧
    ((untypedText e.id ∧ d.id = 199 ∧ ∀ m x, k < m → m < j → evs[m]? = some x → x.id ≠ 199) ∨
     (e.id = 213 ∧ d.id = 201 ∧ ∀ m x, k < m → m < j → evs[m]? = some x → x.id ≠ 201))

/-- The event number `j` depends on the event number `i`: `i` decides its type, or the type of an event that it depends on. -/
inductive DependsOn (evs : List Event) (i : Nat) : Nat → Prop
  | first {j : Nat} (h : DecidedBy evs j i) : DependsOn evs i j
  | next {j k : Nat} (h : DecidedBy evs j k) (d : DependsOn evs i k) : DependsOn evs i j

end Spec

/-! ### Bytes -/

theorem dataAt_splits {id : Nat} {data b : Bytes} {i : Nat} {a : Bytes} (h : DataAt id data b i a) :
    ∃ fs gs, fs.length = i ∧ ∀ data' : Bytes, data'.length = data.length → Splits (a ++ (data' ++ b)) (fs ++ (id, data') :: gs) := by
  induction h with
  | @here x pre n fs hx hs hn t =>
    refine ⟨[], fs, rfl, fun data' hl => ?_⟩
    have := Framed.event (id := x) (pre := pre) (data := data') (rest := b) (fs := fs) (by rw [hx]; exact hs)
      (by rw [hl]; exact hn) t
    rw [hx] at this
    rw [← framed_iff]
    simpa using this
  | @later x pre other a n i hs hn t ih =>
    obtain ⟨fs, gs, h1, h2⟩ := ih
    refine ⟨(x.toNat, other) :: fs, gs, by simp [h1], fun data' hl => ?_⟩
    have := Framed.event (id := x) hs (.inl hn) (framed_iff.2 (h2 data' hl))
    rw [← framed_iff]
    simpa using this

/-! ### Events -/

section
variable [FloatEnv]

theorem decoded_iff {before : List Event} {fs : List (Nat × Bytes)} {evs : List Event} : Decoded before fs evs ↔
    evs.length = fs.length ∧ ∀ j f e, fs[j]? = some f → evs[j]? = some e → DecodesTo (before ++ evs.take j) f e := by
  constructor
  · intro h
    induction h with
    | nil => exact ⟨rfl, by simp⟩
    | @cons before f e fs evs hd t ih =>
      refine ⟨by simp [ih.1], fun j f' e' hf he => ?_⟩
      cases j with
      | zero =>
        simp only [List.getElem?_cons_zero, Option.some.injEq] at hf he
        subst hf he
        simpa using hd
      | succ j =>
        simp only [List.getElem?_cons_succ] at hf he
        have := ih.2 j f' e' hf he
        simpa using this
  · rintro ⟨hl, h⟩
    induction fs generalizing before evs with
    | nil =>
      obtain rfl := List.eq_nil_of_length_eq_zero hl
      exact .nil
    | cons f fs ih =>
      cases evs with
      | nil => cases hl
      | cons e evs =>
        refine .cons (by simpa using h 0 f e rfl rfl) (ih (by simpa using hl) fun j f' e' hf he => ?_)
        have := h (j + 1) f' e' (by simpa using hf) (by simpa using he)
        simpa using this

omit [FloatEnv] in
/-- The type of an event depends on the closest version or internal name only. -/
theorem kindOf_needs {b b' : List Event} {id : Nat} (h1 : untypedText id → lastStr 199 b = lastStr 199 b')
    (h2 : id = 213 → lastStr 201 b = lastStr 201 b') : kindOf b id = kindOf b' id := by
  unfold kindOf
  split
  · rfl
  · next hn =>
    split
    · rfl
    · split
      · rfl
      · split
        · rfl
        · split
          · next h64 h128 h192 ht =>
            have : untypedText id := ⟨hn, by omega⟩
            unfold textKind
            rw [h1 this]
          · split
            · next h => unfold pluginKind; rw [h2 h]
            · rfl

omit [FloatEnv] in
theorem lastStr_same {id : Nat} {evs evs' : List Event} (hid : evs.map Event.id = evs'.map Event.id) (j : Nat)
    (h : ∀ k x, k < j → evs[k]? = some x → x.id = id → (∀ m y, k < m → m < j → evs[m]? = some y → y.id ≠ id) → evs'[k]? = some x) :
    lastStr id (evs.take j) = lastStr id (evs'.take j) := by
  induction j with
  | zero => simp
  | succ j ih =>
    have hlen : evs.length = evs'.length := by simpa using congrArg List.length hid
    by_cases hj : j < evs.length
    · have hj' : j < evs'.length := by omega
      have hids : evs[j].id = evs'[j].id := by
        have := congrArg (fun l => l[j]?) hid
        simpa [hj, hj'] using this
      rw [List.take_succ_eq_append_getElem hj, List.take_succ_eq_append_getElem hj', lastStr_append, lastStr_append, hids]
      by_cases hc : evs'[j].id = id
      · have := h j evs[j] (by omega) (by simp [hj]) (hids.trans hc) (fun m y h1 h2 => by omega)
        rw [List.getElem?_eq_getElem hj'] at this
        injection this with this
        rw [if_pos hc, if_pos hc, this]
      · rw [if_neg hc, if_neg hc]
        refine ih fun k x hk hx hxid hno => h k x (by omega) hx hxid fun m y h1 h2 hy => ?_
        by_cases hm : m = j
        · subst hm
          rw [List.getElem?_eq_getElem hj] at hy
          injection hy with hy
          subst hy
          rw [hids]; exact hc
        · exact hno m y h1 (by omega) hy
    · have h1 : evs.take (j + 1) = evs.take j := by rw [List.take_of_length_le (by omega), List.take_of_length_le (by omega)]
      have h2 : evs'.take (j + 1) = evs'.take j := by rw [List.take_of_length_le (by omega), List.take_of_length_le (by omega)]
      rw [h1, h2]
      exact ih fun k x hk hx hxid hno => h k x (by omega) hx hxid fun m y g1 g2 hy => by
        by_cases hm : m = j
        · subst hm
          rw [List.getElem?_eq_none (by omega)] at hy; cases hy
        · exact hno m y g1 (by omega) hy

theorem decodes_same {b b' : List Event} {f : Nat × Bytes} {e e' : Event} (hk : kindOf b f.1 = kindOf b' f.1)
    (h : DecodesTo b f e) (h' : DecodesTo b' f e') : e = e' := by
  have k1 := h.kind
  rw [hk, h'.kind] at k1
  injection k1 with k1
  have v := h.value
  rw [← k1, h'.value] at v
  injection v with v
  cases e; cases e'
  have i1 := h.id; have i2 := h'.id; have l1 := h.len; have l2 := h'.len
  simp only at *
  rw [i1, i2, l1, l2, k1, v]

theorem decoded_ids {fs : List (Nat × Bytes)} {evs : List Event} (h : Decoded [] fs evs) : evs.map Event.id = fs.map Prod.fst := by
  obtain ⟨hl, h⟩ := decoded_iff.1 h
  apply List.ext_getElem
  · simp [hl]
  · intro j h1 h2
    simp at h1 h2
    simpa using (h j fs[j] evs[j] (by simp [h2]) (by simp [h1])).id

/-- Two readings of events that differ in the data of one of them. -/
theorem decoded_reach {fs gs : List (Nat × Bytes)} {id : Nat} {d d' : Bytes} {evs evs' : List Event}
    (h : Decoded [] (fs ++ (id, d) :: gs) evs) (h' : Decoded [] (fs ++ (id, d') :: gs) evs') (j : Nat) (hj : j ≠ fs.length)
    (hd : ¬ DependsOn evs fs.length j) : evs'[j]? = evs[j]? := by
  have hids : evs.map Event.id = evs'.map Event.id := by rw [decoded_ids h, decoded_ids h']; simp
  obtain ⟨hl, hp⟩ := decoded_iff.1 h
  obtain ⟨hl', hp'⟩ := decoded_iff.1 h'
  induction j using Nat.strongRecOn with
  | ind j ih =>
    by_cases hlt : j < evs.length
    · have hlt' : j < evs'.length := by simp at hl hl'; omega
      have hf : (fs ++ (id, d) :: gs)[j]? = (fs ++ (id, d') :: gs)[j]? := by
        by_cases hlt2 : j < fs.length
        · rw [List.getElem?_append_left hlt2, List.getElem?_append_left hlt2]
        · rw [List.getElem?_append_right (by omega), List.getElem?_append_right (by omega)]
          obtain ⟨m, hm⟩ : ∃ m, j - fs.length = m + 1 := ⟨j - fs.length - 1, by omega⟩
          rw [hm]; rfl
      have hlf : j < (fs ++ (id, d) :: gs).length := by omega
      have g1 := hp j _ _ (List.getElem?_eq_getElem hlf) (List.getElem?_eq_getElem hlt)
      have g2 := hp' j _ _ (by rw [← hf]; exact List.getElem?_eq_getElem hlf) (List.getElem?_eq_getElem hlt')
      rw [List.nil_append] at g1 g2
      have closest : ∀ code, (∀ k x, k < j → evs[k]? = some x → x.id = code →
          (∀ m y, k < m → m < j → evs[m]? = some y → y.id ≠ code) → DecidedBy evs j k) →
          lastStr code (evs.take j) = lastStr code (evs'.take j) := by
        intro code hdec
        refine lastStr_same hids j fun k x hk hx hxid hno => ?_
        have hdk := hdec k x hk hx hxid hno
        rw [ih k hk (fun hc => hd (hc ▸ .first hdk)) (fun hc => hd (.next hdk hc))]
        exact hx
      have hk : kindOf (evs.take j) (fs ++ (id, d) :: gs)[j].1 = kindOf (evs'.take j) (fs ++ (id, d) :: gs)[j].1 := by
        refine kindOf_needs (fun hu => ?_) (fun hu => ?_)
        · refine closest 199 fun k x hk hx hxid hno =>
            ⟨evs[j], x, List.getElem?_eq_getElem hlt, hx, hk, .inl ⟨?_, hxid, hno⟩⟩
          rw [g1.id]; exact hu
        · refine closest 201 fun k x hk hx hxid hno =>
            ⟨evs[j], x, List.getElem?_eq_getElem hlt, hx, hk, .inr ⟨?_, hxid, hno⟩⟩
          rw [g1.id]; exact hu
      rw [List.getElem?_eq_getElem hlt, List.getElem?_eq_getElem hlt', decodes_same hk g1 g2]
    · have hlt' : ¬ j < evs'.length := by simp at hl hl'; omega
      rw [List.getElem?_eq_none (by omega), List.getElem?_eq_none (by omega)]

theorem parse_data {hdr data : Bytes} (hh : hdr.length = 22) {p : Project} (h : parseFile (hdr ++ data) = .ok p) :
    ∃ fs, Splits data fs ∧ Decoded [] fs p.events ∧ ∀ data' fs' evs', data'.length = data.length → Splits data' fs' →
      Decoded [] fs' evs' → parseFile (hdr ++ data') = .ok { p with events := evs' } := by
  obtain ⟨f0, f1, c0, c1, p0, p1, s0, s1, s2, s3, bs, h1, h2, h3, h4, h5, h6, h7, h8, fs, h9, h10⟩ := parse_iff.1 h
  obtain ⟨rfl, rfl⟩ := List.append_inj h1 (by rw [hh]; rfl)
  refine ⟨fs, h9, h10, fun data' fs' evs' hl hs hd => parse_iff.2 ⟨f0, f1, c0, c1, p0, p1, s0, s1, s2, s3, data', rfl, h2, h3, ?_, ?_,
    h6, h7, h8, fs', hs, hd⟩⟩
  · rintro rfl
    exact h4 (List.eq_nil_of_length_eq_zero hl.symm)
  · rw [h5, hl]

/-! ### C138 -/

/-- C138. Two files that differ in the data of one event, and nowhere else, and that both can be opened: the projects differ in
this event and in events that depend on it, and nowhere else. -/
theorem C138_reach {hdr a data data' b : Bytes} {id i : Nat} (hh : hdr.length = 22) (hd : DataAt id data b i a)
    (hl : data'.length = data.length) {p p' : Project} (h : parseFile (hdr ++ (a ++ (data ++ b))) = .ok p)
    (h' : parseFile (hdr ++ (a ++ (data' ++ b))) = .ok p') :
    p'.format = p.format ∧ p'.channelCount = p.channelCount ∧ p'.ppq = p.ppq ∧ p'.events.map Event.id = p.events.map Event.id ∧
      ∀ j, j ≠ i → ¬ DependsOn p.events i j → p'.events[j]? = p.events[j]? := by
  obtain ⟨fs, gs, hi, hsp⟩ := dataAt_splits hd
  subst hi
  obtain ⟨fs1, s1, d1, mk⟩ := parse_data hh h
  obtain ⟨fs2, s2, d2, _⟩ := parse_data hh h'
  have e1 := splits_unique s1 (hsp data rfl)
  have e2 := splits_unique s2 (hsp data' hl)
  subst e1 e2
  have same := mk _ _ _ (by simp [hl]) s2 d2
  rw [h'] at same
  injection same with same
  refine ⟨by rw [same], by rw [same], by rw [same], ?_, fun j hj hn => decoded_reach d1 d2 j hj hn⟩
  rw [decoded_ids d1, decoded_ids d2]
  simp

omit [FloatEnv] in
theorem decides_id {evs : List Event} {j k : Nat} (h : DecidedBy evs j k) : ∃ d, evs[k]? = some d ∧ (d.id = 199 ∨ d.id = 201) := by
  obtain ⟨e, d, _, h2, _, h4⟩ := h
  rcases h4 with ⟨_, h, _⟩ | ⟨_, h, _⟩
  · exact ⟨d, h2, .inl h⟩
  · exact ⟨d, h2, .inr h⟩

omit [FloatEnv] in
theorem depends_id {evs : List Event} {i j : Nat} (h : DependsOn evs i j) : ∃ d, evs[i]? = some d ∧ (d.id = 199 ∨ d.id = 201) := by
  induction h with
  | first h => exact decides_id h
  | next _ _ ih => exact ih

/-- C138. If the event is not a version and not the internal name of a plugin: the changed file can be opened exactly if its data
means a value of the type that the event had, and then the event has this value, and everything else is as it was. -/
theorem C138_local {hdr a data data' b : Bytes} {id i : Nat} (hh : hdr.length = 22) (hd : DataAt id data b i a)
    (hl : data'.length = data.length) (hv : id ≠ 199) (hn : id ≠ 201) {p : Project}
    (h : parseFile (hdr ++ (a ++ (data ++ b))) = .ok p) :
    ∃ e, p.events[i]? = some e ∧ e.id = id ∧ Means e.kind data e.value ∧
      ∀ p', parseFile (hdr ++ (a ++ (data' ++ b))) = .ok p' ↔
        ∃ v, Means e.kind data' v ∧ p' = { p with events := p.events.set i { e with value := v } } := by
  obtain ⟨fs, gs, hi, hsp⟩ := dataAt_splits hd
  subst hi
  obtain ⟨fs1, s1, d1, mk⟩ := parse_data hh h
  have e1 := splits_unique s1 (hsp data rfl)
  subst e1
  obtain ⟨len1, all1⟩ := decoded_iff.1 d1
  have hlt : fs.length < p.events.length := by rw [len1]; simp
  have here := all1 fs.length (id, data) _ (by simp) (List.getElem?_eq_getElem hlt)
  have nodep : ∀ j, ¬ DependsOn p.events fs.length j := by
    intro j hc
    obtain ⟨d, h1, h2⟩ := depends_id hc
    rw [List.getElem?_eq_getElem hlt] at h1
    injection h1 with h1
    rw [← h1, here.id] at h2
    rcases h2 with h2 | h2
    · exact hv h2
    · exact hn h2
  refine ⟨p.events[fs.length], List.getElem?_eq_getElem hlt, here.id, (C131_event _ _ _).1 here.value, fun p' => ⟨fun h' => ?_, ?_⟩⟩
  · obtain ⟨fs2, s2, d2, _⟩ := parse_data hh h'
    have e2 := splits_unique s2 (hsp data' hl)
    subst e2
    obtain ⟨len2, all2⟩ := decoded_iff.1 d2
    have hlt2 : fs.length < p'.events.length := by rw [len2]; simp
    have there := all2 fs.length (id, data') _ (by simp) (List.getElem?_eq_getElem hlt2)
    obtain ⟨r1, r2, r3, _, r5⟩ := C138_reach hh hd hl h h'
    have htake : p'.events.take fs.length = p.events.take fs.length := by
      apply List.ext_getElem?
      intro j
      rw [List.getElem?_take, List.getElem?_take]
      split
      · next hj => exact r5 j (by omega) (nodep j)
      · rfl
    have hk : p'.events[fs.length].kind = p.events[fs.length].kind := by
      have := there.kind
      rw [List.nil_append, htake] at this
      have k2 := here.kind
      rw [List.nil_append] at k2
      rw [k2] at this
      injection this with this
      exact this.symm
    refine ⟨p'.events[fs.length].value, ?_, ?_⟩
    · rw [← C131_event, ← hk]; exact there.value
    · have hev : p'.events = p.events.set fs.length { p.events[fs.length] with value := p'.events[fs.length].value } := by
        apply List.ext_getElem?
        intro j
        rw [List.getElem?_set]
        by_cases hj : fs.length = j
        · subst hj
          rw [if_pos rfl, if_pos hlt, List.getElem?_eq_getElem hlt2]
          congr 1
          have i1 := here.id; have i2 := there.id; have l1 := here.len; have l2 := there.len
          simp only at i1 i2 l1 l2
          generalize p'.events[fs.length] = x at *
          generalize p.events[fs.length] = y at *
          cases x; cases y
          simp only at *
          rw [i1, i2, l1, l2, hk, hl]
        · rw [if_neg hj]
          exact r5 j (fun hc => hj hc.symm) (nodep j)
      have ext : ∀ q q' : Project, q.format = q'.format → q.channelCount = q'.channelCount → q.ppq = q'.ppq → q.events = q'.events →
          q = q' := by
        rintro ⟨_, _, _, _⟩ ⟨_, _, _, _⟩ h1 h2 h3 h4
        simp only at h1 h2 h3 h4
        rw [h1, h2, h3, h4]
      exact ext _ _ r1 r2 r3 hev
  · rintro ⟨v, hm, rfl⟩
    refine mk _ _ _ (by simp [hl]) (hsp data' hl) (decoded_iff.2 ⟨by rw [List.length_set, len1]; simp, fun j f e hf he => ?_⟩)
    have hids : (p.events.set fs.length { p.events[fs.length] with value := v }).map Event.id = p.events.map Event.id := by
      rw [List.map_set]
      apply List.ext_getElem?
      intro j
      rw [List.getElem?_set]
      split
      · next hj => subst hj; simp [hlt]
      · rfl
    have last : ∀ code, code = 199 ∨ code = 201 → lastStr code (p.events.take j) =
        lastStr code ((p.events.set fs.length { p.events[fs.length] with value := v }).take j) := by
      intro code hcode
      refine lastStr_same hids.symm j fun k x hk hx hxid _ => ?_
      rw [List.getElem?_set, if_neg, hx]
      rintro rfl
      rw [List.getElem?_eq_getElem hlt] at hx
      injection hx with hx
      rw [← hx, here.id] at hxid
      rcases hcode with rfl | rfl
      · exact hv hxid
      · exact hn hxid
    have hkind : ∀ id', kindOf (p.events.take j) id' =
        kindOf ((p.events.set fs.length { p.events[fs.length] with value := v }).take j) id' := fun id' =>
      kindOf_needs (fun _ => last 199 (.inl rfl)) (fun _ => last 201 (.inr rfl))
    rw [List.nil_append]
    by_cases hj : j = fs.length
    · subst hj
      rw [List.getElem?_set_self hlt] at he
      injection he with he
      subst he
      simp only [List.getElem?_append_right (Nat.le_refl _), Nat.sub_self, List.getElem?_cons_zero, Option.some.injEq] at hf
      subst hf
      have k2 := here.kind
      rw [List.nil_append] at k2
      exact ⟨here.id, by rw [hl]; exact here.len, by rw [← hkind]; exact k2, (C131_event _ _ _).2 hm,
        fun h => by rw [hl]; exact here.size1 h, fun h h2 => by rw [hl]; exact here.size2 h h2,
        fun h h2 => by rw [hl]; exact here.size4 h h2, fun h => absurd h hv⟩
    · rw [List.getElem?_set_ne (fun hc => hj hc.symm)] at he
      have hf' : (fs ++ (id, data) :: gs)[j]? = some f := by
        rw [← hf]
        by_cases hlt2 : j < fs.length
        · rw [List.getElem?_append_left hlt2, List.getElem?_append_left hlt2]
        · rw [List.getElem?_append_right (by omega), List.getElem?_append_right (by omega)]
          obtain ⟨m, hm⟩ : ∃ m, j - fs.length = m + 1 := ⟨j - fs.length - 1, by omega⟩
          rw [hm]; rfl
      have d := all1 j f e hf' he
      rw [List.nil_append] at d
      exact ⟨d.id, d.len, by rw [← hkind]; exact d.kind, d.value, d.size1, d.size2, d.size4, d.version⟩

/-- C138. Two files that differ in their headers only, and that both can be opened, have the same events. -/
theorem C138_header {hdr hdr' data : Bytes} (hh : hdr.length = 22) (hh' : hdr'.length = 22) {p p' : Project}
    (h : parseFile (hdr ++ data) = .ok p) (h' : parseFile (hdr' ++ data) = .ok p') : p'.events = p.events := by
  obtain ⟨fs, s1, d1, mk⟩ := parse_data hh h
  obtain ⟨fs', s2, d2, _⟩ := parse_data hh' h'
  have e := splits_unique s1 s2
  subst e
  have := mk _ _ _ rfl s2 d2
  rw [h] at this
  injection this with this
  exact (congrArg Project.events this).symm

theorem splits_at {bs : Bytes} {fs : List (Nat × Bytes)} (h : Splits bs fs) {i : Nat} {f : Nat × Bytes} (hf : fs[i]? = some f) :
    ∃ a b, bs = a ++ (f.2 ++ b) ∧ DataAt f.1 f.2 b i a := by
  induction h generalizing i with
  | nil => simp at hf
  | @cons id pre payload rest n fs ha hn t ih =>
    cases i with
    | zero =>
      simp only [List.getElem?_cons_zero, Option.some.injEq] at hf
      subst hf
      exact ⟨[id] ++ pre, rest, by simp, .here rfl (sizeFor_iff.2 ha) hn (framed_iff.2 t)⟩
    | succ i =>
      simp only [List.getElem?_cons_succ] at hf
      obtain ⟨a, b, h1, h2⟩ := ih hf
      refine ⟨[id] ++ pre ++ payload ++ a, b, by rw [h1]; simp, .later (sizeFor_iff.2 ha) ?_ h2⟩
      rcases hn with hn | ⟨_, rfl⟩
      · exact hn
      · cases t; simp at hf

/-- C138. Every event of every file that can be opened has its data somewhere in the file. -/
theorem C138_everywhere {file : Bytes} {p : Project} (h : parseFile file = .ok p) {i : Nat} {e : Event} (he : p.events[i]? = some e) :
    ∃ hdr a data b, file = hdr ++ (a ++ (data ++ b)) ∧ hdr.length = 22 ∧ DataAt e.id data b i a ∧ Means e.kind data e.value := by
  obtain ⟨f0, f1, c0, c1, p0, p1, s0, s1, s2, s3, bs, h1, _, _, _, _, _, _, _, fs, h9, h10⟩ := parse_iff.1 h
  obtain ⟨len1, all1⟩ := decoded_iff.1 h10
  have hi : i < fs.length := by
    rw [← len1]
    exact (List.getElem?_eq_some_iff.1 he).1
  have d := all1 i _ e (List.getElem?_eq_getElem hi) he
  obtain ⟨a, b, g1, g2⟩ := splits_at h9 (List.getElem?_eq_getElem hi)
  refine ⟨_, a, _, b, by rw [h1, g1], rfl, ?_, (C131_event _ _ _).1 d.value⟩
  rw [d.id]
  exact g2

end

/-- Dependence: the plugin data depends on the version, since its class is decided by the internal name, whose encoding is
decided by the version; the number between does not. -/
example : let evs : List Event := [⟨199, .ascii, .str [49, 50], 3⟩, ⟨201, .unicode, .str [65], 4⟩, ⟨64, .u16, .lv (.int 0), 2⟩,
    ⟨213, .unknown, .bytes [1], 1⟩]
    DependsOn evs 0 3 ∧ DependsOn evs 0 1 ∧ ¬ DependsOn evs 0 2 := by
  intro evs
  have h1 : DependsOn evs 0 1 := .first ⟨_, _, rfl, rfl, by decide, .inl ⟨by unfold untypedText; decide +kernel, rfl,
    fun m x h1 h2 => by omega⟩⟩
  refine ⟨.next (k := 1) ⟨_, _, rfl, rfl, by decide, .inr ⟨rfl, rfl, fun m x h1 h2 hx => ?_⟩⟩ h1, h1, fun h => ?_⟩
  · obtain rfl : m = 2 := by omega
    cases hx
    decide
  · have : ∀ k, ¬ DecidedBy evs 2 k := by
      rintro k ⟨e, d, he, _, _, h⟩
      cases he
      rcases h with ⟨h, _⟩ | ⟨h, _⟩
      · exact absurd h (by unfold untypedText; decide +kernel)
      · exact absurd h (by decide)
    cases h with
    | first h => exact this _ h
    | next h _ => exact this _ h

/-- The hypotheses of `C138_reach` and `C138_local` can be met: the number 0 of the first channel of the demo file is changed
to 3, and the file can still be opened. -/
example [FloatEnv] : ∃ hdr a data b p p', hdr.length = 22 ∧ DataAt 64 data b 1 a ∧ Demo.file = hdr ++ (a ++ (data ++ b)) ∧
    data.length = 2 ∧ parseFile (hdr ++ (a ++ (data ++ b))) = .ok p ∧ parseFile (hdr ++ (a ++ ([3, 0] ++ b))) = .ok p' ∧
    p'.events = p.events.set 1 ⟨64, .u16, .lv (.int 3), 2⟩ := by
  obtain ⟨q, h1, _, _, _, h2, _⟩ := C04_save_parse Demo.project Demo.file (by decide) (by decide) Demo.wellTyped Demo.valid Demo.saved
  have hobs : q.events.map observe = Demo.events.map observe := h2
  have hlen : 1 < q.events.length := by
    have := congrArg List.length hobs
    simp only [List.length_map] at this
    rw [this]; decide
  have ho : observe q.events[1] = (64, .u16, .lv (.int 0)) := by
    have := congrArg (fun l => l[1]?) hobs
    simp only [List.getElem?_map, List.getElem?_eq_getElem hlen, Option.map_some] at this
    injection this
  have hid : q.events[1].id = 64 := congrArg Prod.fst ho
  have hk : q.events[1].kind = .u16 := congrArg (fun x => x.2.1) ho
  have hv : q.events[1].value = .lv (.int 0) := congrArg (fun x => x.2.2) ho
  obtain ⟨hdr, a, data, b, e1, e2, e3, e4⟩ := C138_everywhere h1 (List.getElem?_eq_getElem hlen)
  rw [hid] at e3
  have upper : ∀ {i a}, DataAt 64 data b i a → data.length ≤ 2 := by
    intro i a h
    induction h with
    | here _ hs hn _ =>
      have : _ ∧ _ = 2 := hs
      rcases hn with hn | ⟨hn, _⟩ <;> omega
    | later _ _ _ ih => exact ih
  have lower : ¬ data.length < 2 := by
    intro hc
    have := (C131_event _ _ _).2 e4
    rw [hk] at this
    change (leafParse (.int 2 false) data).map _ = _ at this
    simp only [leafParse] at this
    unfold intParse at this
    rw [if_pos hc] at this
    cases this
  have two : data.length = 2 := by have := upper e3; omega
  rw [e1] at h1
  obtain ⟨e, g1, g2, g3, g4⟩ := C138_local (data' := [3, 0]) e2 e3 (by rw [two]; rfl) (by decide) (by decide) h1
  rw [List.getElem?_eq_getElem hlen] at g1
  injection g1 with g1
  have hl : q.events[1].len = 2 := by
    obtain ⟨f0, f1, c0, c1, p0, p1, s0, s1, s2, s3, bs, i1, _, _, _, _, _, _, _, fs, i9, i10⟩ := parse_iff.1 h1
    obtain ⟨len1, all1⟩ := decoded_iff.1 i10
    have hi : 1 < fs.length := by omega
    have d := all1 1 _ _ (List.getElem?_eq_getElem hi) (List.getElem?_eq_getElem hlen)
    rw [d.len]
    have := d.id
    exact d.size2 (by omega) (by omega)
  refine ⟨hdr, a, data, b, q, _, e2, e3, e1, two, h1, (g4 _).2 ⟨.lv (.int 3), ?_, rfl⟩, ?_⟩
  · rw [← g1, hk]; exact (C131_event .u16 _ _).1 rfl
  · rw [← g1]
    show q.events.set 1 _ = _
    rw [hid, hk, hl]

end PyFLP
