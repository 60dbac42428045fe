import Verif.KindLemmas
/-!
# Payloads reproduced byte for byte, and payloads that re-saving does not change
-/

namespace PyFLP

variable [FloatEnv]

/-- Payloads that are written back byte for byte.
* integers, colours, tuples, unknown data, automation: every payload of the right size;
* booleans: `00` or `01`;
* text: no NUL before the single final NUL;
* structs: see `canonFields`;
* lists: a whole number of items;
* notebooks: minimal length prefixes, one final `00`/`01`;
* VST data: nothing after the last sub-event, canonical sub-structs. -/
def canonPayload : Kind → Bytes → Prop
  | .u16t, bs => bs.length = 4
  | .color, _ => True
  | .ascii, bs => ∃ t, bs = t ++ [0] ∧ t.getLast? ≠ some 0
  | .unicode, bs => ∃ t, bs = t ++ [0, 0] ∧ stripPad t = t
  | .unknown, _ => True
  | .struct s, bs => canonFields ⟨bs.length⟩ s.fields bs
  | .list l, bs => bs.length % l.size bs.length = 0
  | .routing, bs => ∀ b ∈ bs, b = 0 ∨ b = 1
  | .automation, _ => True
  | .notebook, bs =>
      (∀ pre suf, bs.drop 8 = pre ++ suf → canonPage suf) ∧
        ((manyParse pageParse (bs.drop 8)).2 = [0] ∨ (manyParse pageParse (bs.drop 8)).2 = [1])
  | .vst, bs =>
      (∀ pre suf, bs.drop 4 = pre ++ suf → canonVst suf) ∧ (manyParse vstItemParse (bs.drop 4)).2 = []
  | k, bs => ∀ l, k.leaf = some l → leafCanon l bs ∧ leafSize l = some bs.length

omit [FloatEnv] in
theorem asciiEncode_map {s : PStr} {bs : Bytes} (h : asciiEncode s = .ok bs) :
    bs = s.map UInt8.ofNat := by
  induction s generalizing bs with
  | nil => cases h; rfl
  | cons c cs ih =>
    simp only [asciiEncode] at h
    split at h
    · split at h
      · next hs => cases h; rw [ih hs]; rfl
      · cases h
    · cases h

omit [FloatEnv] in
theorem asciiDecode_append_nul {t : Bytes} {s : PStr} (h : asciiDecode (t ++ [0]) = .ok s)
    (ht : t.getLast? ≠ some 0) : ∃ s', s = s' ++ [0] ∧ s'.getLast? ≠ some 0 := by
  have he := asciiEncode_asciiDecode h
  have hm := asciiEncode_map he
  have hlt := asciiEncode_ok_iff.1 ⟨_, he⟩
  have hne : s ≠ [] := by rintro rfl; simp at hm
  obtain ⟨s', c, rfl⟩ : ∃ s' c, s = s' ++ [c] := ⟨s.dropLast, s.getLast hne, (List.dropLast_concat_getLast hne).symm⟩
  rw [List.map_append] at hm
  obtain ⟨h1, h2⟩ := List.append_inj' hm (by simp)
  have hc := hlt c (by simp)
  have hc0 : c = 0 := by
    simp only [List.map_cons, List.map_nil, List.cons.injEq, and_true] at h2
    have := congrArg UInt8.toNat h2
    rw [u8_ofNat_toNat (by omega)] at this
    simpa using this.symm
  subst hc0
  refine ⟨s', rfl, fun hl => ht ?_⟩
  rw [h1, List.getLast?_map, hl]; rfl

omit [FloatEnv] in
theorem utf16Decode_append_nul {t : Bytes} {s : PStr} (h : utf16Decode (t ++ [0, 0]) = .ok s)
    (ht : stripPad t = t) : ∃ s', s = s' ++ [0] ∧ s'.getLast? ≠ some 0 := by
  have he := utf16Encode_utf16Decode h
  have hne : s ≠ [] := by
    rintro rfl
    have := congrArg List.length (Except.ok.inj (he : Except.ok [] = _))
    rw [List.length_append] at this
    simp only [List.length_nil, List.length_cons] at this
    omega
  obtain ⟨s', c, rfl⟩ : ∃ s' c, s = s' ++ [c] := ⟨s.dropLast, s.getLast hne, (List.dropLast_concat_getLast hne).symm⟩
  have hs := utf16Encode_ok_iff.1 ⟨_, he⟩
  obtain ⟨t', ht'⟩ := utf16Encode_ok_iff.2 (fun x hx => hs x (List.mem_append_left _ hx))
  obtain ⟨b, hb⟩ := (utf16Encode_ok_iff (s := [c])).2 (fun x hx => hs x (List.mem_append_right _ hx))
  have happ := utf16Encode_append ht' hb
  rw [he] at happ
  have happ := Except.ok.inj happ
  obtain ⟨x, y, hc, hnil, hbeq⟩ := utf16Encode_cons_ok hb
  simp only [utf16Encode] at hnil
  have hnil := Except.ok.inj hnil
  subst hnil
  rw [List.append_nil] at hbeq
  subst hbeq
  rcases utf16Char_shape hc with ⟨u, v, rfl, huv⟩ | ⟨u, v, z, w, rfl, hzw⟩
  · have := List.append_inj' happ (by simp)
    obtain ⟨h1, h2⟩ := this
    cases h2
    have := huv ⟨rfl, rfl⟩
    subst this
    subst h1
    exact ⟨s', rfl, rstrip_last_ne ht' ht⟩
  · exfalso
    have e : t' ++ [u, v, z, w] = (t' ++ [u, v]) ++ [z, w] := by simp
    rw [e] at happ
    have := (List.append_inj' happ (by simp)).2
    cases this
    exact hzw ⟨rfl, rfl⟩

theorem kind_canon {k : Kind} {bs : Bytes} {v : Value} (h : k.parse bs = .ok v)
    (hc : canonPayload k bs) : k.build bs.length v = .ok bs := by
  have leafCase : ∀ l, k.parse bs = (leafParse l bs).map (fun x => .lv x.1) → k.leaf = some l →
      (∀ x, k.build bs.length (.lv x) = leafBuild l (some x)) →
      leafCanon l bs ∧ leafSize l = some bs.length → k.build bs.length v = .ok bs := by
    intro l hp _ hb ⟨h1, h2⟩
    rw [hp] at h
    obtain ⟨⟨x, r⟩, p1, p2⟩ := map_ok h
    cases p2
    obtain ⟨pre, e, hpre⟩ := leaf_canon p1 h1
    have := leafParse_size p1 h2
    have hr : r = [] := List.eq_nil_of_length_eq_zero (by omega)
    subst hr
    rw [List.append_nil] at e
    subst e
    rw [hb]; exact hpre
  cases k
  case bool | i8 | u8 | i16 | u16 | f32 | i32 | u32 =>
    simp only [canonPayload] at hc
    exact leafCase _ rfl rfl (fun _ => rfl) (hc _ rfl)
  case u16t =>
    simp only [canonPayload] at hc
    simp only [Kind.parse] at h
    obtain ⟨⟨a, b, r⟩, h1, h2⟩ := map_ok h
    cases h2
    obtain ⟨pre, e, hb⟩ := int2Build_int2Parse h1
    have := int2Parse_size h1
    have hr : r = [] := List.eq_nil_of_length_eq_zero (by omega)
    subst hr
    rw [List.append_nil] at e
    subst e
    exact hb
  case color =>
    simp only [Kind.parse] at h
    split at h
    · cases h; simp [Kind.build, colEncode_colDecode]
    · cases h
  case ascii =>
    obtain ⟨t, rfl, ht⟩ := hc
    simp only [Kind.parse] at h
    obtain ⟨s, h1, h2⟩ := map_ok h
    cases h2
    obtain ⟨s', rfl, hl⟩ := asciiDecode_append_nul h1 ht
    simp only [Kind.build]
    rw [rstripNul_append_nul, rstripNul_eq_self hl]
    exact asciiEncode_asciiDecode h1
  case unicode =>
    obtain ⟨t, rfl, ht⟩ := hc
    simp only [Kind.parse] at h
    obtain ⟨s, h1, h2⟩ := map_ok h
    cases h2
    obtain ⟨s', rfl, hl⟩ := utf16Decode_append_nul h1 ht
    simp only [Kind.build]
    rw [rstripNul_append_nul, rstripNul_eq_self hl]
    exact utf16Encode_utf16Decode h1
  case unknown => cases h; rfl
  case struct s =>
    simp only [Kind.parse] at h
    obtain ⟨⟨rec, r⟩, h1, h2⟩ := map_ok h
    cases h2
    exact (struct_canon _ h1 hc).2
  case list l =>
    cases h
    obtain ⟨recs, h1, -, -, h4⟩ := greedy_parse ⟨bs.length⟩ (itemSize_list l bs.length) (l.size_pos _) bs
    simp only [Kind.build, h1]
    rw [h4]
    have : l.size bs.length * (bs.length / l.size bs.length) = bs.length :=
      Nat.mul_div_cancel' (Nat.dvd_of_mod_eq_zero hc)
    rw [this, List.take_length]
  case routing =>
    cases h
    simp only [Kind.build, List.map_map]
    congr 1
    conv => rhs; rw [← List.map_id bs]
    apply List.map_congr_left
    intro b hb
    rcases hc b hb with rfl | rfl <;> rfl
  case automation =>
    have k1 : itemSize ⟨0⟩ autoHead = some 17 := by
      simp [autoHead, itemSize, leafPlain, leafSize, PyFLP.i32]
    have k2 : itemSize ⟨0⟩ autoPoint = some 24 := by
      simp [autoPoint, itemSize, leafPlain, leafSize]
    simp only [Kind.parse, autoParse] at h
    split at h
    · cases h
    · next head r h1 =>
      split at h
      · cases h
      · next n r' h2 =>
        split at h
        · cases h
        · next pts tail h3 =>
          cases h
          have hb : 17 ≤ bs.length := by
            by_cases hb : 17 ≤ bs.length
            · exact hb
            · obtain ⟨e, he⟩ := item_short ⟨0⟩ k1 (bs := bs) (by omega)
              rw [he] at h1; cases h1
          obtain ⟨rec, q1, q2, q3⟩ := item_parse ⟨0⟩ k1 hb
          rw [h1] at q1
          cases q1
          obtain ⟨i1, i2, b2, i3, i4⟩ := times_canon ⟨0⟩ k2 h3
          obtain ⟨pre, e1, e2⟩ := intBuild_intParse h2
          have hn := intBuild_ok_iff.1 ⟨_, e2⟩
          simp only [intFits, Bool.false_eq_true, if_false, decide_eq_true_eq] at hn
          have hn' : intBuild 4 false (pts.length : Int) = .ok pre := by
            rw [i1, Int.toNat_of_nonneg hn.1]; exact e2
          have := seqBuild_ok (seqBuild_ok (seqBuild_ok q3 hn') i4) (rfl : (Except.ok tail : Py Bytes) = .ok tail)
          show autoBuild _ _ _ = _
          refine this.trans (congrArg Except.ok ?_)
          rw [List.append_assoc, ← i3, List.append_assoc, ← e1, List.take_append_drop]
  case notebook =>
    obtain ⟨hp, hr⟩ := hc
    simp only [Kind.parse, notebookParse] at h
    split at h
    · cases h
    · next h4 =>
      split at h
      · cases h
      · next page r h1 =>
        obtain ⟨pre, e1, e2⟩ := intBuild_intParse h1
        have hl := intBuild_length e2
        have hd : bs.drop 8 = r := by
          rw [show (8 : Nat) = 4 + 4 by rfl, ← List.drop_drop, e1]
          exact List.drop_left' hl
        rw [hd] at hp hr
        have hch := many_chunks pageParse r
        obtain ⟨b, c1, c2⟩ := chunks_canon (bld := pageBuild) hch (fun bs' a r' ⟨pre', hpre'⟩ hpp =>
          page_canon hpp (hp pre' bs' hpre'))
        cases hm : manyParse pageParse r with
        | mk pages rest =>
          rw [hm] at h c1 c2 hr
          simp only at h c1 c2 hr
          have fin : ∀ x : UInt8, (x = 0 ∨ x = 1) → rest = [x] → Kind.build .notebook bs.length v = .ok bs := by
            intro x hx hrest
            subst hrest
            cases h
            show notebookBuild _ _ _ _ = _
            unfold notebookBuild
            rw [if_neg (by simp; omega), e2]
            dsimp only
            rw [c2]
            dsimp only
            congr 1
            have hxx : (if decide (x ≠ 0) = true then (1 : UInt8) else 0) = x := by
              rcases hx with rfl | rfl <;> rfl
            rw [hxx, List.append_assoc, ← c1, List.append_assoc, ← e1, List.take_append_drop]
          rcases hr with hr | hr
          · exact fin 0 (.inl rfl) hr
          · exact fin 1 (.inr rfl) hr
  case vst =>
    obtain ⟨hp, hr⟩ := hc
    simp only [Kind.parse, vstParse] at h
    split at h
    · cases h
    · split at h
      · cases h
      · next t r h1 =>
        cases h
        obtain ⟨pre, e1, e2⟩ := intBuild_intParse h1
        have hl := intBuild_length e2
        have hd : bs.drop 4 = r := by rw [e1]; exact List.drop_left' hl
        rw [hd] at hp hr
        obtain ⟨b, c1, c2⟩ := chunks_canon (bld := vstItemBuild) (many_chunks vstItemParse r)
          (fun bs' a r' ⟨pre', hpre'⟩ hpp => vst_canon hpp (hp pre' bs' hpre'))
        rw [hr, List.append_nil] at c1
        show vstBuild _ _ = _
        unfold vstBuild
        rw [e2]; dsimp only; rw [c2]; dsimp only; rw [← c1, ← e1]

/-! ### Payloads that do not change any more -/

/-- The primitive behind a field. -/
def Fld.leaf : Fld → Leaf
  | .req l | .opt l | .ifLen _ l | .ifNew l => l

/-- Without lossy adapters, only a missing `c.Flag` makes re-saving add bytes. -/
theorem settled_nonlossy (cx : Ctx) {fs : Fields} {bs : Bytes} {rec : Rec} {r : Bytes}
    (h : structParse cx fs bs = .ok (rec, r)) (hl : ∀ nf ∈ fs, leafLossy nf.2.leaf = false)
    (hf : ∀ n, (n, Fld.opt .flag) ∈ fs → (n, none) ∉ rec) : settledFields cx fs bs := by
  induction fs generalizing bs rec with
  | nil => trivial
  | cons nf fs ih =>
    obtain ⟨n, f⟩ := nf
    obtain ⟨v, m, rec', h1, h2, rfl⟩ := structParse_cons h
    intro v' m' h1'
    rw [h1] at h1'
    cases h1'
    refine ⟨?_, ih h2 (fun x hx => hl x (List.mem_cons_of_mem _ hx))
      (fun n' hn' hm => hf n' (List.mem_cons_of_mem _ hn') (List.mem_cons_of_mem _ hm))⟩
    have hl0 : leafLossy f.leaf = false := hl (n, f) (by simp)
    cases f with
    | opt l =>
      cases v with
      | none =>
        refine ⟨?_, fun e => by simp only [Fld.leaf] at hl0; rw [hl0] at e; cases e⟩
        rintro rfl
        exact hf n (by simp) (by simp)
      | some x => intro e; simp only [Fld.leaf] at hl0; rw [hl0] at e; cases e
    | req l =>
      cases v with
      | none => trivial
      | some x => intro e; simp only [Fld.leaf] at hl0; rw [hl0] at e; cases e
    | ifLen k l =>
      cases v with
      | none => trivial
      | some x => intro e; simp only [Fld.leaf] at hl0; rw [hl0] at e; cases e
    | ifNew l =>
      cases v with
      | none => trivial
      | some x => intro e; simp only [Fld.leaf] at hl0; rw [hl0] at e; cases e

/-- Payloads whose value survives one more save unchanged.
* structs: the lossy adapters hold fixed points and no boolean is missing;
* playlists: what is kept is not a multiple of 15 items of the old 32-byte layout
  (the saved playlist would be read with the 60-byte layout);
* VST data: the flags sub-event has its last boolean;
* everything else: always. -/
def settledPayload : Kind → Bytes → Prop
  | .struct s, bs => settledFields ⟨bs.length⟩ s.fields bs
  | .list l, bs => listUnambiguous l bs.length (bs.length / l.size bs.length)
  | .vst, bs => ∀ x ∈ (manyParse vstItemParse (bs.drop 4)).1, ∀ r,
      x.2 = .fields r → x.1 = 2 → ("fast_idle", none) ∉ r
  | _, _ => True

theorem vstItem_stable {bs x r} (h : vstItemParse bs = .ok (x, r))
    (hf : ∀ rec, x.2 = .fields rec → x.1 = 2 → ("fast_idle", none) ∉ rec) :
    ∃ b, vstItemBuild x = .ok b ∧ b ≠ [] ∧ ∀ r, vstItemParse (b ++ r) = .ok (x, r) := by
  unfold vstItemParse at h
  split at h
  · cases h
  · next id m h1 =>
    split at h
    · cases h
    · next n m' h2 =>
      obtain ⟨pre, rfl, hb⟩ := intBuild_intParse h1
      obtain ⟨pre', rfl, hb'⟩ := intBuild_intParse h2
      have hn := intBuild_ok_iff.1 ⟨_, hb'⟩
      simp only [intFits, Bool.false_eq_true, if_false, decide_eq_true_eq] at hn
      split at h
      · cases h
      · next h3 =>
        split at h
        · cases h
        · next d h4 =>
          cases h
          have hlen : (m'.take n.toNat).length = n.toNat := by simp; omega
          have key : ∃ db, vstDataBuild id d = .ok db ∧ db.length ≤ n.toNat ∧ vstDataParse id db = .ok d := by
            unfold vstDataParse at h4
            split at h4
            · next e =>
              obtain ⟨⟨rec, r⟩, p1, p2⟩ := map_ok h4
              cases p2
              have hs := settled_nonlossy ⟨0⟩ p1 (by decide) (by
                intro n hn; simp [vstMidi, PyFLP.i32, PyFLP.u32] at hn)
              obtain ⟨b, q1, q2, q3⟩ := struct_stable ⟨0⟩ p1 hs
              exact ⟨b, by simp only [vstDataBuild, e, if_true]; exact q1, by omega,
                by simp [vstDataParse, e, q3, Except.map]⟩
            · next e1 =>
              split at h4
              · next e =>
                obtain ⟨⟨rec, r⟩, p1, p2⟩ := map_ok h4
                cases p2
                have hs := settled_nonlossy ⟨0⟩ p1 (by decide) (by
                  intro n hn
                  simp [vstFlags, PyFLP.u32] at hn
                  subst hn
                  exact hf rec rfl e)
                obtain ⟨b, q1, q2, q3⟩ := struct_stable ⟨0⟩ p1 hs
                exact ⟨b, by simp only [vstDataBuild, e]; exact q1, by omega,
                  by simp [vstDataParse, e, q3, Except.map]⟩
              · next e2 =>
                split at h4
                · next e3 =>
                  obtain ⟨s, p1, p2⟩ := map_ok h4
                  cases p2
                  refine ⟨m'.take n.toNat, ?_, by omega, ?_⟩
                  · simp only [vstDataBuild, if_neg e1, if_neg e2, e3, if_true]
                    exact utf8Encode_utf8Decode p1
                  · simp only [vstDataParse, if_neg e1, if_neg e2, e3, if_true, p1]; rfl
                · next e3 =>
                  cases h4
                  refine ⟨m'.take n.toNat, ?_, by omega, ?_⟩
                  · simp only [vstDataBuild, if_neg e1, if_neg e2, e3]; rfl
                  · simp only [vstDataParse, if_neg e1, if_neg e2, e3]; rfl
          obtain ⟨db, k1, k2, k3⟩ := key
          have hl := intBuild_nat (w := 8) (n := db.length) (by omega)
          have hal := intBuild_length hb
          refine ⟨pre ++ leBytes 8 db.length ++ db, vstItemBuild_eq hb k1 hl, ?_, fun r => ?_⟩
          · intro e
            have := congrArg List.length e
            simp only [List.length_append, List.length_nil] at this; omega
          · unfold vstItemParse
            simp only [List.append_assoc]
            rw [intParse_intBuild hb]
            simp only
            rw [intParse_intBuild hl]
            simp only [Int.toNat_natCast]
            rw [if_neg (by simp), List.take_left' rfl, List.drop_left' rfl, k3]

omit [FloatEnv] in
theorem chunks_forall_mem {α : Type} {p : Bytes → Py (α × Bytes)} {bs as r} (h : Chunks p bs as r) :
    ∀ a ∈ as, ∃ bs' r', p bs' = .ok (a, r') := by
  induction h with
  | stop h => simp
  | step h hl t ih =>
    intro a ha
    rcases List.mem_cons.1 ha with rfl | ha
    · exact ⟨_, _, h⟩
    · exact ih a ha

/-- Whatever an event holds after being created from `bs` can be written and
read back, provided `bs` is settled. -/
theorem kind_stable {k : Kind} {bs : Bytes} {v : Value} (h : k.parse bs = .ok v)
    (hs : settledPayload k bs) : ∃ b, StoredAs k bs.length v b := by
  have viaValid : validValue k bs.length v → ∃ b, StoredAs k bs.length v b := kind_roundtrip
  have leafCase : ∀ l, k.parse bs = (leafParse l bs).map (fun x => .lv x.1) → leafLossy l = false →
      (∀ n, l ≠ .rawC n) →
      (∀ x, leafValid l x → validValue k bs.length (.lv x)) → ∃ b, StoredAs k bs.length v b := by
    intro l hp h1 h2 hv
    rw [hp] at h
    obtain ⟨⟨x, r⟩, p1, p2⟩ := map_ok h
    cases p2
    exact viaValid (hv x (leafCanon_or p1 h1 h2))
  cases k
  case bool | i8 | u8 | i16 | u16 | f32 | i32 | u32 =>
    exact leafCase _ rfl rfl (by intro n; simp) (fun x hx => ⟨_, rfl, hx⟩)
  case u16t =>
    simp only [Kind.parse] at h
    obtain ⟨⟨a, b, r⟩, h1, h2⟩ := map_ok h
    cases h2
    obtain ⟨m, p1, p2⟩ := int2Parse_ok h1
    obtain ⟨_, -, b1⟩ := intBuild_intParse p1
    obtain ⟨_, -, b2⟩ := intBuild_intParse p2
    have f1 := intBuild_ok_iff.1 ⟨_, b1⟩
    have f2 := intBuild_ok_iff.1 ⟨_, b2⟩
    simp only [intFits, Bool.false_eq_true, if_false, decide_eq_true_eq] at f1 f2
    exact viaValid (by simp only [validValue]; omega)
  case color =>
    simp only [Kind.parse] at h
    split at h
    · cases h; exact viaValid ⟨⟨_, rfl⟩, ⟨_, rfl⟩, ⟨_, rfl⟩, ⟨_, rfl⟩⟩
    · cases h
  case ascii =>
    simp only [Kind.parse] at h
    obtain ⟨s, h1, h2⟩ := map_ok h
    cases h2
    have hd := asciiEncode_ok_iff.1 ⟨_, asciiEncode_asciiDecode h1⟩
    obtain ⟨k, hk⟩ := rstripNul_append s
    exact viaValid ⟨fun c hc => hd c (by rw [hk]; simp [hc]), rstripNul_last s⟩
  case unicode =>
    simp only [Kind.parse] at h
    obtain ⟨s, h1, h2⟩ := map_ok h
    cases h2
    have hd := utf16Encode_ok_iff.1 ⟨_, utf16Encode_utf16Decode h1⟩
    obtain ⟨k, hk⟩ := rstripNul_append s
    exact viaValid ⟨fun c hc => hd c (by rw [hk]; simp [hc]), rstripNul_last s⟩
  case unknown => cases h; exact viaValid trivial
  case struct s =>
    simp only [Kind.parse] at h
    obtain ⟨⟨rec, r⟩, h1, h2⟩ := map_ok h
    cases h2
    obtain ⟨b, q1, -, q3⟩ := struct_stable _ h1 hs
    have hc := struct_ctxAgree_stable s h1 hs q1
    refine ⟨b, q1, ?_, hc⟩
    simp only [Kind.parse, ← structParse_ctx hc, q3, Except.map]
  case list l =>
    cases h
    obtain ⟨recs, h1, h2, h3, -⟩ := greedy_parse ⟨bs.length⟩ (itemSize_list l bs.length) (l.size_pos _) bs
    refine viaValid ?_
    rw [h1]
    refine ⟨h3, ?_⟩
    simp only [settledPayload] at hs
    simp only [h2]
    exact hs
  case routing => cases h; exact viaValid trivial
  case automation =>
    refine viaValid ?_
    have k1 : itemSize ⟨0⟩ autoHead = some 17 := by
      simp [autoHead, itemSize, leafPlain, leafSize, PyFLP.i32]
    have k2 : itemSize ⟨0⟩ autoPoint = some 24 := by
      simp [autoPoint, itemSize, leafPlain, leafSize]
    simp only [Kind.parse, autoParse] at h
    split at h
    · cases h
    · next head r h1 =>
      split at h
      · cases h
      · next n r' h2 =>
        split at h
        · cases h
        · next pts tail h3 =>
          cases h
          have hb : 17 ≤ bs.length := by
            by_cases hb : 17 ≤ bs.length
            · exact hb
            · obtain ⟨e, he⟩ := item_short ⟨0⟩ k1 (bs := bs) (by omega)
              rw [he] at h1; cases h1
          obtain ⟨rec, q1, q2, q3⟩ := item_parse ⟨0⟩ k1 hb
          rw [h1] at q1
          cases q1
          obtain ⟨i1, i2, -⟩ := times_canon ⟨0⟩ k2 h3
          obtain ⟨pre, e1, e2⟩ := intBuild_intParse h2
          have hn := intBuild_ok_iff.1 ⟨_, e2⟩
          simp only [intFits, Bool.false_eq_true, if_false, decide_eq_true_eq] at hn
          exact ⟨q2, i2, by rw [i1]; omega⟩
  case notebook =>
    refine viaValid ?_
    simp only [Kind.parse, notebookParse] at h
    split at h
    · cases h
    · next h4 =>
      split at h
      · cases h
      · next page r h1 =>
        obtain ⟨pre, e1, e2⟩ := intBuild_intParse h1
        have hn := intBuild_ok_iff.1 ⟨_, e2⟩
        simp only [intFits, Bool.false_eq_true, if_false, decide_eq_true_eq] at hn
        have hch := many_chunks pageParse r
        cases hm : manyParse pageParse r with
        | mk pages rest =>
          rw [hm] at h hch
          simp only at h hch
          split at h
          · cases h
          · cases h
            refine ⟨by simp; omega, by omega, fun pg hpg => ?_⟩
            obtain ⟨bs', r', hp⟩ := chunks_forall_mem hch pg hpg
            exact pageParse_valid hp
  case vst =>
    simp only [Kind.parse, vstParse] at h
    split at h
    · cases h
    · split at h
      · cases h
      · next t r h1 =>
        cases h
        obtain ⟨pre, e1, e2⟩ := intBuild_intParse h1
        have hl := intBuild_length e2
        have hd : bs.drop 4 = r := by rw [e1]; exact List.drop_left' hl
        simp only [settledPayload, hd] at hs
        have hstop : ∃ x, vstItemParse [] = .error x := ⟨.streamError, rfl⟩
        obtain ⟨b, b1, b2⟩ := many_roundtrip (bld := vstItemBuild) hstop (fun x hx => by
          obtain ⟨bs', r', hp⟩ := chunks_forall_mem (many_chunks vstItemParse r) x hx
          exact vstItem_stable hp (hs x hx))
        rw [List.append_nil] at b2
        refine ⟨pre ++ b, ?_, ?_, ctxAgree_nil _ _⟩
        · show vstBuild _ _ = _
          unfold vstBuild; rw [e2]; dsimp only; rw [b1]
        · show vstParse _ = _
          unfold vstParse
          have hne : pre ++ b ≠ [] := by
            intro e
            have e := congrArg List.length e
            simp only [List.length_append, List.length_nil] at e; omega
          split
          · next e => exact absurd e hne
          · rw [intParse_intBuild e2]; dsimp only; rw [b2]

/-- Two lengths that select the same fields serialise alike. -/
theorem kind_build_ctx {k : Kind} {a b : Nat} (h : ctxAgree k.ctxFields a b) (v : Value) :
    k.build a v = k.build b v := by
  cases k
  case struct s =>
    cases v <;> try rfl
    exact structBuild_ctx h _
  case list l =>
    cases v <;> try rfl
    exact greedyBuild_ctx h _
  case u16t =>
    cases v <;> try rfl
    next x => cases x <;> rfl
  all_goals cases v <;> rfl

end PyFLP
