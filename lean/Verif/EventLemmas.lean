import Verif.NestedLemmas
/-!
# Event payload round trips

For every event class: values that can be stored (`validValue`), payloads that
are reproduced byte for byte (`canonPayload`) and payloads whose value does not
change when saved and re-read (`settledPayload`).
-/

namespace PyFLP

variable [FloatEnv]

/-! ### Dependence on the data length (`_kwds`) -/

/-- Two data lengths select the same conditional fields. -/
def ctxAgree (fs : Fields) (a b : Nat) : Prop :=
  ∀ nf ∈ fs, match nf.2 with
    | .ifLen n _ => (a = n ↔ b = n)
    | .ifNew _ => (a % 60 = 0 ↔ b % 60 = 0)
    | _ => True

omit [FloatEnv] in
theorem ctxAgree_symm {fs : Fields} {a b : Nat} (h : ctxAgree fs a b) : ctxAgree fs b a := by
  intro nf hnf
  have := h nf hnf
  split <;> simp_all

theorem structParse_ctx {fs : Fields} {a b : Nat} (h : ctxAgree fs a b) (bs : Bytes) :
    structParse ⟨a⟩ fs bs = structParse ⟨b⟩ fs bs := by
  induction fs generalizing bs with
  | nil => rfl
  | cons nf fs ih =>
    obtain ⟨n, f⟩ := nf
    have hf : fldParse ⟨a⟩ f bs = fldParse ⟨b⟩ f bs := by
      have := h (n, f) (by simp)
      cases f with
      | ifLen k l => simp only at this; simp only [fldParse, this]
      | ifNew l => simp only at this; simp only [fldParse, this]
      | _ => rfl
    have ih' := ih (fun x hx => h x (by simp [hx]))
    simp only [structParse, hf]
    split
    · rfl
    · rw [ih']

theorem structBuild_ctx {fs : Fields} {a b : Nat} (h : ctxAgree fs a b) (r : Rec) :
    structBuild ⟨a⟩ fs r = structBuild ⟨b⟩ fs r := by
  induction fs generalizing r with
  | nil => cases r <;> rfl
  | cons nf fs ih =>
    obtain ⟨n, f⟩ := nf
    cases r with
    | nil => rfl
    | cons x xs =>
      have hf : fldBuild ⟨a⟩ f x.2 = fldBuild ⟨b⟩ f x.2 := by
        have := h (n, f) (by simp)
        cases f with
        | ifLen k l => simp only at this; simp only [fldBuild, this]
        | ifNew l => simp only at this; simp only [fldBuild, this]
        | _ => rfl
      have ih' := ih (fun x hx => h x (by simp [hx])) xs
      obtain ⟨n', v⟩ := x
      simp only [structBuild]
      rw [ih', hf]

theorem greedyParse_ctx {fs : Fields} {a b : Nat} (h : ctxAgree fs a b) (bs : Bytes) :
    greedyParse ⟨a⟩ fs bs = greedyParse ⟨b⟩ fs bs := by
  induction hn : bs.length using Nat.strongRecOn generalizing bs with
  | ind n ih =>
    subst hn
    rw [greedyParse, greedyParse, structParse_ctx h]
    split
    · rfl
    · split
      · next hl => rw [ih _ hl _ rfl]
      · rfl

theorem greedyBuild_ctx {fs : Fields} {a b : Nat} (h : ctxAgree fs a b) (rs : List Rec) :
    greedyBuild ⟨a⟩ fs rs = greedyBuild ⟨b⟩ fs rs := by
  induction rs with
  | nil => rfl
  | cons r rs ih => simp only [greedyBuild, structBuild_ctx h, ih]

/-! ### Sizes of structs without optional fields -/

/-- Bytes a primitive takes when they are there. -/
def leafMax : Leaf → Nat
  | .rawC n => n
  | l => (leafSize l).getD 0

/-- Total size of a struct without optional fields and trailing bytes. -/
def maxSize (cx : Ctx) : Fields → Nat
  | [] => 0
  | (_, .req l) :: fs => leafMax l + maxSize cx fs
  | (_, .opt l) :: fs => leafMax l + maxSize cx fs
  | (_, .ifLen n l) :: fs => (if cx.len = n then leafMax l else 0) + maxSize cx fs
  | (_, .ifNew l) :: fs => (if cx.len % 60 = 0 then leafMax l else 0) + maxSize cx fs

/-- No optional field and no `GreedyBytes`. -/
def fixedFields : Fields → Bool
  | [] => true
  | (_, .opt _) :: _ => false
  | (_, .req l) :: fs | (_, .ifLen _ l) :: fs | (_, .ifNew l) :: fs => l != .greedy && fixedFields fs

theorem leafParse_drop {l bs v r} (hg : l ≠ .greedy) (h : leafParse l bs = .ok (v, r)) :
    r.length = bs.length - leafMax l := by
  cases hs : leafSize l with
  | some k =>
    have := leafParse_size h hs
    have e : leafMax l = k := by cases l <;> simp_all [leafMax, leafSize]
    omega
  | none =>
    cases l <;> simp only [leafSize, reduceCtorEq] at hs
    · simp only [leafParse] at h; cases h; simp [leafMax]
    · exact absurd rfl hg

theorem structParse_drop (cx : Ctx) {fs : Fields} (hf : fixedFields fs = true) {bs rec r}
    (h : structParse cx fs bs = .ok (rec, r)) : r.length = bs.length - maxSize cx fs := by
  induction fs generalizing bs rec with
  | nil => cases h; simp [maxSize]
  | cons nf fs ih =>
    obtain ⟨n, f⟩ := nf
    obtain ⟨v, m, rec', h1, h2, -⟩ := structParse_cons h
    cases f with
    | opt l => cases hf
    | req l =>
      simp only [fixedFields, Bool.and_eq_true, bne_iff_ne] at hf
      simp only [fldParse] at h1
      obtain ⟨⟨x, m'⟩, p1, p2⟩ := map_ok h1
      cases p2
      have := leafParse_drop hf.1 p1
      have := ih hf.2 h2
      simp only [maxSize]; dsimp only at *; omega
    | ifLen k l =>
      simp only [fixedFields, Bool.and_eq_true, bne_iff_ne] at hf
      simp only [fldParse] at h1
      have := ih hf.2 h2
      split at h1
      · next hk =>
        obtain ⟨⟨x, m'⟩, p1, p2⟩ := map_ok h1
        cases p2
        have := leafParse_drop hf.1 p1
        simp only [maxSize, if_pos hk]; dsimp only at *; omega
      · next hk => cases h1; simp only [maxSize, if_neg hk]; omega
    | ifNew l =>
      simp only [fixedFields, Bool.and_eq_true, bne_iff_ne] at hf
      simp only [fldParse] at h1
      have := ih hf.2 h2
      split at h1
      · next hk =>
        obtain ⟨⟨x, m'⟩, p1, p2⟩ := map_ok h1
        cases p2
        have := leafParse_drop hf.1 p1
        simp only [maxSize, if_pos hk]; dsimp only at *; omega
      · next hk => cases h1; simp only [maxSize, if_neg hk]; omega

theorem leafBuild_valid_size {l v bs} (hg : l ≠ .greedy) (hv : leafValid l v)
    (h : leafBuild l (some v) = .ok bs) : bs.length = leafMax l := by
  cases hs : leafSize l with
  | some k =>
    have := leafBuild_size h hs
    have e : leafMax l = k := by cases l <;> simp_all [leafMax, leafSize]
    omega
  | none =>
    cases l <;> simp only [leafSize, reduceCtorEq] at hs
    · cases v <;> simp only [leafValid] at hv
      simp only [leafBuild] at h; cases h; simp [leafMax, hv]
    · exact absurd rfl hg

theorem structBuild_valid_size (cx : Ctx) {fs : Fields} (hf : fixedFields fs = true) {rec bs}
    (hv : validFields cx fs rec) (h : structBuild cx fs rec = .ok bs) :
    bs.length = maxSize cx fs := by
  induction fs generalizing rec bs with
  | nil =>
    cases rec with
    | nil => cases h; rfl
    | cons x xs => exact hv.elim
  | cons nf fs ih =>
    obtain ⟨n, f⟩ := nf
    cases rec with
    | nil => exact hv.elim
    | cons x xs =>
      obtain ⟨n', v⟩ := x
      obtain ⟨rfl, hv⟩ := hv
      simp only [structBuild, if_true] at h
      split at h
      · cases h
      · next b hb =>
        split at h
        · cases h
        · next bs' hbs' =>
          cases h
          cases f with
          | opt l => cases hf
          | req l =>
            simp only [fixedFields, Bool.and_eq_true, bne_iff_ne] at hf
            cases v with
            | none => exact hv.elim
            | some x =>
              obtain ⟨h1, -, h2⟩ := hv
              have := leafBuild_valid_size hf.1 h1 hb
              have := ih hf.2 h2 hbs'
              simp only [maxSize, List.length_append]; omega
          | ifLen k l =>
            simp only [fixedFields, Bool.and_eq_true, bne_iff_ne] at hf
            cases v with
            | none =>
              obtain ⟨h1, h2⟩ := hv
              simp only [fldBuild, if_neg h1] at hb
              cases hb
              have := ih hf.2 h2 hbs'
              simp only [maxSize, if_neg h1, List.nil_append]; omega
            | some x =>
              obtain ⟨h0, h1, -, h2⟩ := hv
              simp only [fldBuild, if_pos h0] at hb
              have := leafBuild_valid_size hf.1 h1 hb
              have := ih hf.2 h2 hbs'
              simp only [maxSize, if_pos h0, List.length_append]; omega
          | ifNew l =>
            simp only [fixedFields, Bool.and_eq_true, bne_iff_ne] at hf
            cases v with
            | none =>
              obtain ⟨h1, h2⟩ := hv
              simp only [fldBuild, if_neg h1] at hb
              cases hb
              have := ih hf.2 h2 hbs'
              simp only [maxSize, if_neg h1, List.nil_append]; omega
            | some x =>
              obtain ⟨h0, h1, -, h2⟩ := hv
              simp only [fldBuild, if_pos h0] at hb
              have := leafBuild_valid_size hf.1 h1 hb
              have := ih hf.2 h2 hbs'
              simp only [maxSize, if_pos h0, List.length_append]; omega

/-- Without optional fields, writing what was read gives as many bytes as were read. -/
theorem struct_stable_size (cx : Ctx) {fs : Fields} (hf : fixedFields fs = true) {bs rec r b}
    (h : structParse cx fs bs = .ok (rec, r)) (hs : settledFields cx fs bs)
    (hb : structBuild cx fs rec = .ok b) : b.length + r.length = bs.length := by
  induction fs generalizing bs rec b with
  | nil => cases h; cases hb; simp
  | cons nf fs ih =>
    obtain ⟨n, f⟩ := nf
    obtain ⟨v, m, rec', h1, h2, rfl⟩ := structParse_cons h
    obtain ⟨hset, hm⟩ := hs v m h1
    simp only [structBuild, if_true] at hb
    split at hb
    · cases hb
    · next b1 hb1 =>
      split at hb
      · cases hb
      · next b2 hb2 =>
        cases hb
        have key : ∀ l x, leafParse l bs = .ok (x, m) → (leafLossy l = true → leafValid l x) →
            leafBuild l (some x) = .ok b1 → b1.length + m.length = bs.length := by
          intro l x p q s
          obtain ⟨b', e1, e2, -⟩ := leaf_stable p q
          rw [s] at e1; cases e1; exact e2
        cases f with
        | opt l => cases hf
        | req l =>
          simp only [fixedFields, Bool.and_eq_true] at hf
          simp only [fldParse] at h1
          obtain ⟨⟨x, m'⟩, p1, p2⟩ := map_ok h1
          cases p2
          have := key l x p1 hset hb1
          have := ih hf.2 h2 hm hb2
          simp only [List.length_append]; omega
        | ifLen k l =>
          simp only [fixedFields, Bool.and_eq_true] at hf
          simp only [fldParse] at h1
          split at h1
          · next hk =>
            obtain ⟨⟨x, m'⟩, p1, p2⟩ := map_ok h1
            cases p2
            simp only [fldBuild, if_pos hk] at hb1
            have := key l x p1 hset hb1
            have := ih hf.2 h2 hm hb2
            simp only [List.length_append]; omega
          · next hk =>
            cases h1
            simp only [fldBuild, if_neg hk] at hb1
            cases hb1
            have := ih hf.2 h2 hm hb2
            simpa using this
        | ifNew l =>
          simp only [fixedFields, Bool.and_eq_true] at hf
          simp only [fldParse] at h1
          split at h1
          · next hk =>
            obtain ⟨⟨x, m'⟩, p1, p2⟩ := map_ok h1
            cases p2
            simp only [fldBuild, if_pos hk] at hb1
            have := key l x p1 hset hb1
            have := ih hf.2 h2 hm hb2
            simp only [List.length_append]; omega
          · next hk =>
            cases h1
            simp only [fldBuild, if_neg hk] at hb1
            cases hb1
            have := ih hf.2 h2 hm hb2
            simpa using this

omit [FloatEnv] in
/-- In the four structs with a conditional field, the full size is the length
that selects it, and without it the struct is smaller. -/
theorem ifLen_sizes (s : SName) {n : Nat} {nm : String} {l : Leaf} (h : (nm, Fld.ifLen n l) ∈ s.fields) :
    fixedFields s.fields = true ∧ ∀ len, (len = n → maxSize ⟨len⟩ s.fields = n) ∧
      (len ≠ n → maxSize ⟨len⟩ s.fields < n) := by
  cases s <;> simp [SName.fields] at h
  all_goals
    obtain ⟨-, rfl, -⟩ := h
    refine ⟨by decide, fun len => ⟨?_, ?_⟩⟩
    · rintro rfl; decide
    · intro hne
      simp [SName.fields, maxSize, hne, leafMax, leafSize, u32]

omit [FloatEnv] in
theorem struct_no_ifNew (s : SName) {nm : String} {l : Leaf} : (nm, Fld.ifNew l) ∉ s.fields := by
  cases s <;> simp [SName.fields]

theorem struct_ctxAgree_valid (s : SName) {len : Nat} {rec : Rec} {b : Bytes}
    (hv : validFields ⟨len⟩ s.fields rec) (hb : structBuild ⟨len⟩ s.fields rec = .ok b) :
    ctxAgree s.fields len b.length := by
  intro nf hnf
  obtain ⟨nm, f⟩ := nf
  cases f with
  | ifLen n l =>
    obtain ⟨hf, hs⟩ := ifLen_sizes s hnf
    have e := structBuild_valid_size ⟨len⟩ hf hv hb
    obtain ⟨h1, h2⟩ := hs len
    constructor
    · intro h; rw [e, h1 h]
    · intro h
      apply Decidable.byContradiction
      intro hne
      have := h2 hne
      omega
  | ifNew l => exact absurd hnf (struct_no_ifNew s)
  | _ => trivial

theorem struct_ctxAgree_stable (s : SName) {bs : Bytes} {rec : Rec} {r b : Bytes}
    (h : structParse ⟨bs.length⟩ s.fields bs = .ok (rec, r))
    (hs : settledFields ⟨bs.length⟩ s.fields bs)
    (hb : structBuild ⟨bs.length⟩ s.fields rec = .ok b) :
    ctxAgree s.fields bs.length b.length := by
  intro nf hnf
  obtain ⟨nm, f⟩ := nf
  cases f with
  | ifLen n l =>
    obtain ⟨hf, hsz⟩ := ifLen_sizes s hnf
    have e1 := struct_stable_size ⟨bs.length⟩ hf h hs hb
    have e2 := structParse_drop ⟨bs.length⟩ hf h
    obtain ⟨h1, h2⟩ := hsz bs.length
    constructor
    · intro h; have := h1 h; omega
    · intro h
      apply Decidable.byContradiction
      intro hne
      have := h2 hne
      omega
  | ifNew l => exact absurd hnf (struct_no_ifNew s)
  | _ => trivial

/-! ### List events -/

/-- Item size of a list event. -/
def LName.size (l : LName) (len : Nat) : Nat :=
  match l with
  | .controller => 12
  | .notes => 24
  | .mixerParams => 12
  | .playlist => if len % 60 = 0 then 60 else 32

omit [FloatEnv] in
theorem itemSize_list (l : LName) (len : Nat) : itemSize ⟨len⟩ l.fields = some (l.size len) := by
  cases l <;> simp [LName.fields, itemSize, leafPlain, leafSize, u32, u16, u8, i32, LName.size]
  split <;> simp

omit [FloatEnv] in
theorem LName.size_pos (l : LName) (len : Nat) : 0 < l.size len := by
  cases l <;> simp only [LName.size] <;> first | omega | (split <;> omega)

/-- A list of `n` items serialised for a given length is read back with the
same item layout: only 32-byte playlist items are ambiguous, when 15 of them
make a multiple of 60 bytes. -/
def listUnambiguous (l : LName) (len n : Nat) : Prop :=
  l = .playlist → len % 60 ≠ 0 → n % 15 ≠ 0

omit [FloatEnv] in
theorem list_ctxAgree {l : LName} {len n m : Nat} (h : listUnambiguous l len n)
    (hm : m = l.size len * n) : ctxAgree l.fields len m := by
  intro nf hnf
  obtain ⟨nm, f⟩ := nf
  cases f with
  | ifNew lf =>
    have hl : l = .playlist := by cases l <;> simp [LName.fields] at hnf ⊢
    subst hl
    simp only [LName.size] at hm
    by_cases h60 : len % 60 = 0
    · rw [if_pos h60] at hm
      constructor
      · intro _; omega
      · intro _; exact h60
    · rw [if_neg h60] at hm
      have := h rfl h60
      constructor
      · intro hh; exact absurd hh h60
      · intro hh; omega
  | ifLen k lf => cases l <;> simp [LName.fields] at hnf
  | _ => trivial

/-! ### Colours -/

omit [FloatEnv] in
theorem col_exact : ∀ k : Fin 256,
    roundHE (fl (fl (((k.val : Nat) : Rat) / 255) * 255)) = (k.val : Int) := by
  decide +kernel

omit [FloatEnv] in
theorem colEncode_colDecode (b : UInt8) : colEncode (colDecode b) = .ok [b] := by
  have h := col_exact ⟨b.toNat, u8_toNat_lt b⟩
  simp only at h
  unfold colEncode colDecode
  simp only [h]
  have := u8_toNat_lt b
  rw [if_pos (by omega)]
  simp

end PyFLP
