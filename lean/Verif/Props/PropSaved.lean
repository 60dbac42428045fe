import Verif.Props.PropTable
import Verif.Props.Files
/-!
# Assigned values are saved (C77)
-/

namespace PyFLP

open Spec Heap

namespace Spec

/-- Number of bits of a flag word. -/
def wordBits : Leaf → Nat
  | .int w false => 8 * w
  | .flagsS _ => 31
  | _ => 0

variable [FloatEnv]

/-- The value can be represented: by the event, by the field, or the bit lies inside the flag word. -/
def Fits : (a : Access) → Event → a.type → Prop
  | .event, e, v => validValue e.kind e.len v
  | .field key, e, v => ∀ f, (key, f) ∈ fieldsOf e.kind → leafValid f.leaf v ∧ f.leaf ≠ .greedy
  | .flag _ bits key _, e, _ =>
    (∀ f, (key, f) ∈ fieldsOf e.kind → bits < 2 ^ wordBits f.leaf) ∧ ∀ l, e.kind.leaf = some l → bits < 2 ^ wordBits l

end Spec

section
variable [FloatEnv]

/-- Storable values have the type of their class. -/
theorem valid_typed {k : Kind} {len : Nat} {v : Value} (h : validValue k len v) : ValueTyped k v := by
  obtain ⟨b, -, h2, -⟩ := kind_roundtrip h
  exact kindParse_typed h2

theorem wellTyped_typed {evs : List Event} (h : WellTyped evs) (hv : ∀ e ∈ evs, validValue e.kind e.len e.value) :
    Typed evs := by
  intro e he
  obtain ⟨pre, post, hs⟩ := List.append_of_mem he
  refine ⟨fun k hk => ?_, valid_typed (hv e he)⟩
  have := (h pre e post hs).2.1
  unfold kindOf at this
  rw [hk] at this
  exact (Option.some.inj this).symm

omit [FloatEnv] in
theorem absent_lookup {fs : Fields} {r : Rec} (h : absentFields fs r) {key : String} {y : LV}
    (hl : Rec.lookup r key = some (some y)) : ∃ f, (key, f) ∈ fs ∧ f.leaf = .greedy ∧ ∃ bs, y = .bytes bs := by
  induction fs generalizing r with
  | nil => cases r with
    | nil => cases hl
    | cons _ _ => simp [absentFields] at h
  | cons nf fs ih =>
    obtain ⟨n, f⟩ := nf
    cases r with
    | nil => cases hl
    | cons nv rec =>
      obtain ⟨n', v⟩ := nv
      unfold Rec.lookup at hl
      unfold absentFields at h
      split at h
      · next heq => cases heq
      · next heq1 heq2 =>
        cases heq1; cases heq2
        split at hl
        · cases hl
        · obtain ⟨f, f1, f2⟩ := ih h.2.2 hl
          exact ⟨f, List.mem_cons_of_mem _ f1, f2⟩
      · next heq1 heq2 =>
        cases heq1; cases heq2; subst h
        split at hl
        · next hn => cases hl; exact ⟨_, by rw [← hn]; exact List.mem_cons_self .., rfl, _, rfl⟩
        · cases hl
      · next heq1 heq2 =>
        cases heq1; cases heq2; subst h
        split at hl
        · next hn => cases hl; exact ⟨_, by rw [← hn]; exact List.mem_cons_self .., rfl, _, rfl⟩
        · cases hl
      · exact h.elim

theorem validFields_update {cx : Ctx} {fs : Fields} {r : Rec} (h : validFields cx fs r) {key : String} {old x : LV}
    (hl : Rec.lookup r key = some (some old))
    (hx : ∀ f, (key, f) ∈ fs → leafValid f.leaf x ∧ f.leaf ≠ .greedy) :
    validFields cx fs (Rec.update r key (some x)) := by
  induction fs generalizing r with
  | nil => cases r with
    | nil => cases hl
    | cons _ _ => simp [validFields] at h
  | cons nf fs ih =>
    obtain ⟨n, f⟩ := nf
    cases r with
    | nil => cases hl
    | cons nv rec =>
      obtain ⟨n', v⟩ := nv
      simp only [validFields] at h
      obtain ⟨rfl, h⟩ := h
      unfold Rec.lookup at hl
      unfold Rec.update
      by_cases hn : n = key
      · rw [if_pos hn] at hl ⊢
        cases hl
        obtain ⟨x1, x2⟩ := hx f (by rw [hn]; simp)
        cases f with
        | req l => exact ⟨rfl, x1, fun hc => absurd hc x2, h.2.2⟩
        | opt l => exact ⟨rfl, x1, fun hc => absurd hc x2, h.2.2⟩
        | ifLen k l => exact ⟨rfl, h.1, x1, x2, h.2.2.2⟩
        | ifNew l => exact ⟨rfl, h.1, x1, x2, h.2.2.2⟩
      · rw [if_neg hn] at hl ⊢
        have ih' := fun (h : validFields cx fs rec) => ih h hl (fun f hf => hx f (List.mem_cons_of_mem _ hf))
        cases f with
        | req l =>
          cases v with
          | none => exact h.elim
          | some y => exact ⟨rfl, h.1, fun hc => absurd (h.2.1 hc) (by
              rintro rfl
              cases rec with
              | nil => cases hl
              | cons => exact h.2.2.elim), ih' h.2.2⟩
        | opt l =>
          cases v with
          | none =>
            obtain ⟨f, f1, f2, -⟩ := absent_lookup h.2 hl
            exact absurd f2 (hx f (List.mem_cons_of_mem _ f1)).2
          | some y => exact ⟨rfl, h.1, fun hc => absurd (h.2.1 hc) (by
              rintro rfl
              cases rec with
              | nil => cases hl
              | cons => exact h.2.2.elim), ih' h.2.2⟩
        | ifLen k l =>
          cases v with
          | none => exact ⟨rfl, h.1, ih' h.2⟩
          | some y => exact ⟨rfl, h.1, h.2.1, h.2.2.1, ih' h.2.2.2⟩
        | ifNew l =>
          cases v with
          | none => exact ⟨rfl, h.1, ih' h.2⟩
          | some y => exact ⟨rfl, h.1, h.2.1, h.2.2.1, ih' h.2.2.2⟩

theorem validFields_lookup {cx : Ctx} {fs : Fields} (hn : (fs.map Prod.fst).Nodup) {r : Rec} (h : validFields cx fs r)
    {key : String} {x : LV} (hl : Rec.lookup r key = some (some x)) {f : Fld} (hf : (key, f) ∈ fs) :
    leafValid f.leaf x := by
  induction fs generalizing r with
  | nil => cases hf
  | cons nf fs ih =>
    obtain ⟨n, g⟩ := nf
    cases r with
    | nil => cases hl
    | cons nv rec =>
      obtain ⟨n', v⟩ := nv
      simp only [validFields] at h
      obtain ⟨rfl, h⟩ := h
      unfold Rec.lookup at hl
      have hnd := hn
      rw [List.map_cons, List.nodup_cons] at hn
      by_cases hk : n = key
      · subst hk
        rw [if_pos rfl] at hl
        cases hl
        cases field_unique hnd hf (List.mem_cons_self ..)
        cases f with
        | req l => exact h.1
        | opt l => exact h.1
        | ifLen k l => exact h.2.1
        | ifNew l => exact h.2.1
      · rw [if_neg hk] at hl
        have hf' : (key, f) ∈ fs := by
          rcases List.mem_cons.1 hf with hc | hc
          · cases hc; exact absurd rfl hk
          · exact hc
        cases g with
        | req l =>
          cases v with
          | none => exact h.elim
          | some y => exact ih hn.2 h.2.2 hl hf'
        | opt l =>
          cases v with
          | none =>
            obtain ⟨f2, f3, f4, bs, rfl⟩ := absent_lookup h.2 hl
            cases field_unique hn.2 hf' f3
            rw [f4]
            trivial
          | some y => exact ih hn.2 h.2.2 hl hf'
        | ifLen k l =>
          cases v with
          | none => exact ih hn.2 h.2 hl hf'
          | some y => exact ih hn.2 h.2.2.2 hl hf'
        | ifNew l =>
          cases v with
          | none => exact ih hn.2 h.2 hl hf'
          | some y => exact ih hn.2 h.2.2.2 hl hf'

theorem validItem_update {cx : Ctx} {fs : Fields} {r : Rec} (h : validItem cx fs r) {key : String} {old x : LV}
    (hl : Rec.lookup r key = some (some old)) (hx : ∀ f, (key, f) ∈ fs → leafValid f.leaf x) :
    validItem cx fs (Rec.update r key (some x)) := by
  induction fs generalizing r with
  | nil => cases r with
    | nil => cases hl
    | cons _ _ => simp [validItem] at h
  | cons nf fs ih =>
    obtain ⟨n, f⟩ := nf
    cases r with
    | nil => cases hl
    | cons nv rec =>
      obtain ⟨n', v⟩ := nv
      unfold Rec.lookup at hl
      unfold Rec.update
      have hx' := fun f hf => hx f (List.mem_cons_of_mem _ hf)
      cases f with
      | req l =>
        cases v with
        | none => simp [validItem] at h
        | some y =>
          obtain ⟨rfl, h1, h2⟩ := h
          by_cases hn : n = key
          · rw [if_pos hn]
            exact ⟨rfl, hx (.req l) (by rw [hn]; simp), h2⟩
          · rw [if_neg hn] at hl ⊢
            exact ⟨rfl, h1, ih h2 hl hx'⟩
      | ifNew l =>
        cases v with
        | none =>
          obtain ⟨rfl, h1, h2⟩ := h
          by_cases hn : n = key
          · rw [if_pos hn] at hl
            cases hl
          · rw [if_neg hn] at hl ⊢
            exact ⟨rfl, h1, ih h2 hl hx'⟩
        | some y =>
          obtain ⟨rfl, h1, h2, h3⟩ := h
          by_cases hn : n = key
          · rw [if_pos hn]
            exact ⟨rfl, h1, hx (.ifNew l) (by rw [hn]; simp), h3⟩
          · rw [if_neg hn] at hl ⊢
            exact ⟨rfl, h1, h2, ih h3 hl hx'⟩
      | opt l => cases v <;> simp [validItem] at h
      | ifLen k l => cases v <;> simp [validItem] at h

omit [FloatEnv] in
theorem flag_lt {ver : PyVer} {members bits n m k : Nat} {on : Bool}
    (hm : (m : Int) = if on then flagOr n bits else flagAndNot ver members n bits) (hn : n < 2 ^ k) (hb : bits < 2 ^ k) :
    m < 2 ^ k := by
  cases on with
  | true =>
    rw [if_pos rfl] at hm
    have : m = n ||| bits := Int.ofNat.inj (show (m : Int) = ((n ||| bits : Nat) : Int) from hm)
    rw [this]
    exact Nat.or_lt_two_pow hn hb
  | false =>
    rw [if_neg (by simp)] at hm
    cases ver with
    | upTo310 =>
      have : m = n ^^^ (n &&& bits) := Int.ofNat.inj (show (m : Int) = ((n ^^^ (n &&& bits) : Nat) : Int) from hm)
      rw [this]
      exact Nat.xor_lt_two_pow hn (Nat.lt_of_le_of_lt Nat.and_le_left hn)
    | from311 =>
      have : m = n &&& (allBits members - bits) :=
        Int.ofNat.inj (show (m : Int) = ((n &&& (allBits members - bits) : Nat) : Int) from hm)
      rw [this]
      exact Nat.lt_of_le_of_lt Nat.and_le_left hn

theorem word_valid (w n : Nat) : leafValid (.int w false) (.int n) ↔ n < 2 ^ wordBits (.int w false) := by
  have h256 : 256 ^ w = 2 ^ (8 * w) := by rw [Nat.pow_mul]
  simp only [leafValid, intFits, Bool.false_eq_true, if_false, decide_eq_true_eq, wordBits, ← h256]
  omega

theorem word_valid_flags (m n : Nat) : leafValid (.flagsS m) (.int n) ↔ n < 2 ^ wordBits (.flagsS m) := by
  simp only [leafValid, wordBits]
  omega

theorem word_update {l : Leaf} (hleaf : (match l with | .int _ false | .flagsS _ => true | _ => false) = true)
    {ver : PyVer} {members bits n m : Nat} {on : Bool}
    (hm : (m : Int) = if on then flagOr n bits else flagAndNot ver members n bits) (hn : leafValid l (.int n))
    (hb : bits < 2 ^ wordBits l) : leafValid l (.int m) ∧ l ≠ .greedy := by
  split at hleaf
  · exact ⟨(word_valid _ _).2 (flag_lt hm ((word_valid _ _).1 hn) hb), by simp⟩
  · exact ⟨(word_valid_flags _ _).2 (flag_lt hm ((word_valid_flags _ _).1 hn) hb), by simp⟩
  · cases hleaf

theorem structSet_valid {e e' : Event} {key : String} {old x : LV} (hv : validValue e.kind e.len e.value)
    (hc : fieldOf e key = some (some old))
    (hx : ∀ f, (key, f) ∈ fieldsOf e.kind → leafValid f.leaf x ∧ f.leaf ≠ .greedy)
    (hs : structSet e key (some x) = .ok e') : validValue e.kind e.len e'.value := by
  have ht := valid_typed hv
  obtain ⟨id, kind, value, len⟩ := e
  cases kind with
  | struct s =>
    obtain ⟨r, rfl, -⟩ := ht
    have hl : Rec.lookup r key = some (some old) := hc
    unfold structSet at hs
    dsimp only at hs
    rw [hl] at hs
    cases hs
    exact validFields_update hv hl hx
  | automation =>
    obtain ⟨r, p, t, rfl, -⟩ := ht
    have hl : Rec.lookup r key = some (some old) := hc
    unfold structSet at hs
    dsimp only at hs
    rw [hl] at hs
    cases hs
    exact ⟨validItem_update hv.1 hl fun f hf => (hx f hf).1, hv.2⟩
  | _ =>
    exfalso
    unfold fieldOf at hc
    dsimp only at hc
    split at hc <;> first
      | (cases hc; done)
      | (obtain ⟨l, hl, _⟩ := hv; cases hl; done)
      | exact hv.elim

/-- Assigning a value that fits gives a value that can be stored. -/
theorem set_valid {ver : PyVer} {ids : List Nat} {d : Option Value} {a : Access} {e e' : Event} {x : a.type}
    (hv : validValue e.kind e.len e.value) (ha : accOk a (some e.kind) = true) {old : a.type}
    (hc : Content a e (some old)) (hx : Fits a e x) (hs : (a.descr ver ids d).set e x = .ok e') :
    validValue e.kind e.len e'.value := by
  cases a with
  | event => cases hs; exact hx
  | field key => exact structSet_valid hv hc hx hs
  | flag members bits key inverted =>
    have ha' := ha
    simp only [accOk, Bool.and_eq_true, bne_iff_ne, ne_eq, beq_iff_eq] at ha'
    obtain ⟨-, hcls⟩ := ha'
    rcases hc with ⟨n, hw, -⟩ | ⟨-, hc⟩
    · have hw' := hw
      obtain ⟨e'', m, s1, s2, s3, -, -⟩ := flag_set (ver := ver) (members := members) (flag := bits)
        (ids := ids) (inverted := inverted) (default := none) hw x
      have he : e'' = e' := by
        have : (flagProp ver members bits ids key inverted none).set e x = .ok e' := hs
        rw [s1] at this
        injection this
      subst he
      rcases hw with ⟨k1, k2⟩ | ⟨k1, r, k2, k3⟩
      · have hset : (if e.kind.isStruct then _ else (match e.value with
          | .lv y =>
            match flagWrite ver members bits inverted (some y) x with
            | .ok (some y') => .ok { e with value := .lv y' }
            | .ok none => .error .typeError
            | .error y => .error y
          | _ => .error .typeError)) = (.ok e'' : Py Event) := hs
        rw [if_neg (by rw [k1]; simp), k2] at hset
        simp only [flagWrite, flagWord, Except.map] at hset
        rw [← s2] at hset
        cases hset
        rw [if_neg (by rw [k1]; simp)] at hcls
        rw [k2] at hv
        dsimp only
        obtain ⟨-, hb⟩ := hx
        generalize e.kind = k at *
        cases k <;> first
          | (cases hcls; done)
          | (obtain ⟨l, hl, hlv⟩ := hv
             have hbl := hb l hl
             cases hl
             exact ⟨_, rfl, (word_update rfl s2 hlv hbl).1⟩)
      · have hset : (if e.kind.isStruct then (match structGet e key with
            | .error y => (.error y : Py Event)
            | .ok word =>
              match flagWrite ver members bits inverted word x with
              | .error y => (.error y : Py Event)
              | .ok word' => structSet e key word')
            else _) = .ok e'' := hs
        have hsg : structGet e key = .ok (some (.int n)) := by unfold structGet; rw [k2]; dsimp only; rw [k3]
        rw [if_pos k1, hsg] at hset
        simp only [flagWrite, flagWord, Except.map] at hset
        rw [← s2] at hset
        rw [if_pos k1] at hcls
        have hstr : ∃ s, e.kind = .struct s := by
          split at hcls
          · next s hk => exact ⟨s, hk⟩
          · cases hcls
        obtain ⟨s, hk⟩ := hstr
        refine structSet_valid hv (old := .int n) (by unfold fieldOf; rw [k2]; exact k3) (fun f hf => ?_) hset
        rw [hk] at hcls hf hv
        simp only [List.any_eq_true, Bool.and_eq_true, beq_iff_eq] at hcls
        obtain ⟨⟨n', f'⟩, hm, rfl, hleaf⟩ := hcls
        cases field_unique (fields_nodup s) hf hm
        rw [k2] at hv
        have hold := validFields_lookup (fields_nodup s) hv k3 hm
        exact word_update hleaf s2 hold (hx.1 f (by rw [hk]; exact hm))
    · cases hc

omit [FloatEnv] in
theorem target_observe {evs evs' : List Event} (h : evs'.map observe = evs.map observe) {ids : List Nat} {k : Nat}
    {e : Event} (hT : Target evs ids k e) : ∃ e', Target evs' ids k e' ∧ observe e' = observe e := by
  have hid : ∀ a b : Event, observe a = observe b → a.id = b.id := fun a b hab => congrArg Prod.fst hab
  rcases hT with ⟨h1, rfl, rfl⟩ | ⟨a, b, pre, post, h1, h2, rfl, h3, rfl⟩
  · cases evs' with
    | nil => cases h
    | cons e' t =>
      cases t with
      | nil =>
        simp only [List.map_cons, List.map_nil, List.cons.injEq, and_true] at h
        exact ⟨e', .inl ⟨h1, rfl, rfl⟩, h⟩
      | cons => simp at h
  · rw [List.map_append, List.map_cons] at h
    obtain ⟨pre', rest, rfl, p1, p2⟩ := List.map_eq_append_iff.1 h
    obtain ⟨e', post', rfl, q1, q2⟩ := List.map_eq_cons_iff.1 p2
    refine ⟨e', .inr ⟨a, b, pre', post', by rw [h1, hid _ _ q1], ?_, rfl, ?_, ?_⟩, q1⟩
    · intro i hi x hx hxi
      have hmem : observe x ∈ (pre' ++ e' :: post').map observe := List.mem_map.2 ⟨x, hx, rfl⟩
      rw [h] at hmem
      rw [← List.map_cons, ← List.map_append] at hmem
      obtain ⟨y, y1, y2⟩ := List.mem_map.1 hmem
      exact h2 i hi y y1 ((hid _ _ y2).trans hxi)
    · intro x hx hxe
      have hmem : observe x ∈ pre.map observe := by rw [← p1]; exact List.mem_map.2 ⟨x, hx, rfl⟩
      obtain ⟨y, y1, y2⟩ := List.mem_map.1 hmem
      exact h3 y y1 ((hid _ _ y2).trans (hxe.trans (hid _ _ q1)))
    · have := congrArg List.length p1
      simpa using this.symm

omit [FloatEnv] in
theorem no_version : ∀ p ∈ propTable, 199 ∉ p.idsOf := by decide +kernel

/-- An assignment of a value that fits keeps the values storable. -/
theorem write_storable {w w' : World} {L : Nat → Prop} (r : WReach w L) {t : Nat} (ht : L t) (ver : PyVer)
    (p : PropRow) (hp : p ∈ propTable) (hArp : p.cls ≠ "Arp") (hm : ModelOf p (w.events t))
    (hwt : WellTyped w.project.events) (hv : ∀ e ∈ w.project.events, validValue e.kind e.len e.value)
    {k : Nat} {e : Event} (hT : Target (w.events t) p.ids k e) (hname : e.id ≠ 201) (x : p.type) (hx : Fits p.acc e x)
    (hw : p.write ver w t x = (w', .ok ())) :
    WReach w' L ∧ WellTyped w'.project.events ∧ (∀ e ∈ w'.project.events, validValue e.kind e.len e.value) ∧
    (∃ v', { e with value := v' } ∈ w'.events t) ∧ e.id ∈ p.idsOf ∧ p.read ver w' t = .ok (some x) ∧
    ∃ j v', w.project.events[j]? = some e ∧
      w'.project = { w.project with events := w.project.events.set j { e with value := v' } } := by
  have hty := wellTyped_typed hwt hv
  have hok := table_ok p hp hArp
  obtain ⟨o1, o2⟩ := target_ok hok (typed_view r ht hty) hm hT
  obtain ⟨i0, hmem⟩ := target_id hm hT
  obtain ⟨ref, g1, g2, g3, g4, ⟨i, i1, i2, i3⟩, g5⟩ :=
    write_spec r ht (p.descr ver) (descr_readonly ver p) x (k := k) (e := e) (by rw [descr_ids]; exact hT)
  have hve := hv e (List.mem_of_getElem? i2)
  obtain ⟨v, hget, hcon⟩ := get_typed ver p.ids p.default p.acc o2 o1
  cases v with
  | none =>
    obtain ⟨err, h, -⟩ := (write_typed r ht ver hok (typed_view r ht hty) hm hT x).2 hcon
    rw [h] at hw; cases hw
  | some old =>
    have hset : ∃ e', (p.acc.descr ver p.ids p.default).set e x = .ok e' := by
      unfold PropRow.write at hw
      rw [g5] at hw
      unfold PropRow.descr at hw
      split at hw
      · cases hw
      · next e' h => exact ⟨e', h⟩
    obtain ⟨e', hset⟩ := hset
    have hval := set_valid hve o1 hcon hx hset
    have hacc : Accepts p.acc e x := by
      obtain ⟨_, _, _, _, acc, _⟩ := p
      cases acc with
      | event => exact valid_typed hx
      | field key =>
        intro f hf
        have := (hx f hf).1
        obtain ⟨b, hb1, hb2⟩ := leafRT_of_valid this
        exact leafParse_typed (r := []) (by have := hb2 [] (fun _ => rfl); simpa using this)
      | flag => trivial
    obtain ⟨w'', v', a1, a2, a3, a4, a5, ⟨j, j1, j2⟩, a7⟩ :=
      (write_typed r ht ver hok (typed_view r ht hty) hm hT x).1 old hcon hacc
    rw [hw] at a1
    injection a1 with a1 _
    subst a1
    have he' : e' = { e with value := v' } := by
      obtain ⟨v2, b1, b2, b3⟩ := (set_typed ver p.ids p.default p.acc o2 o1 x).1 old hcon hacc
      rw [hset] at b1
      injection b1 with b1
      unfold PropRow.write at hw
      rw [g5] at hw
      unfold PropRow.descr at hw
      rw [hset] at hw
      injection hw with hw _
      have hlen := congrArg (fun W : World => W.events t) hw
      rw [events_setEv _ (refs_nodup r ht) g2 g3, a5] at hlen
      have hkl : k < (w.events t).length := by
        have := (List.getElem?_eq_some_iff.1 g2).1
        simpa [World.events] using this
      have := congrArg (fun l : List Event => l[k]?) hlen
      simpa [hkl] using this
    subst he'
    have hjl := List.getElem?_eq_some_iff.1 j1
    have hsplit : w.project.events = w.project.events.take j ++ e :: w.project.events.drop (j + 1) := by
      have := List.take_append_drop j w.project.events
      rw [List.drop_eq_getElem_cons hjl.1, hjl.2] at this
      exact this.symm
    have hsplit' : w'.project.events = w.project.events.take j ++ { e with value := v' } :: w.project.events.drop (j + 1) := by
      rw [j2]
      dsimp only
      rw [List.set_eq_take_append_cons_drop, if_pos hjl.1]
    have h199 : e.id ≠ 199 := fun h => no_version p hp (h ▸ i0)
    have hwt' : WellTyped w'.project.events := by
      rw [hsplit']
      refine wellTyped_replace (e := e) (hsplit ▸ hwt) rfl rfl (fun h => absurd h h199) ?_ (fun h => absurd h hname)
      rw [textKind_append, textKind_append]
      simp [h199]
    have hv' : ∀ e ∈ w'.project.events, validValue e.kind e.len e.value := by
      intro y hy
      rw [j2] at hy
      rcases List.mem_or_eq_of_mem_set hy with hy | rfl
      · exact hv y hy
      · exact hval
    refine ⟨a7, hwt', hv', ⟨v', ?_⟩, i0, a2, j, v', j1, j2⟩
    rw [a5]
    exact List.mem_set (by
      have := (List.getElem?_eq_some_iff.1 g2).1
      simpa [World.events] using this) _

/-- C77: a value assigned to a property of a project whose values can be stored is read again from the saved file, if it
fits and the property is not the internal name of a plugin: the file has exactly the events of the project, and the
property gives the value on the model with the same events. -/
theorem C77_saved_partial {w w' : World} {L : Nat → Prop} (r : WReach w L) {t : Nat} (ht : L t) (ver : PyVer)
    (p : PropRow) (hp : p ∈ propTable) (hArp : p.cls ≠ "Arp") (hm : ModelOf p (w.events t))
    (hf : w.format ∈ formats) (hq : w.ppq ∈ ppqs) (hwt : WellTyped w.project.events)
    (hv : ∀ e ∈ w.project.events, validValue e.kind e.len e.value)
    {k : Nat} {e : Event} (hT : Target (w.events t) p.ids k e) (hname : e.id ≠ 201) (x : p.type) (hx : Fits p.acc e x)
    (hw : p.write ver w t x = (w', .ok ())) {file : Bytes} (hs : saveBytes w'.project = .ok file) :
    (∀ e ∈ w'.project.events, validValue e.kind e.len e.value) ∧
    ∃ q, parseFile file = .ok q ∧ q.events.map observe = w'.project.events.map observe ∧
      ∀ w₂ L₂ u, WReach w₂ L₂ → L₂ u → (w₂.events u).map observe = (w'.events t).map observe →
        p.read ver w₂ u = .ok (some x) := by
  obtain ⟨a7, hwt', hv', ⟨v', hm2⟩, i0, a2, j, v2, j1, j2⟩ := write_storable r ht ver p hp hArp hm hwt hv hT hname x hx hw
  have hhdr : w'.project.format = w.format ∧ w'.project.ppq = w.ppq := by rw [j2]; exact ⟨rfl, rfl⟩
  obtain ⟨q, q1, -, -, -, q2, -⟩ := C04_save_parse w'.project file (by rw [hhdr.1]; exact hf)
    (by rw [hhdr.2]; exact hq) hwt' hv' hs
  refine ⟨hv', q, q1, q2, fun w₂ L₂ u r₂ hu hobs => ?_⟩
  have hT' : ∃ k' e₁, Target (w'.events t) p.ids k' e₁ ∧ (p.descr ver).get e₁ = .ok (some x) := by
    unfold PropRow.read Descr.read at a2
    rw [descr_ids] at a2
    rcases getEvent_spec a7 ht p.ids with ⟨k', ref', c1, c2, c3, c4⟩ | ⟨c0, c1, c2⟩ | ⟨c0, c1, c2⟩ | ⟨c0, c1, c2⟩
    · rw [c1] at a2
      exact ⟨k', _, c4, a2⟩
    · exfalso
      exact c2 _ hm2 (by
        have := i0
        unfold PropRow.idsOf at this
        rw [if_neg c0] at this
        exact this)
    · rw [c2] at a2; cases a2
    · rw [c2] at a2; cases a2
  obtain ⟨k', e₁, t1, t2⟩ := hT'
  obtain ⟨e₂, t3, t4⟩ := target_observe hobs t1
  unfold PropRow.read Descr.read
  rw [descr_ids]
  have hgetc : (p.descr ver).get e₂ = (p.descr ver).get e₁ := by
    have hk : e₂.kind = e₁.kind := congrArg (fun x => x.2.1) t4
    have hval : e₂.value = e₁.value := congrArg (fun x => x.2.2) t4
    obtain ⟨_, _, _, _, acc, _⟩ := p
    cases acc with
    | event => show Except.ok (some e₂.value) = Except.ok (some e₁.value); rw [hval]
    | field key => show structGet e₂ key = structGet e₁ key; unfold structGet; rw [hval]
    | flag m b key inv =>
      have hsg : structGet e₂ key = structGet e₁ key := by unfold structGet; rw [hval]
      simp only [PropRow.descr, Access.descr, flagProp, hk, hval, hsg]
  rcases getEvent_spec r₂ hu p.ids with ⟨k₂, ref₂, c1, c2, c3, c4⟩ | ⟨c0, c1, c2⟩ | ⟨c0, c1, c2⟩ | ⟨c0, c1, c2⟩
  · rw [c1]
    dsimp only
    rw [(target_unique c4 t3).2, hgetc, t2]
  · exfalso
    rcases t3 with ⟨d1, -⟩ | ⟨d1, d2, d3, d4, d5, -, d6, -⟩
    · exact c0 d1
    · exact c2 e₂ (by rw [d6]; simp) (by rw [d5]; simp)
  · exfalso
    rcases t3 with ⟨-, d1, -⟩ | ⟨d1, d2, d3, d4, d5, -⟩
    · rw [c1] at d1; cases d1
    · rw [c0] at d5; simp at d5
  · exfalso
    rcases t3 with ⟨-, d1, -⟩ | ⟨d1, d2, d3, d4, d5, -⟩
    · rw [d1] at c1; simp at c1
    · rw [c0] at d5; simp at d5

/-! ### The exceptions, and examples -/

namespace Spec

variable [FloatEnv]

/-- C77 in full: whatever value of the right type is assigned to a property of a storable project that can then be
saved, the saved file has the events of the project. -/
def AssignedIsSaved : Prop :=
  ∀ (w w' : World) (L : Nat → Prop), WReach w L → ∀ t, L t → ∀ (ver : PyVer), ∀ p ∈ propTable, p.cls ≠ "Arp" →
    ModelOf p (w.events t) → w.format ∈ formats → w.ppq ∈ ppqs → WellTyped w.project.events →
    (∀ e ∈ w.project.events, validValue e.kind e.len e.value) → ∀ k e, Target (w.events t) p.ids k e → ∀ (x : p.type),
    Accepts p.acc e x → p.write ver w t x = (w', .ok ()) → ∀ file, saveBytes w'.project = .ok file →
    ∃ q, parseFile file = .ok q ∧ q.events.map observe = w'.project.events.map observe

/-- The same for values that fit. -/
def FittingIsSaved : Prop :=
  ∀ (w w' : World) (L : Nat → Prop), WReach w L → ∀ t, L t → ∀ (ver : PyVer), ∀ p ∈ propTable, p.cls ≠ "Arp" →
    ModelOf p (w.events t) → w.format ∈ formats → w.ppq ∈ ppqs → WellTyped w.project.events →
    (∀ e ∈ w.project.events, validValue e.kind e.len e.value) → ∀ k e, Target (w.events t) p.ids k e → ∀ (x : p.type),
    Fits p.acc e x → p.write ver w t x = (w', .ok ()) → ∀ file, saveBytes w'.project = .ok file →
    ∃ q, parseFile file = .ok q ∧ q.events.map observe = w'.project.events.map observe

end Spec

namespace Demo

variable [FloatEnv]

/-- Sixteen zero bytes. -/
def zeros : Bytes := [0, 0, 0, 0, 0, 0, 0, 0, 0, 0, 0, 0, 0, 0, 0, 0]

/-- A wrapper event with the given flag word, from an old version: it ends after the flags. -/
def wrapper (flags : Option LV) (len : Nat) : Event :=
  ⟨212, .struct .wrapper, .fields [("_u1", some (.bytes zeros)), ("flags", flags), ("_u2", none), ("page", none),
    ("_u3", none), ("width", none), ("height", none), ("_extra", some (.bytes []))], len⟩

/-- A project with one wrapper. -/
def wrapped (flags : Option LV) (len : Nat) : Project :=
  ⟨0, 1, 96, [⟨199, .ascii, .str (PStr.lit "20.8.3"), 7⟩, ⟨64, .u16, .lv (.int 0), 2⟩, wrapper flags len]⟩

/-- The file saved after `plugin.directx = True`. -/
def wrappedFile : Bytes := [70, 76, 104, 100, 6, 0, 0, 0, 0, 0, 1, 0, 96, 0, 70, 76, 100, 116, 30, 0, 0, 0,
  199, 7, 50, 48, 46, 56, 46, 51, 0, 64, 0, 0, 212, 16] ++ zeros

omit [FloatEnv] in
theorem wrapped_frames : wrappedFile.drop 22 = frames [(199, [50, 48, 46, 56, 46, 51, 0]), (64, [0, 0]), (212, zeros)] := by
  simp [frames, frame, varBuild_small, wrappedFile, zeros]

theorem wrapped_saved : saveBytes (wrapped (some (.int 65536)) 18) = .ok wrappedFile := by
  have hp : ∀ e ∈ (wrapped (some (.int 65536)) 18).events, e.id < 256 ∧ ∃ b, e.payload = .ok b := by
    intro e he
    simp only [wrapped, List.mem_cons, List.not_mem_nil, or_false] at he
    rcases he with rfl | rfl | rfl <;> exact ⟨by decide, _, rfl⟩
  unfold saveBytes
  rw [show channelLen (wrapped (some (.int 65536)) 18).events = .ok 1 from rfl]
  dsimp only
  rw [show packHeader (wrapped (some (.int 65536)) 18).format 1 (wrapped (some (.int 65536)) 18).ppq
      = .ok (wrappedFile.take 14) from rfl, eventsBytes_eq hp,
    show (wrapped (some (.int 65536)) 18).events.map Event.fr = [(199, [50, 48, 46, 56, 46, 51, 0]), (64, [0, 0]), (212, zeros)] from rfl,
    ← wrapped_frames]
  rfl

theorem wrapped_parsed : parseFile wrappedFile = .ok (wrapped none 16) := by
  refine (C07_parse_iff _ _).2 ⟨0, 0, 1, 0, 96, 0, 30, 0, 0, 0, wrappedFile.drop 22, rfl, by decide, by decide, by decide,
    by decide, rfl, rfl, rfl, _, by
      rw [wrapped_frames]
      exact splits_frames (by simp [FrameOK, sizeOK, zeros]), ?_⟩
  refine .cons ⟨rfl, rfl, by decide +kernel, rfl, by simp, by simp, by simp, fun _ => ⟨_, rfl, [20, 8, 3], by decide +kernel⟩⟩ ?_
  refine .cons ⟨rfl, rfl, by decide +kernel, rfl, by simp, by simp, by simp, by simp⟩ ?_
  refine .cons ⟨rfl, rfl, by decide +kernel, rfl, by simp, by simp, by simp, by simp⟩ .nil

/-- A project with a plugin whose data has no known format. -/
def unformatted (name : String) : Project :=
  ⟨0, 1, 96, [⟨199, .ascii, .str (PStr.lit "20.8.3"), 7⟩, ⟨64, .u16, .lv (.int 0), 2⟩, ⟨201, .unicode, .str (PStr.lit name), 16⟩,
    ⟨213, .unknown, .bytes zeros, 16⟩]⟩

/-- What is read from the file saved after `channel.internal_name = "BooBass"`. -/
def retyped : Project :=
  ⟨0, 1, 96, [⟨199, .ascii, .str (PStr.lit "20.8.3"), 7⟩, ⟨64, .u16, .lv (.int 0), 2⟩, ⟨201, .unicode, .str (PStr.lit "BooBass"), 16⟩,
    ⟨213, .struct .booBass, .fields [("_u1", some (.bytes [0, 0, 0, 0])), ("bass", some (.int 0)),
      ("mid", some (.int 0)), ("high", some (.int 0))], 16⟩]⟩

/-- That file. -/
def retypedFile : Bytes := [70, 76, 104, 100, 6, 0, 0, 0, 0, 0, 1, 0, 96, 0, 70, 76, 100, 116, 48, 0, 0, 0,
  199, 7, 50, 48, 46, 56, 46, 51, 0, 64, 0, 0, 201, 16, 66, 0, 111, 0, 111, 0, 66, 0, 97, 0, 115, 0, 115, 0, 0, 0, 213, 16] ++ zeros

omit [FloatEnv] in
theorem retyped_frames : retypedFile.drop 22 = frames [(199, [50, 48, 46, 56, 46, 51, 0]), (64, [0, 0]),
    (201, [66, 0, 111, 0, 111, 0, 66, 0, 97, 0, 115, 0, 115, 0, 0, 0]), (213, zeros)] := by
  simp [frames, frame, varBuild_small, retypedFile, zeros]

theorem retyped_saved : saveBytes (unformatted "BooBass") = .ok retypedFile := by
  have hp : ∀ e ∈ (unformatted "BooBass").events, e.id < 256 ∧ ∃ b, e.payload = .ok b := by
    intro e he
    simp only [unformatted, List.mem_cons, List.not_mem_nil, or_false] at he
    rcases he with rfl | rfl | rfl | rfl <;> exact ⟨by decide, _, rfl⟩
  unfold saveBytes
  rw [show channelLen (unformatted "BooBass").events = .ok 1 from rfl]
  dsimp only
  rw [show packHeader (unformatted "BooBass").format 1 (unformatted "BooBass").ppq = .ok (retypedFile.take 14) from rfl,
    eventsBytes_eq hp,
    show (unformatted "BooBass").events.map Event.fr = [(199, [50, 48, 46, 56, 46, 51, 0]), (64, [0, 0]),
      (201, [66, 0, 111, 0, 111, 0, 66, 0, 97, 0, 115, 0, 115, 0, 0, 0]), (213, zeros)] from rfl, ← retyped_frames]
  rfl

theorem retyped_parsed : parseFile retypedFile = .ok retyped := by
  refine (C07_parse_iff _ _).2 ⟨0, 0, 1, 0, 96, 0, 48, 0, 0, 0, retypedFile.drop 22, rfl, by decide, by decide, by decide,
    by decide, rfl, rfl, rfl, _, by
      rw [retyped_frames]
      exact splits_frames (by simp [FrameOK, sizeOK, zeros]), ?_⟩
  refine .cons ⟨rfl, rfl, by decide +kernel, rfl, by simp, by simp, by simp, fun _ => ⟨_, rfl, [20, 8, 3], by decide +kernel⟩⟩ ?_
  refine .cons ⟨rfl, rfl, by decide +kernel, rfl, by simp, by simp, by simp, by simp⟩ ?_
  refine .cons ⟨rfl, rfl, by decide +kernel, rfl, by simp, by simp, by simp, by simp⟩ ?_
  refine .cons ⟨rfl, rfl, by decide +kernel, rfl, by simp, by simp, by simp, by simp⟩ .nil

end Demo

/-- C77 is false without the condition that the value fits: `plugin.directx = True` stands for a bit outside the sixteen
bits of the flag word, so saving drops the word. -/
theorem C77_directx_refuted : ¬ Spec.AssignedIsSaved := by
  intro h
  have hw : PropRow.write .from311 ⟨"_PluginBase", "directx", [212], [], .flag 197623 65536 "flags" false, none⟩
      (World.ofProject (Demo.wrapped (some (.int 0)) 18)) 0 true =
      (World.ofProject (Demo.wrapped (some (.int 65536)) 18), .ok ()) := by
    rfl
  obtain ⟨q, q1, q2⟩ := h _ _ _ (.parsed (Demo.wrapped (some (.int 0)) 18)) 0 rfl .from311
    ⟨"_PluginBase", "directx", [212], [], .flag 197623 65536 "flags" false, none⟩ (by decide +kernel) (by decide)
    ⟨by simp, by
      intro k hk
      simp [pluginClasses] at hk⟩ (by decide) (by decide)
    (by rw [ofProject_project]; exact Demo.wellTyped_of (by decide +kernel))
    (by
      rw [ofProject_project]
      intro e he
      simp only [Demo.wrapped, List.mem_cons, List.not_mem_nil, or_false] at he
      rcases he with rfl | rfl | rfl
      · exact ⟨by decide, by decide⟩
      · exact ⟨_, rfl, rfl⟩
      · exact ⟨rfl, rfl, by simp, rfl, rfl, by simp [PyFLP.u16], rfl, rfl, rfl, rfl, rfl, rfl, rfl, rfl, rfl, rfl, rfl⟩)
    2 (Demo.wrapper (some (.int 0)) 18)
    (.inr ⟨[], [], [⟨199, .ascii, .str (PStr.lit "20.8.3"), 7⟩, ⟨64, .u16, .lv (.int 0), 2⟩], [], rfl, by simp, rfl, by decide, rfl⟩)
    true trivial hw Demo.wrappedFile (by rw [ofProject_project]; exact Demo.wrapped_saved)
  rw [Demo.wrapped_parsed] at q1
  cases q1
  rw [ofProject_project] at q2
  revert q2
  decide +kernel

/-- C77 is false of the internal name of a plugin even if the name fits: plugin data of an unknown format is read in
the format of the plugin of that name. -/
theorem C77_internal_name_refuted : ¬ Spec.FittingIsSaved := by
  intro h
  have hw : PropRow.write .from311 ⟨"Channel", "internal_name", [201], [], .event, none⟩
      (World.ofProject (Demo.unformatted "Other12")) 0 (.str (PStr.lit "BooBass")) =
      (World.ofProject (Demo.unformatted "BooBass"), .ok ()) := by
    rfl
  obtain ⟨q, q1, q2⟩ := h _ _ _ (.parsed (Demo.unformatted "Other12")) 0 rfl .from311
    ⟨"Channel", "internal_name", [201], [], .event, none⟩ (by decide +kernel) (by decide)
    ⟨by simp, by
      intro k hk
      simp [pluginClasses] at hk⟩ (by decide) (by decide)
    (by rw [ofProject_project]; exact Demo.wellTyped_of (by decide +kernel))
    (by
      rw [ofProject_project]
      intro e he
      simp only [Demo.unformatted, List.mem_cons, List.not_mem_nil, or_false] at he
      rcases he with rfl | rfl | rfl | rfl
      · exact ⟨by decide, by decide⟩
      · exact ⟨_, rfl, rfl⟩
      · exact ⟨by simp [PStr.lit, isScalar], by decide⟩
      · trivial)
    2 ⟨201, .unicode, .str (PStr.lit "Other12"), 16⟩
    (.inr ⟨[], [], [⟨199, .ascii, .str (PStr.lit "20.8.3"), 7⟩, ⟨64, .u16, .lv (.int 0), 2⟩], [_], rfl, by simp, rfl, by decide, rfl⟩)
    (.str (PStr.lit "BooBass")) ⟨by simp [PStr.lit, isScalar], by decide⟩ hw Demo.retypedFile
    (by rw [ofProject_project]; exact Demo.retyped_saved)
  rw [Demo.retyped_parsed] at q1
  cases q1
  rw [ofProject_project] at q2
  revert q2
  decide +kernel

/-- The hypotheses of `C77_saved_partial` can be met: the bass of the demo project is set to 9 and saved. -/
example : ∃ w' file, Fits Demo.bassRow.acc Demo.project.events[4] (.int 9) ∧
    Demo.bassRow.write .from311 (World.ofProject Demo.project) 0 (.int 9) = (w', .ok ()) ∧
    saveBytes w'.project = .ok file := by
  have h : ∀ e ∈ Demo.project.events.set 4 ⟨213, .struct .booBass, .fields [("_u1", some (.bytes [1, 0, 0, 0])),
      ("bass", some (.int 9)), ("mid", some (.int 65535)), ("high", some (.int 0))], 16⟩,
      e.id < 256 ∧ ∃ b, e.payload = .ok b := by
    intro e he
    rw [show Demo.project.events.set 4 _ = Demo.project.events.take 4 ++ [_] ++ Demo.project.events.drop 5 from rfl] at he
    simp only [Demo.project, Demo.events, List.take_succ_cons, List.take_zero, List.drop_succ_cons, List.drop_zero,
      List.cons_append, List.nil_append, List.mem_cons, List.not_mem_nil, or_false] at he
    rcases he with rfl | rfl | rfl | rfl | rfl | rfl | rfl | rfl | rfl | rfl <;>
      first
        | exact ⟨by decide, _, Demo.colour_payload⟩
        | exact ⟨by decide, _, rfl⟩
  have hsv : ∃ file, saveBytes ⟨0, 2, 96, Demo.project.events.set 4 ⟨213, .struct .booBass,
      .fields [("_u1", some (.bytes [1, 0, 0, 0])), ("bass", some (.int 9)), ("mid", some (.int 65535)),
        ("high", some (.int 0))], 16⟩⟩ = .ok file := by
    have hfr : (Demo.project.events.set 4 ⟨213, .struct .booBass, .fields [("_u1", some (.bytes [1, 0, 0, 0])),
        ("bass", some (.int 9)), ("mid", some (.int 65535)), ("high", some (.int 0))], 16⟩).map Event.fr =
        Demo.frs.set 4 (213, [1, 0, 0, 0, 9, 0, 0, 0, 255, 255, 0, 0, 0, 0, 0, 0]) := by
      show [_, _, _, _, _, Demo.colour.fr, _, _, _, _] = _
      rw [Demo.colour_fr]
      rfl
    unfold saveBytes
    rw [show channelLen (Project.events _) = .ok 2 from rfl]
    dsimp only
    rw [show packHeader 0 2 96 = .ok (Demo.file.take 14) from rfl, eventsBytes_eq h, hfr]
    simp [frames, frame, Demo.varBuild_small, Demo.frs]
    exact ⟨_, rfl⟩
  obtain ⟨file, hf⟩ := hsv
  refine ⟨_, file, ?_, rfl, hf⟩
  intro f hf
  simp [Demo.project, Demo.events, fieldsOf, SName.fields] at hf
  subst hf
  exact ⟨by simp [Fld.leaf, PyFLP.u32, leafValid, intFits], by simp [Fld.leaf, PyFLP.u32]⟩

end

end PyFLP
