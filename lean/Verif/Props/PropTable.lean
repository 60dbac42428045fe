import Verif.PropTable
import Verif.Props.Descriptors
import Verif.Props.ProjectValues
import Verif.ModelsLemmas
import Verif.Props.Resave
/-!
# All properties of the models can be read and assigned (C75), do not disturb each other (C76), and are
saved (C77)
-/

namespace PyFLP

open Spec Heap

namespace Spec

/-- Values a primitive gives: numbers for numbers (no negative ones for unsigned fields), and so on. -/
def LeafTyped : Leaf → LV → Prop
  | .int _ true, .int _ => True
  | .int _ false, .int v => 0 ≤ v
  | .flagsS _, .int v => 0 ≤ v
  | .flag, .bool _ | .fourBool, .bool _ => True
  | .raw _, .bytes _ | .rawC _, .bytes _ | .greedy, .bytes _ => True
  | .f32, .f32 _ => True
  | .f64, .f64 _ | .log2, .f64 _ | .logNormal, .f64 _ => True
  | .height, .str _ => True
  | .pair32, .pair _ _ => True
  | .musical, .time _ _ _ => True
  | _, _ => False

/-- A container with exactly the fields of the struct; those that are not `None` hold values of the right type. -/
structure FieldsTyped (fs : Fields) (r : Rec) : Prop where
  names : r.map Prod.fst = fs.map Prod.fst
  values : ∀ n f x, (n, f) ∈ fs → Rec.lookup r n = some (some x) → LeafTyped f.leaf x

/-- Values of an event class. -/
def ValueTyped : Kind → Value → Prop
  | .struct s, v => ∃ r, v = .fields r ∧ FieldsTyped s.fields r
  | .automation, v => ∃ h p t, v = .auto h p t ∧ FieldsTyped autoHead h
  | .u16t, v => ∃ a b, v = .lv (.pair a b)
  | .color, v => ∃ r g b a, v = .color r g b a
  | .ascii, v | .unicode, v => ∃ s, v = .str s
  | k, v => ∀ l, k.leaf = some l → ∃ x, v = .lv x ∧ LeafTyped l x

/-- Every event has the class of its id, if the id has one, and a value of its class. -/
def Typed (evs : List Event) : Prop :=
  ∀ e ∈ evs, (∀ k, enumType enums e.id = some k → e.kind = k) ∧ ValueTyped e.kind e.value

/-- What the program makes models of the class from: models whose properties have no ids have a single event, of one of
the given ids (`NestedProp`, `separate`); models of plugin classes have a data event of the plugin's type. -/
def ModelOf (p : PropRow) (evs : List Event) : Prop :=
  (p.ids = [] → ∃ e, evs = [e] ∧ e.id ∈ p.view) ∧
  ∀ k, (p.cls, k) ∈ pluginClasses → ∀ e ∈ evs, e.id = 213 → e.kind = k

/-- The field of a struct event: `none` if it has no such field, `some none` if it is `None`. -/
def fieldOf (e : Event) (key : String) : Option (Option LV) :=
  match e.value with
  | .fields r => Rec.lookup r key
  | .auto head _ _ => Rec.lookup head key
  | _ => none

/-- What an event holds: its value, the value of the field, or whether the flag word has all bits of the flag. -/
def Content : (a : Access) → Event → Option a.type → Prop
  | .event, e, v => v = some e.value
  | .field key, e, v => fieldOf e key = some v
  | .flag _ bits key inverted, e, v =>
    (∃ n, FlagWord e key n ∧ v = some (decide (n &&& bits = bits) != inverted)) ∨ (fieldOf e key = some none ∧ v = none)

/-- The default of a property: only `EventProp`s have any. -/
def defaultOf (p : PropRow) : Option p.type :=
  match p with
  | ⟨_, _, _, _, .event, d⟩ => d
  | ⟨_, _, _, _, .field _, _⟩ => none
  | ⟨_, _, _, _, .flag .., _⟩ => none

/-- What a property must give: what the event holds that the property stands for; the default, if the model has no
such event. -/
def Gives (p : PropRow) (evs : List Event) (v : Option p.type) : Prop :=
  (∃ k e, Target evs p.ids k e ∧ Content p.acc e v) ∨
  (p.ids ≠ [] ∧ (∀ e ∈ evs, e.id ∉ p.ids) ∧ v = defaultOf p)

/-- Fields of a class. -/
def fieldsOf : Kind → Fields
  | .struct s => s.fields
  | .automation => autoHead
  | _ => []

/-- Values of the type of a property. -/
def Accepts : (a : Access) → Event → a.type → Prop
  | .event, e, v => ValueTyped e.kind v
  | .field key, e, v => ∀ f, (key, f) ∈ fieldsOf e.kind → LeafTyped f.leaf v
  | .flag .., _, _ => True

end Spec

/-! ### Parsed values have their types -/

section
variable [FloatEnv]

theorem intParse_nonneg {w : Nat} {bs r : Bytes} {v : Int} (h : intParse w false bs = .ok (v, r)) : 0 ≤ v := by
  unfold intParse at h
  split at h
  · cases h
  · cases h
    simp

omit [FloatEnv] in
theorem intFlagValue_nonneg (mask : Nat) (v : Int) : 0 ≤ intFlagValue mask v := by
  unfold intFlagValue
  split
  · assumption
  · next h =>
    dsimp only
    have hb : v.natAbs < 2 ^ (Nat.log2 v.natAbs + 1) := Nat.lt_log2_self
    split
    · have := Int.le_max_right ((allBits mask : Int) + 1) ((2 ^ (Nat.log2 v.natAbs + 1) : Nat) : Int)
      omega
    · next h2 =>
      have : ¬ v < -((allBits mask : Int) + 1) := fun hc => h2 (.inl hc)
      omega

omit [FloatEnv] in
theorem map_pair {α β : Type} {x : Py (α × Bytes)} {f : α × Bytes → β × Bytes} {v : β} {r : Bytes}
    (h : x.map f = .ok (v, r)) : ∃ a r', x = .ok (a, r') ∧ v = (f (a, r')).1 := by
  cases x with
  | error e => cases h
  | ok y =>
    simp only [Except.map, Except.ok.injEq] at h
    exact ⟨y.1, y.2, rfl, by rw [show (y.1, y.2) = y from rfl, h]⟩

theorem leafParse_typed {l : Leaf} {bs r : Bytes} {v : LV} (h : leafParse l bs = .ok (v, r)) : LeafTyped l v := by
  cases l with
  | int w s =>
    simp only [leafParse] at h
    obtain ⟨a, r', h1, rfl⟩ := map_pair h
    cases s
    · exact intParse_nonneg h1
    · trivial
  | flagsS m =>
    simp only [leafParse] at h
    obtain ⟨a, r', h1, rfl⟩ := map_pair h
    exact intFlagValue_nonneg m a
  | flag =>
    simp only [leafParse] at h
    split at h
    · cases h
    · cases h; trivial
  | raw n =>
    simp only [leafParse] at h
    split at h
    · cases h
    · cases h; trivial
  | rawC n => cases h; trivial
  | greedy => cases h; trivial
  | f32 => simp only [leafParse] at h; obtain ⟨a, r', h1, rfl⟩ := map_pair h; trivial
  | f64 => simp only [leafParse] at h; obtain ⟨a, r', h1, rfl⟩ := map_pair h; trivial
  | fourBool => simp only [leafParse] at h; obtain ⟨a, r', h1, rfl⟩ := map_pair h; trivial
  | height =>
    simp only [leafParse] at h
    split at h
    · cases h
    · split at h
      · cases h; trivial
      · cases h
  | pair32 =>
    simp only [leafParse] at h
    cases hx : int2Parse 4 bs with
    | error e => rw [hx] at h; cases h
    | ok y => rw [hx] at h; cases h; trivial
  | musical => simp only [leafParse] at h; obtain ⟨a, r', h1, rfl⟩ := map_pair h; trivial
  | log2 =>
    simp only [leafParse] at h
    split at h
    · cases h
    · split at h
      · cases h; trivial
      · cases h
  | logNormal =>
    simp only [leafParse] at h
    split at h
    · cases h
    · split at h
      · cases h; trivial
      · cases h

theorem fldParse_typed {cx : Ctx} {f : Fld} {bs r : Bytes} {x : LV} (h : fldParse cx f bs = .ok (some x, r)) :
    LeafTyped f.leaf x := by
  cases f with
  | req l => simp only [fldParse] at h; obtain ⟨a, r', h1, h2⟩ := map_pair h; cases h2; exact leafParse_typed h1
  | opt l =>
    simp only [fldParse] at h
    split at h
    · next h1 => cases h; exact leafParse_typed h1
    · cases h
  | ifLen n l =>
    simp only [fldParse] at h
    split at h
    · obtain ⟨a, r', h1, h2⟩ := map_pair h; cases h2; exact leafParse_typed h1
    · cases h
  | ifNew l =>
    simp only [fldParse] at h
    split at h
    · obtain ⟨a, r', h1, h2⟩ := map_pair h; cases h2; exact leafParse_typed h1
    · cases h

theorem structParse_typed {cx : Ctx} {fs : Fields} (hn : (fs.map Prod.fst).Nodup) {bs r : Bytes} {rec : Rec}
    (h : structParse cx fs bs = .ok (rec, r)) : FieldsTyped fs rec := by
  induction fs generalizing bs rec with
  | nil => cases h; exact ⟨rfl, by simp⟩
  | cons nf fs ih =>
    obtain ⟨n, f⟩ := nf
    obtain ⟨v, m, rec', h1, h2, rfl⟩ := structParse_cons h
    rw [List.map_cons, List.nodup_cons] at hn
    obtain ⟨i1, i2⟩ := ih hn.2 h2
    refine ⟨by simp [i1], fun n' f' x hm hl => ?_⟩
    unfold Rec.lookup at hl
    rcases List.mem_cons.1 hm with hm | hm
    · cases hm
      rw [if_pos rfl] at hl
      cases hl
      exact fldParse_typed h1
    · have hne : n ≠ n' := fun hc => hn.1 (hc ▸ List.mem_map.2 ⟨_, hm, rfl⟩)
      rw [if_neg hne] at hl
      exact i2 n' f' x hm hl

omit [FloatEnv] in
theorem fields_nodup (s : SName) : (s.fields.map Prod.fst).Nodup := by
  cases s <;> decide +kernel

omit [FloatEnv] in
theorem autoHead_nodup : (autoHead.map Prod.fst).Nodup := by decide +kernel

theorem kindParse_typed {k : Kind} {bs : Bytes} {v : Value} (h : k.parse bs = .ok v) : ValueTyped k v := by
  have leaf : ∀ k : Kind, (match k.leaf with
      | some l => (leafParse l bs).map fun (x : LV × Bytes) => Value.lv x.1
      | none => .error .typeError) = .ok v → ∀ l, k.leaf = some l → ∃ x, v = .lv x ∧ LeafTyped l x := by
    intro k h l hl
    rw [hl] at h
    cases hp : leafParse l bs with
    | error e => simp [hp, Except.map] at h
    | ok y =>
      simp only [hp, Except.map, Except.ok.injEq] at h
      exact ⟨y.1, h.symm, leafParse_typed (r := y.2) hp⟩
  cases k with
  | bool => exact leaf .bool h
  | i8 => exact leaf .i8 h
  | u8 => exact leaf .u8 h
  | i16 => exact leaf .i16 h
  | u16 => exact leaf .u16 h
  | f32 => exact leaf .f32 h
  | i32 => exact leaf .i32 h
  | u32 => exact leaf .u32 h
  | u16t =>
    unfold Kind.parse at h
    cases hp : int2Parse 2 bs with
    | error e => simp [hp, Except.map] at h
    | ok y => simp only [hp, Except.map, Except.ok.injEq] at h; exact ⟨_, _, h.symm⟩
  | color =>
    unfold Kind.parse at h
    dsimp only at h
    split at h
    · cases h; exact ⟨_, _, _, _, rfl⟩
    · cases h
  | ascii =>
    unfold Kind.parse at h
    cases hp : asciiDecode bs with
    | error e => simp [hp, Except.map] at h
    | ok y => simp only [hp, Except.map, Except.ok.injEq] at h; exact ⟨_, h.symm⟩
  | unicode =>
    unfold Kind.parse at h
    cases hp : utf16Decode bs with
    | error e => simp [hp, Except.map] at h
    | ok y => simp only [hp, Except.map, Except.ok.injEq] at h; exact ⟨_, h.symm⟩
  | struct s =>
    unfold Kind.parse at h
    cases hp : structParse ⟨bs.length⟩ s.fields bs with
    | error e => simp [hp, Except.map] at h
    | ok y =>
      simp only [hp, Except.map, Except.ok.injEq] at h
      exact ⟨y.1, h.symm, structParse_typed (fields_nodup s) (r := y.2) hp⟩
  | automation =>
    unfold Kind.parse at h
    dsimp only at h
    unfold autoParse at h
    split at h
    · cases h
    · next hp =>
      split at h
      · cases h
      · split at h
        · cases h
        · cases h
          exact ⟨_, _, _, rfl, structParse_typed autoHead_nodup hp⟩
  | unknown => intro l hl; cases hl
  | list _ => intro l hl; cases hl
  | routing => intro l hl; cases hl
  | notebook => intro l hl; cases hl
  | vst => intro l hl; cases hl

theorem parsed_typed {file : Bytes} {p : Project} (h : parseFile file = .ok p) : Typed p.events := by
  obtain ⟨_, _, _, _, _, _, _, _, _, _, data, _, _, _, _, _, _, _, _, fs, _, hd⟩ := parse_iff.1 h
  intro e he
  obtain ⟨pre, post, hsplit⟩ := List.append_of_mem he
  refine ⟨fun k hk => ?_, ?_⟩
  · have := (parseFile_wellTyped h pre e post hsplit).2.1
    unfold kindOf at this
    rw [hk] at this
    exact (Option.some.inj this).symm
  · have : ∀ before fs evs, Decoded before fs evs → ∀ e ∈ evs, ∃ bs, e.kind.parse bs = .ok e.value := by
      intro before fs evs hd
      induction hd with
      | nil => intro e he; cases he
      | cons d t ih =>
        intro e he
        rcases List.mem_cons.1 he with rfl | he
        · exact ⟨_, d.value⟩
        · exact ih e he
    obtain ⟨bs, hb⟩ := this _ _ _ hd e he
    exact kindParse_typed hb

end

/-! ### Descriptors on typed events -/

/-- Whether the property refers to something events of this class have. -/
def accOk : Access → Option Kind → Bool
  | .event, _ => true
  | .field key, some k => (fieldsOf k).any fun nf => nf.1 == key
  | .flag members bits key _, some k =>
    bits != 0 && bits &&& members == bits &&
    if k.isStruct then
      match k with
      | .struct s => s.fields.any fun nf => nf.1 == key && match nf.2.leaf with | .int _ false | .flagsS _ => true | _ => false
      | _ => false
    else match k.leaf with | some (.int _ false) => true | _ => false
  | _, none => false

/-- The events a property may find, and their classes. -/
def PropRow.idsOf (p : PropRow) : List Nat := if p.ids = [] then p.view else p.ids

@[inherit_doc PropRow.idsOf]
def PropRow.kindAt (p : PropRow) (id : Nat) : Option Kind :=
  if id = 213 then pluginClasses.lookup p.cls else enumType enums id

/-- All ids of the property fit. -/
def PropRow.ok (p : PropRow) : Bool := p.idsOf.all fun id => accOk p.acc (p.kindAt id)

theorem table_ok : ∀ p ∈ propTable, p.cls ≠ "Arp" → p.ok = true := by decide +kernel


theorem lookup_mem {α β : Type} [BEq α] [LawfulBEq α] {l : List (α × β)} {a : α} {b : β} (h : l.lookup a = some b) :
    (a, b) ∈ l := by
  induction l with
  | nil => cases h
  | cons x l ih =>
    obtain ⟨a', b'⟩ := x
    rw [List.lookup_cons] at h
    split at h
    · next e => cases h; rw [eq_of_beq e]; simp
    · exact List.mem_cons_of_mem _ (ih h)

theorem lookup_of_names {r : Rec} {key : String} (h : key ∈ r.map Prod.fst) : ∃ v, Rec.lookup r key = some v := by
  induction r with
  | nil => cases h
  | cons x r ih =>
    obtain ⟨n, v⟩ := x
    unfold Rec.lookup
    by_cases e : n = key
    · exact ⟨v, by rw [if_pos e]⟩
    · rw [if_neg e]
      refine ih ?_
      rcases List.mem_cons.1 h with h | h
      · exact absurd h.symm e
      · exact h

/-- The record with the fields of an event. -/
theorem typed_fields {e : Event} (h : ValueTyped e.kind e.value) (hf : fieldsOf e.kind ≠ []) :
    ∃ r, FieldsTyped (fieldsOf e.kind) r ∧ (∀ key, fieldOf e key = Rec.lookup r key) ∧
      (∀ key, structGet e key = match Rec.lookup r key with | some v => .ok v | none => .error .keyError) ∧
      (∀ key x, structSet e key x = match Rec.lookup r key with
        | none => .error .keyError
        | some none => .error .propertyCannotBeSet
        | some (some _) => .ok { e with value := match e.value with
            | .auto _ p t => .auto (Rec.update r key x) p t
            | _ => .fields (Rec.update r key x) }) ∧
      (e.value = .fields r ∨ ∃ p t, e.value = .auto r p t) := by
  obtain ⟨id, kind, value, len⟩ := e
  cases kind with
  | struct s =>
    obtain ⟨r, rfl, h2⟩ := h
    exact ⟨r, h2, fun key => rfl, fun key => rfl, fun key x => rfl, .inl rfl⟩
  | automation =>
    obtain ⟨r, p, t, rfl, h2⟩ := h
    exact ⟨r, h2, fun key => rfl, fun key => rfl, fun key x => rfl, .inr ⟨p, t, rfl⟩⟩
  | _ => exact absurd rfl hf

/-- Reading a property from an event of the right class. -/
theorem get_typed (ver : PyVer) (ids : List Nat) (d : Option Value) (a : Access) {e : Event}
    (h : ValueTyped e.kind e.value) (ha : accOk a (some e.kind) = true) :
    ∃ v, (a.descr ver ids d).get e = .ok v ∧ Content a e v := by
  cases a with
  | event => exact ⟨some e.value, rfl, rfl⟩
  | field key =>
    simp only [accOk, List.any_eq_true, beq_iff_eq] at ha
    obtain ⟨nf, hm, rfl⟩ := ha
    obtain ⟨r, h1, h2, h3, -⟩ := typed_fields h (fun hc => by rw [hc] at hm; cases hm)
    obtain ⟨v, hv⟩ := lookup_of_names (r := r) (key := nf.1) (by rw [h1.names]; exact List.mem_map.2 ⟨nf, hm, rfl⟩)
    refine ⟨v, ?_, ?_⟩
    · show structGet e nf.1 = _
      rw [h3, hv]
    · show fieldOf e nf.1 = _
      rw [h2, hv]
  | flag members bits key inverted =>
    simp only [accOk, Bool.and_eq_true] at ha
    obtain ⟨-, ha⟩ := ha
    by_cases hs : e.kind.isStruct = true
    · rw [if_pos hs] at ha
      have hstr : ∃ s, e.kind = .struct s := by
        split at ha
        · next s hk => exact ⟨s, hk⟩
        · cases ha
      obtain ⟨s, hk⟩ := hstr
      rw [hk] at ha h
      simp only [List.any_eq_true, Bool.and_eq_true, beq_iff_eq] at ha
      obtain ⟨⟨n, f⟩, hm, rfl, hleaf⟩ := ha
      obtain ⟨r, hr, ht⟩ := h
      obtain ⟨v, hv⟩ := lookup_of_names (r := r) (key := n) (by rw [ht.names]; exact List.mem_map.2 ⟨_, hm, rfl⟩)
      have hget : structGet e n = .ok v := by unfold structGet; rw [hr]; dsimp only; rw [hv]
      have hfo : fieldOf e n = some v := by unfold fieldOf; rw [hr]; exact hv
      have hd : ∀ x, flagRead bits inverted v = x → ((Access.flag members bits n inverted).descr ver ids d).get e = x := by
        rintro x rfl
        show (if e.kind.isStruct then _ else _) = _
        rw [if_pos hs, hget]
      cases v with
      | none => exact ⟨none, hd _ rfl, .inr ⟨hfo, rfl⟩⟩
      | some x =>
        have hx := ht.values n f x hm hv
        have : ∃ m : Nat, x = .int m := by
          dsimp only at hleaf
          split at hleaf
          · next hl =>
            rw [hl] at hx
            cases x <;> first | (exact hx.elim) | exact ⟨_, by rw [Int.toNat_of_nonneg hx]⟩
          · next hl =>
            rw [hl] at hx
            cases x <;> first | (exact hx.elim) | exact ⟨_, by rw [Int.toNat_of_nonneg hx]⟩
          · cases hleaf
        obtain ⟨m, rfl⟩ := this
        refine ⟨some (decide (m &&& bits = bits) != inverted), hd _ ?_, .inl ⟨m, .inr ⟨hs, r, hr, hv⟩, rfl⟩⟩
        simp only [flagRead, flagWord, Except.map, flagIn, Int.toNat_natCast]
        rfl
    · rw [if_neg hs] at ha
      have hl : ∃ w, e.kind.leaf = some (.int w false) := by
        split at ha
        · next hl => exact ⟨_, hl⟩
        · cases ha
      obtain ⟨w, hl⟩ := hl
      have hval : ∃ x, e.value = .lv x ∧ LeafTyped (.int w false) x := by
        generalize hk : e.kind = k at hl h
        cases k <;> first | (cases hl; done) | exact h _ hl
      obtain ⟨x, hx, hxt⟩ := hval
      have : ∃ m : Nat, x = .int m := by
        cases x <;> first | (exact hxt.elim) | exact ⟨_, by rw [Int.toNat_of_nonneg hxt]⟩
      obtain ⟨m, rfl⟩ := this
      refine ⟨some (decide (m &&& bits = bits) != inverted), ?_, .inl ⟨m, .inl ⟨by simpa using hs, hx⟩, rfl⟩⟩
      show (if e.kind.isStruct then _ else _) = _
      rw [if_neg hs, hx]
      simp only [flagRead, flagWord, Except.map, flagIn, Int.toNat_natCast]
      rfl

theorem target_id {p : PropRow} {evs : List Event} {k : Nat} {e : Event} (hm : ModelOf p evs)
    (hT : Target evs p.ids k e) : e.id ∈ p.idsOf ∧ e ∈ evs := by
  unfold PropRow.idsOf
  rcases hT with ⟨h1, h2, -⟩ | ⟨a, b, pre, post, h1, -, h2, -⟩
  · obtain ⟨x, x1, x2⟩ := hm.1 h1
    rw [h2] at x1
    cases x1
    exact ⟨by rw [if_pos h1]; exact x2, by rw [h2]; simp⟩
  · refine ⟨?_, by rw [h2]; simp⟩
    rw [if_neg (by rw [h1]; simp), h1]
    simp

/-- The event a property finds has the right class. -/
theorem target_ok {p : PropRow} (hp : p.ok = true) {evs : List Event} (ht : Typed evs) (hm : ModelOf p evs) {k : Nat}
    {e : Event} (hT : Target evs p.ids k e) : accOk p.acc (some e.kind) = true ∧ ValueTyped e.kind e.value := by
  obtain ⟨h1, h2⟩ := target_id hm hT
  obtain ⟨t1, t2⟩ := ht e h2
  refine ⟨?_, t2⟩
  have := List.all_eq_true.1 hp e.id h1
  cases hk : p.kindAt e.id with
  | none =>
    rw [hk] at this
    cases hacc : p.acc <;> rw [hacc] at this <;> first | (cases this; done) | rfl
  | some k' =>
    rw [hk] at this
    suffices h : e.kind = k' by rw [h]; exact this
    unfold PropRow.kindAt at hk
    split at hk
    · next h213 => exact hm.2 k' (lookup_mem hk) e h2 h213
    · exact t1 k' hk

theorem descr_ids (ver : PyVer) (p : PropRow) : (p.descr ver).ids = p.ids := by
  obtain ⟨_, _, _, _, a, _⟩ := p
  cases a <;> rfl

theorem descr_readonly (ver : PyVer) (p : PropRow) : (p.descr ver).readonly = false := by
  obtain ⟨_, _, _, _, a, _⟩ := p
  cases a <;> rfl

theorem descr_default (ver : PyVer) (p : PropRow) : (p.descr ver).default = defaultOf p := by
  obtain ⟨_, _, _, _, a, _⟩ := p
  cases a <;> rfl

theorem read_gives {w : World} {L : Nat → Prop} (r : WReach w L) {t : Nat} (ht : L t) (ver : PyVer) {p : PropRow}
    (hp : p.ok = true) (hty : Typed (w.events t)) (hm : ModelOf p (w.events t)) :
    ∃ v, p.read ver w t = .ok v ∧ Gives p (w.events t) v := by
  unfold PropRow.read Descr.read
  rw [descr_ids]
  rcases getEvent_spec r ht p.ids with ⟨k, ref, h1, h2, h3, h4⟩ | ⟨h0, h1, h2⟩ | ⟨h0, h1, h2⟩ | ⟨h0, h1, h2⟩
  · rw [h1]
    obtain ⟨o1, o2⟩ := target_ok hp hty hm h4
    obtain ⟨v, v1, v2⟩ := get_typed ver p.ids p.default p.acc o2 o1
    exact ⟨v, v1, .inl ⟨k, _, h4, v2⟩⟩
  · rw [h1]
    exact ⟨_, rfl, .inr ⟨h0, h2, descr_default ver p⟩⟩
  · obtain ⟨e, he, -⟩ := hm.1 h0
    rw [h1] at he; cases he
  · obtain ⟨e, he, -⟩ := hm.1 h0
    rw [he] at h1; simp at h1

/-- C75, reading. -/
theorem C75_readable_partial {w : World} {L : Nat → Prop} (r : WReach w L) {t : Nat} (ht : L t) (ver : PyVer)
    (p : PropRow) (hp : p ∈ propTable) (hArp : p.cls ≠ "Arp") (hty : Typed (w.events t))
    (hm : ModelOf p (w.events t)) : ∃ v, p.read ver w t = .ok v ∧ Gives p (w.events t) v :=
  read_gives r ht ver (table_ok p hp hArp) hty hm


/-! ### Assigning -/

theorem fieldsTyped_update {fs : Fields} {r : Rec} {key : String} {x : LV} (h : FieldsTyped fs r)
    {old : Option LV} (hl : Rec.lookup r key = some old) (hx : ∀ f, (key, f) ∈ fs → LeafTyped f.leaf x) :
    FieldsTyped fs (Rec.update r key (some x)) := by
  obtain ⟨u1, u2, u3⟩ := lookup_update hl (some x)
  refine ⟨u2.trans h.names, fun n f y hm hy => ?_⟩
  by_cases e : n = key
  · subst e
    rw [u1] at hy
    cases hy
    exact hx f hm
  · rw [u3 n e] at hy
    exact h.values n f y hm hy

theorem field_unique {fs : Fields} (hn : (fs.map Prod.fst).Nodup) {n : String} {f f' : Fld} (h : (n, f) ∈ fs)
    (h' : (n, f') ∈ fs) : f = f' := by
  induction fs with
  | nil => cases h
  | cons x fs ih =>
    rw [List.map_cons, List.nodup_cons] at hn
    rcases List.mem_cons.1 h with h1 | h1
    · rcases List.mem_cons.1 h' with h2 | h2
      · rw [← h1] at h2; cases h2; rfl
      · exact absurd (h1 ▸ List.mem_map.2 ⟨_, h2, rfl⟩) hn.1
    · rcases List.mem_cons.1 h' with h2 | h2
      · exact absurd (h2 ▸ List.mem_map.2 ⟨_, h1, rfl⟩) hn.1
      · exact ih hn.2 h1 h2

theorem flagWord_unique {e : Event} {key : String} {n m : Nat} (h : FlagWord e key n) (h' : FlagWord e key m) :
    n = m := by
  rcases h with ⟨h1, h2⟩ | ⟨h1, r, h2, h3⟩ <;> rcases h' with ⟨g1, g2⟩ | ⟨g1, r', g2, g3⟩
  · rw [h2] at g2; injection g2 with g2; injection g2 with g2; exact Int.ofNat.inj g2
  · rw [h1] at g1; cases g1
  · rw [h1] at g1; cases g1
  · rw [h2] at g2; cases g2
    rw [h3] at g3
    injection g3 with g3; injection g3 with g3; injection g3 with g3
    exact Int.ofNat.inj g3

theorem content_unique {a : Access} {e : Event} {v v' : Option a.type} (h : Content a e v) (h' : Content a e v') :
    v = v' := by
  cases a with
  | event => exact h.trans h'.symm
  | field key => exact Option.some.inj (h.symm.trans h')
  | flag members bits key inverted =>
    have hno : ∀ n, FlagWord e key n → fieldOf e key ≠ some none := by
      rintro n (⟨h1, h2⟩ | ⟨h1, r, h2, h3⟩) hc
      · unfold fieldOf at hc; rw [h2] at hc; cases hc
      · unfold fieldOf at hc; rw [h2] at hc; dsimp only at hc; rw [h3] at hc; cases hc
    rcases h with ⟨n, h1, rfl⟩ | ⟨h1, rfl⟩ <;> rcases h' with ⟨m, g1, rfl⟩ | ⟨g1, rfl⟩
    · rw [flagWord_unique h1 g1]
    · exact absurd g1 (hno n h1)
    · exact absurd h1 (hno m g1)
    · rfl

theorem flag_holds {bits m : Nat} (hb : bits ≠ 0) {on : Bool} (h : ∀ i, bits.testBit i = true → m.testBit i = on) :
    decide (m &&& bits = bits) = on := by
  cases on with
  | true =>
    refine decide_eq_true (Nat.eq_of_testBit_eq fun i => ?_)
    rw [Nat.testBit_and]
    cases hi : bits.testBit i with
    | false => simp
    | true => simp [h i hi]
  | false =>
    refine decide_eq_false fun hc => ?_
    obtain ⟨i, hi⟩ := Nat.exists_testBit_of_ne_zero hb
    have := congrArg (fun k => k.testBit i) hc
    simp only [Nat.testBit_and, hi, h i hi] at this
    cases this

/-- Assigning to a property of an event of the right class. -/
theorem set_typed (ver : PyVer) (ids : List Nat) (d : Option Value) (a : Access) {e : Event}
    (h : ValueTyped e.kind e.value) (ha : accOk a (some e.kind) = true) (x : a.type) :
    (∀ old, Content a e (some old) → Accepts a e x →
      ∃ v', (a.descr ver ids d).set e x = .ok { e with value := v' } ∧ ValueTyped e.kind v' ∧
        Content a { e with value := v' } (some x)) ∧
    (Content a e none → ∃ err, (a.descr ver ids d).set e x = .error err ∧
      (err = .propertyCannotBeSet ∨ err = .typeError)) := by
  cases a with
  | event =>
    refine ⟨fun old hc hx => ⟨x, rfl, hx, rfl⟩, fun hc => ?_⟩
    cases hc
  | field key =>
    have ha' := ha
    simp only [accOk, List.any_eq_true, beq_iff_eq] at ha'
    obtain ⟨nf, hm, rfl⟩ := ha'
    obtain ⟨r, h1, h2, h3, h4, h5⟩ := typed_fields h (fun hc => by rw [hc] at hm; cases hm)
    constructor
    · intro old hc hx
      have hlk : Rec.lookup r nf.1 = some (some old) := by rw [← h2]; exact hc
      have hup := fieldsTyped_update h1 hlk (x := x) hx
      have hs : structSet e nf.1 (some x) = _ := h4 nf.1 (some x)
      rw [hlk] at hs
      dsimp only at hs
      refine ⟨_, hs, ?_, ?_⟩
      · generalize hk : e.kind = k at hup h
        cases k with
        | struct s =>
          obtain ⟨r', hv, _⟩ := h
          rw [hv]
          exact ⟨_, rfl, hup⟩
        | automation =>
          obtain ⟨r', p, t, hv, _⟩ := h
          rw [hv]
          exact ⟨_, _, _, rfl, hup⟩
        | _ => rw [hk] at hm; cases hm
      · obtain ⟨u1, -, -⟩ := lookup_update hlk (some x)
        show fieldOf _ nf.1 = _
        unfold fieldOf
        rcases h5 with h5 | ⟨p, t, h5⟩ <;> · rw [h5]; exact u1
    · intro hc
      have hlk : Rec.lookup r nf.1 = some none := by rw [← h2]; exact hc
      refine ⟨.propertyCannotBeSet, ?_, .inl rfl⟩
      show structSet e nf.1 (some x) = _
      rw [h4, hlk]
  | flag members bits key inverted =>
    have ha' := ha
    simp only [accOk, Bool.and_eq_true, bne_iff_ne, ne_eq, beq_iff_eq] at ha'
    obtain ⟨⟨hb, hsub⟩, hcls⟩ := ha'
    constructor
    · intro old hc _
      rcases hc with ⟨n, hw, -⟩ | ⟨-, hc⟩
      · obtain ⟨e', m, s1, s2, s3, ⟨v, rfl⟩, s5⟩ := flag_set (ver := ver) (members := members) (flag := bits)
          (ids := ids) (inverted := inverted) (default := none) hw x
        refine ⟨v, s1, ?_, .inl ⟨m, s3, ?_⟩⟩
        · rcases hw with ⟨k1, k2⟩ | ⟨k1, r, k2, k3⟩
          · rcases s3 with ⟨g1, g2⟩ | ⟨g1, -⟩
            · dsimp only at g2
              subst g2
              rw [if_neg (by rw [k1]; simp)] at hcls
              generalize e.kind = k at *
              cases k <;> first
                | (cases hcls; done)
                | (intro l hl; cases hl; exact ⟨_, rfl, Int.natCast_nonneg m⟩)
            · dsimp only at g1; rw [k1] at g1; cases g1
          · rw [if_pos k1] at hcls
            have hstr : ∃ s, e.kind = .struct s := by
              split at hcls
              · next s hk => exact ⟨s, hk⟩
              · cases hcls
            obtain ⟨s, hk⟩ := hstr
            rw [hk] at hcls h ⊢
            simp only [List.any_eq_true, Bool.and_eq_true, beq_iff_eq] at hcls
            obtain ⟨⟨n', f⟩, hm, rfl, hleaf⟩ := hcls
            obtain ⟨r', hr', ht⟩ := h
            rw [k2] at hr'; cases hr'
            rcases s3 with ⟨g1, -⟩ | ⟨-, r'', g2, g3⟩
            · dsimp only at g1; rw [k1] at g1; cases g1
            · dsimp only at g2
              subst g2
              have hsg : structGet e n' = .ok (some (.int n)) := by unfold structGet; rw [k2]; dsimp only; rw [k3]
              have s1' : (match structGet e n' with
                  | .error y => (.error y : Py Event)
                  | .ok word =>
                    match flagWrite ver members bits inverted word x with
                    | .error y => .error y
                    | .ok word' => structSet e n' word') = .ok { e with value := .fields r'' } := by
                have : (if e.kind.isStruct then _ else _) = _ := s1
                rw [if_pos k1] at this
                exact this
              rw [hsg] at s1'
              simp only [flagWrite, flagWord, Except.map] at s1'
              unfold structSet at s1'
              rw [k2] at s1'
              dsimp only at s1'
              rw [k3] at s1'
              dsimp only at s1'
              injection s1' with s1'
              injection s1' with _ _ s1' _
              injection s1' with s1'
              refine ⟨r'', rfl, ?_⟩
              rw [← s1']
              refine fieldsTyped_update ht k3 fun f' hf' => ?_
              rw [field_unique (fields_nodup s) hf' hm]
              have hnn : 0 ≤ (if (x != inverted) = true then flagOr (n : Int) bits else flagAndNot ver members n bits) := by
                rw [← s2]; exact Int.natCast_nonneg m
              dsimp only at hleaf
              split at hleaf
              · next hl => rw [hl]; exact hnn
              · next hl => rw [hl]; exact hnn
              · cases hleaf
        · obtain ⟨b1, -⟩ := flag_bits hb hsub s2
          rw [flag_holds hb b1]
          cases x <;> cases inverted <;> rfl
      · cases hc
    · rintro (⟨n, -, hc⟩ | ⟨hc, -⟩)
      · cases hc
      · refine ⟨.typeError, ?_, .inr rfl⟩
        by_cases hs : e.kind.isStruct = true
        · show (if e.kind.isStruct then _ else _) = _
          rw [if_pos hs]
          have : structGet e key = .ok none := by
            unfold fieldOf at hc
            unfold structGet
            split at hc
            · next hv => rw [hv]; dsimp only; rw [hc]
            · next hv => rw [hv]; dsimp only; rw [hc]
            · cases hc
          rw [this]
          rfl
        · show (if e.kind.isStruct then _ else _) = _
          rw [if_neg hs]
          unfold fieldOf at hc
          split at hc
          · next hv => rw [hv]
          · next hv => rw [hv]
          · cases hc

/-- What an assignment does. -/
theorem write_typed {w : World} {L : Nat → Prop} (r : WReach w L) {t : Nat} (ht : L t) (ver : PyVer) {p : PropRow}
    (hp : p.ok = true) (hty : Typed (w.events t)) (hm : ModelOf p (w.events t)) {k : Nat} {e : Event}
    (hT : Target (w.events t) p.ids k e) (x : p.type) :
    (∀ old, Content p.acc e (some old) → Accepts p.acc e x →
      ∃ w' v', p.write ver w t x = (w', .ok ()) ∧ p.read ver w' t = .ok (some x) ∧ ValueTyped e.kind v' ∧
        Content p.acc { e with value := v' } (some x) ∧ w'.events t = (w.events t).set k { e with value := v' } ∧
        (∃ i, w.project.events[i]? = some e ∧
          w'.project = { w.project with events := w.project.events.set i { e with value := v' } }) ∧ WReach w' L) ∧
    (Content p.acc e none → ∃ err, p.write ver w t x = (w, .error err) ∧
      (err = .propertyCannotBeSet ∨ err = .typeError)) := by
  obtain ⟨o1, o2⟩ := target_ok hp hty hm hT
  obtain ⟨ref, g1, g2, g3, g4, ⟨i, i1, i2, i3⟩, g5⟩ :=
    write_spec r ht (p.descr ver) (descr_readonly ver p) x (k := k) (e := e) (by rw [descr_ids]; exact hT)
  obtain ⟨s1, s2⟩ := set_typed ver p.ids p.default p.acc o2 o1 x
  constructor
  · intro old hc hx
    obtain ⟨v', a1, a2, a3⟩ := s1 old hc hx
    have hw : p.write ver w t x = (w.setEv ref { e with value := v' }, .ok ()) := by
      unfold PropRow.write
      rw [g5]
      unfold PropRow.descr
      rw [a1]
    have hread : p.read ver (w.setEv ref { e with value := v' }) t = .ok (some x) := by
      unfold PropRow.read Descr.read
      rw [getEvent_congr (w := w) (by rfl), g4]
      dsimp only
      rw [World.ev_setEv, if_pos ⟨rfl, g3⟩]
      obtain ⟨v, b1, b2⟩ := get_typed ver p.ids p.default p.acc (e := { e with value := v' }) a2 o1
      unfold PropRow.descr
      rw [b1, content_unique b2 a3]
    refine ⟨_, v', hw, hread, a2, a3, events_setEv _ (refs_nodup r ht) g2 g3, ⟨i, i2, i3 _⟩, ?_⟩
    rw [g1]
    exact .assign r ref v'
  · intro hc
    obtain ⟨err, a1, a2⟩ := s2 hc
    refine ⟨err, ?_, a2⟩
    unfold PropRow.write
    rw [g5]
    unfold PropRow.descr
    rw [a1]

theorem typed_view {w : World} {L : Nat → Prop} (r : WReach w L) {t : Nat} (ht : L t) (h : Typed w.project.events) :
    Typed (w.events t) := by
  intro e he
  refine h e ?_
  show e ∈ w.events 0
  rw [World.events_eq] at he ⊢
  obtain ⟨x, hx, rfl⟩ := List.mem_map.1 he
  exact List.mem_map.2 ⟨x, (wreach_sub r ht).1.mem hx, rfl⟩

/-- C75, assigning: a property that has a value can be assigned; then it has the new value, and the project is as well-typed as
before.  If the event is there but not the field, assigning raises and nothing changes. -/
theorem C75_assignable_partial {w : World} {L : Nat → Prop} (r : WReach w L) {t : Nat} (ht : L t) (ver : PyVer)
    (p : PropRow) (hp : p ∈ propTable) (hArp : p.cls ≠ "Arp") (hty : Typed w.project.events)
    (hm : ModelOf p (w.events t)) {k : Nat} {e : Event} (hT : Target (w.events t) p.ids k e) (x : p.type) :
    (∀ old, Content p.acc e (some old) → Accepts p.acc e x →
      ∃ w', p.write ver w t x = (w', .ok ()) ∧ p.read ver w' t = .ok (some x) ∧ Typed w'.project.events ∧
        ∃ i v', w.project.events[i]? = some e ∧
          w'.project = { w.project with events := w.project.events.set i { e with value := v' } }) ∧
    (Content p.acc e none → ∃ err, p.write ver w t x = (w, .error err)) := by
  obtain ⟨s1, s2⟩ := write_typed r ht ver (table_ok p hp hArp) (typed_view r ht hty) hm hT x
  constructor
  · intro old hc hx
    obtain ⟨w', v', a1, a2, a3, -, -, ⟨i, i1, i2⟩, -⟩ := s1 old hc hx
    refine ⟨w', a1, a2, ?_, i, v', i1, i2⟩
    rw [i2]
    intro y hy
    rcases List.mem_or_eq_of_mem_set hy with hy | rfl
    · exact hty y hy
    · exact ⟨(hty e (List.mem_of_getElem? i1)).1, a3⟩
  · intro hc
    obtain ⟨err, h, -⟩ := s2 hc
    exact ⟨err, h⟩


/-- C75 is false for the arpeggiator: every one of its properties raises `KeyError`, whatever the file (the fields are
called `arp.chord` and so on, the properties look for `chord`). -/
theorem C75_arp_refuted {w : World} {L : Nat → Prop} (r : WReach w L) {t : Nat} (ht : L t) (ver : PyVer)
    (p : PropRow) (hp : p ∈ propTable) (hArp : p.cls = "Arp") (hty : Typed (w.events t))
    (hm : ModelOf p (w.events t)) :
    p.read ver w t = .error .keyError ∧ ∀ x, p.write ver w t x = (w, .error .keyError) := by
  have hrow : p.ids = [] ∧ p.view = [215] ∧ ∃ key, p.acc = .field key ∧
      key ∉ (SName.fields .parameters).map Prod.fst := by
    have : ∀ p ∈ propTable, p.cls = "Arp" → p.ids = [] ∧ p.view = [215] ∧
        (match p.acc with | .field key => decide (key ∉ (SName.fields .parameters).map Prod.fst) | _ => false) = true := by
      decide +kernel
    obtain ⟨h1, h2, h3⟩ := this p hp hArp
    refine ⟨h1, h2, ?_⟩
    split at h3
    · next key hk => exact ⟨key, hk, of_decide_eq_true h3⟩
    · cases h3
  obtain ⟨h1, h2, key, h3, h4⟩ := hrow
  obtain ⟨e, e1, e2⟩ := hm.1 h1
  rw [h2] at e2
  have hid : e.id = 215 := by simpa using e2
  have he : e ∈ w.events t := by rw [e1]; simp
  obtain ⟨t1, t2⟩ := hty e he
  have hk : e.kind = .struct .parameters := t1 _ (by rw [hid]; decide +kernel)
  rw [hk] at t2
  obtain ⟨rec, r1, r2⟩ := t2
  have hlk : Rec.lookup rec key = none := by
    cases hl : Rec.lookup rec key with
    | none => rfl
    | some v =>
      have : ∀ (rec : Rec) v, Rec.lookup rec key = some v → key ∈ rec.map Prod.fst := by
        intro rec
        induction rec with
        | nil => intro v h; cases h
        | cons y rec ih =>
          intro v h
          unfold Rec.lookup at h
          split at h
          · next hn => rw [← hn]; simp
          · exact List.mem_cons_of_mem _ (ih v h)
      exact absurd (r2.names ▸ this rec v hl) h4
  have hT : Target (w.events t) p.ids 0 e := .inl ⟨h1, e1, rfl⟩
  obtain ⟨_, _, ids, _, acc, dflt⟩ := p
  dsimp only at h3 h1 hT
  subst h3
  constructor
  · unfold PropRow.read Descr.read
    rw [descr_ids]
    rcases getEvent_spec r ht ids with ⟨k, ref, g1, g2, g3, g4⟩ | ⟨h0, _⟩ | ⟨_, h0, _⟩ | ⟨_, h0, _⟩
    · rw [g1]
      obtain ⟨-, hee⟩ := target_unique g4 hT
      show structGet (w.ev ref) key = _
      rw [hee]
      unfold structGet
      rw [r1]
      dsimp only
      rw [hlk]
    · exact absurd h1 h0
    · rw [e1] at h0; cases h0
    · rw [e1] at h0; simp at h0
  · intro x
    obtain ⟨ref, -, -, -, -, -, g5⟩ :=
      write_spec r ht (PropRow.descr ver ⟨_, _, ids, _, .field key, dflt⟩) rfl x (k := 0) (e := e) hT
    unfold PropRow.write
    rw [g5]
    have : (PropRow.descr ver ⟨_, _, ids, _, .field key, dflt⟩).set e x = .error .keyError := by
      show structSet e key (some x) = _
      unfold structSet
      rw [r1]
      dsimp only
      rw [hlk]
    rw [this]

/-! ### Programs that parse a file and use models -/

namespace Spec

/-- The states of a program that parses a file, makes views, removes events, inserts events with values of the right type
and assigns values of the right type to properties of the table. -/
inductive PropReach [FloatEnv] : World → (Nat → Prop) → Prop
  | parsed {file p} (h : parseFile file = .ok p) : PropReach (World.ofProject p) (· = 0)
  | view {w L t} (r : PropReach w L) (ht : L t) (hne : shown w.heap 0 ≠ []) (call : ViewCall) :
      PropReach { w with heap := (PyFLP.Spec.view w.heap t call).1 } (fun u => L u ∨ u ∈ (PyFLP.Spec.view w.heap t call).2)
  | pop {w L t id n h' x} (r : PropReach w L) (ht : L t) (hp : w.heap.pop t id n = (h', .ok x)) :
      PropReach { w with heap := h' } (fun u => L u ∧ ∀ v ∈ u :: w.heap.ancestors u,
        v ∈ t :: w.heap.ancestors t ∨ x ∉ (shown w.heap v).map Prod.fst)
  | assign {w L t w'} (r : PropReach w L) (ht : L t) (ver : PyVer) (p : PropRow) (hp : p ∈ propTable)
      (hm : ModelOf p (w.events t)) (x : p.type) (hx : ∀ k e, Target (w.events t) p.ids k e → Accepts p.acc e x)
      (hw : p.write ver w t x = (w', .ok ())) : PropReach w' L
  | insert {w L t pos h'} (r : PropReach w L) (ht : L t) (e : Event) (he : Typed [e])
      (hi : w.heap.insert t pos w.store.length e.id = (h', .ok ())) :
      PropReach { w with heap := h', store := w.store ++ [e] } (fun u => L u ∧ ∀ v ∈ u :: w.heap.ancestors u,
        v ∈ t :: w.heap.ancestors t → v = 0)

end Spec

/-- C75: in all these states every event has the type of its id. -/
theorem C75_typed [FloatEnv] {w : World} {L : Nat → Prop} (r : PropReach w L) : WReach w L ∧ Typed w.project.events := by
  induction r with
  | parsed h => exact ⟨.parsed _, by rw [ofProject_project]; exact parsed_typed h⟩
  | @view w L t r ht hne call ih =>
    obtain ⟨i1, i2⟩ := ih
    refine ⟨.view i1 ht hne call, ?_⟩
    obtain ⟨g, _⟩ := reach_good (wreach_inv i1).1
    have : ({ w with heap := (PyFLP.Spec.view w.heap t call).1 } : World).events 0 = w.events 0 := by
      rw [World.events_eq, World.events_eq]
      dsimp only
      rw [shown_view (g.lt t ht) call (g.lt 0 g.vρ)]
      rfl
    intro e he
    refine i2 e ?_
    have he' : e ∈ ({ w with heap := (PyFLP.Spec.view w.heap t call).1 } : World).events 0 := he
    rw [this] at he'
    exact he'
  | @pop w L t id n h' x r ht hp ih =>
    obtain ⟨i1, i2⟩ := ih
    refine ⟨.pop i1 ht hp, ?_⟩
    intro e he
    refine i2 e ?_
    have he' : e ∈ ({ w with heap := h' } : World).events 0 := he
    show e ∈ w.events 0
    rw [World.events_eq] at he' ⊢
    obtain ⟨y, hy, rfl⟩ := List.mem_map.1 he'
    exact List.mem_map.2 ⟨y, (shown_pop (wreach_inv i1).1 ht hp).mem hy, rfl⟩
  | @assign w L t w' r ht ver p hp hm x hx hw ih =>
    obtain ⟨i1, i2⟩ := ih
    by_cases hArp : p.cls = "Arp"
    · rw [(C75_arp_refuted i1 ht ver p hp hArp (typed_view i1 ht i2) hm).2 x] at hw
      cases hw
    · have hT : ∃ k e, Target (w.events t) p.ids k e := by
        rcases getEvent_spec i1 ht p.ids with ⟨k, ref, _, _, _, h4⟩ | ⟨h0, h1, _⟩ | ⟨_, _, h1⟩ | ⟨_, _, h1⟩
        · exact ⟨k, _, h4⟩
        all_goals
          unfold PropRow.write Descr.write at hw
          rw [descr_readonly, descr_ids, h1] at hw
          simp at hw
      obtain ⟨k, e, hT⟩ := hT
      obtain ⟨s1, s2⟩ := C75_assignable_partial i1 ht ver p hp hArp i2 hm hT x
      obtain ⟨o1, o2⟩ := target_ok (table_ok p hp hArp) (typed_view i1 ht i2) hm hT
      obtain ⟨v, -, hv⟩ := get_typed ver p.ids p.default p.acc o2 o1
      cases v with
      | none =>
        obtain ⟨err, h⟩ := s2 hv
        rw [h] at hw; cases hw
      | some old =>
        obtain ⟨s1, -⟩ := write_typed i1 ht ver (table_ok p hp hArp) (typed_view i1 ht i2) hm hT x
        obtain ⟨w'', v', a1, a2, a3, -, -, ⟨i, j1, j2⟩, a6⟩ := s1 old hv (hx k e hT)
        rw [a1] at hw
        injection hw with hw _
        subst hw
        refine ⟨a6, ?_⟩
        rw [j2]
        intro y hy
        rcases List.mem_or_eq_of_mem_set hy with hy | rfl
        · exact i2 y hy
        · exact ⟨(i2 e (List.mem_of_getElem? j1)).1, a3⟩
  | insert r ht e he hi ih =>
    obtain ⟨i1, i2⟩ := ih
    refine ⟨.insert i1 ht e hi, ?_⟩
    obtain ⟨k, hk⟩ := inserted_events i1 ht hi
    rw [hk]
    intro x hx
    rcases List.mem_append.1 hx with hx | hx
    · exact i2 x (List.mem_of_mem_take hx)
    · rcases List.mem_cons.1 hx with rfl | hx
      · exact he x (by simp)
      · exact i2 x (List.mem_of_mem_drop hx)

/-- C75: so in all these states every property of the table, except those of the arpeggiator, can be read. -/
theorem C75_programs_partial [FloatEnv] {w : World} {L : Nat → Prop} (r : PropReach w L) {t : Nat} (ht : L t) (ver : PyVer)
    (p : PropRow) (hp : p ∈ propTable) (hArp : p.cls ≠ "Arp") (hm : ModelOf p (w.events t)) :
    ∃ v, p.read ver w t = .ok v ∧ Gives p (w.events t) v := by
  obtain ⟨h1, h2⟩ := C75_typed r
  exact C75_readable_partial h1 ht ver p hp hArp (typed_view h1 ht h2) hm


/-! ## C76 -/

namespace Spec

/-- Accesses to different parts of the same event: different fields, or flags of the same class without a common bit. -/
def disjoint : Access → Access → Bool
  | .field a, .field b => a != b
  | .field a, .flag _ _ b _ => a != b
  | .flag _ _ a _, .field b => a != b
  | .flag m f _ _, .flag m' f' _ _ => f &&& f' == 0 && f != 0 && m == m' && f &&& m == f && f' &&& m' == f'
  | _, _ => false

/-- Properties that stand for different events, or for different parts of the same event. -/
def apart (p q : PropRow) : Bool := p.idsOf.all fun id => !q.idsOf.contains id || disjoint p.acc q.acc

end Spec

theorem structSet_get {e e' : Event} {key key' : String} {x : Option LV} (h : structSet e key x = .ok e') :
    e'.kind = e.kind ∧ (key' ≠ key → structGet e' key' = structGet e key') ∧ structGet e' key = .ok x := by
  unfold structSet at h
  split at h
  · next r hv =>
    split at h
    · cases h
    · cases h
    · next old hl =>
      cases h
      obtain ⟨u1, -, u3⟩ := lookup_update hl x
      refine ⟨rfl, fun hk => ?_, ?_⟩
      · unfold structGet; rw [hv]; dsimp only; rw [u3 key' hk]
      · unfold structGet; dsimp only; rw [u1]
  · next r pts tl hv =>
    split at h
    · cases h
    · cases h
    · next old hl =>
      cases h
      obtain ⟨u1, -, u3⟩ := lookup_update hl x
      refine ⟨rfl, fun hk => ?_, ?_⟩
      · unfold structGet; rw [hv]; dsimp only; rw [u3 key' hk]
      · unfold structGet; dsimp only; rw [u1]
  · cases h

theorem flagRead_flagWrite {ver : PyVer} {members f f' : Nat} {inv inv' v : Bool} {word word' : Option LV}
    (hd : f &&& f' = 0) (hf : f ≠ 0) (hs : f &&& members = f) (hs' : f' &&& members = f')
    (h : flagWrite ver members f inv word v = .ok word') : flagRead f' inv' word' = flagRead f' inv' word := by
  unfold flagWrite at h
  cases hw : flagWord word with
  | error e => rw [hw] at h; cases h
  | ok i =>
    rw [hw] at h
    simp only [Except.map, Except.ok.injEq] at h
    subst h
    have hz : ∃ m : Nat, (m : Int) = (if (v != inv) = true then flagOr i f else flagAndNot ver members i f) ∧
        (m : Int) = (if (v != inv) = true then flagOr (i.toNat : Int) f else flagAndNot ver members (i.toNat : Int) f) := by
      split
      · exact ⟨_, rfl, by simp only [flagOr, Int.toNat_natCast]⟩
      · cases ver
        · exact ⟨_, rfl, by simp only [flagAndNot, Int.toNat_natCast]⟩
        · exact ⟨_, rfl, by simp only [flagAndNot, Int.toNat_natCast]⟩
    obtain ⟨m, m1, m2⟩ := hz
    obtain ⟨-, -, b3⟩ := flag_bits hf hs m2
    have hbits : m &&& f' = i.toNat &&& f' := by
      refine Nat.eq_of_testBit_eq fun j => ?_
      rw [Nat.testBit_and, Nat.testBit_and]
      cases hj : f'.testBit j with
      | false => simp
      | true =>
        have h1 : f.testBit j = false := by
          have := congrArg (fun k => k.testBit j) hd
          simpa [hj] using this
        have h2 : j < Nat.log2 members + 1 := by
          have hm : members.testBit j = true := by
            have := congrArg (fun k => k.testBit j) hs'
            simpa [hj] using this
          by_cases hc : j < Nat.log2 members + 1
          · exact hc
          · have : members < 2 ^ j := Nat.lt_of_lt_of_le Nat.lt_log2_self (Nat.pow_le_pow_right (by omega) (by omega))
            rw [Nat.testBit_lt_two_pow this] at hm
            cases hm
        rw [b3 j h2 h1]
    rw [← m1]
    unfold flagRead
    cases word with
    | none => cases hw
    | some x =>
      dsimp only
      rw [hw]
      simp only [flagWord, Except.map, flagIn, Int.toNat_natCast, hbits]

/-- Setting a property leaves the other parts of the event. -/
theorem set_get_disjoint {ver ver' : PyVer} {ids ids' : List Nat} {d d' : Option Value} {a b : Access}
    (hd : disjoint a b = true) {e e' : Event} {x : a.type} (h : (a.descr ver ids d).set e x = .ok e') :
    (b.descr ver' ids' d').get e' = (b.descr ver' ids' d').get e := by
  have readFlag : ∀ (m f : Nat) (key : String) (inv : Bool) (e : Event),
      ((Access.flag m f key inv).descr ver' ids' d').get e =
        if e.kind.isStruct then (match structGet e key with
          | .error x => .error x
          | .ok word => flagRead f inv word)
        else (match e.value with
          | .lv x => flagRead f inv (some x)
          | _ => .error .typeError) := fun _ _ _ _ _ => rfl
  have other : ∀ key, (e'.kind = e.kind ∧ structGet e' key = structGet e key ∧
      (e.kind.isStruct = false → (match e'.value with
          | .lv x => some x
          | _ => none) = (match e.value with
          | .lv x => some x
          | _ => none))) → ∀ m f inv,
      ((Access.flag m f key inv).descr ver' ids' d').get e' = ((Access.flag m f key inv).descr ver' ids' d').get e := by
    intro key ⟨h1, h2, h3⟩ m f inv
    rw [readFlag, readFlag, h1, h2]
    cases hs : e.kind.isStruct with
    | true => rfl
    | false =>
      have := h3 hs
      simp only [Bool.false_eq_true, if_false]
      cases hv : e'.value <;> cases hv' : e.value <;> rw [hv, hv'] at this <;> first
        | rfl
        | (cases this; done)
        | (injection this with this; rw [this])
  cases a with
  | event => cases b <;> cases hd
  | field ka =>
    obtain ⟨s1, s2, -⟩ := structSet_get (key' := match b with | .field kb => kb | .flag _ _ kb _ => kb | .event => ka) h
    cases b with
    | event => cases hd
    | field kb =>
      simp only [disjoint, bne_iff_ne, ne_eq] at hd
      exact s2 (Ne.symm hd)
    | flag m f kb inv =>
      simp only [disjoint, bne_iff_ne, ne_eq] at hd
      refine other kb ⟨s1, s2 (Ne.symm hd), fun _ => ?_⟩ m f inv
      have h' : structSet e ka (some x) = .ok e' := h
      unfold structSet at h'
      split at h'
      · next r hv => split at h' <;> first | (cases h'; done) | (cases h'; rw [hv])
      · next r p t hv => split at h' <;> first | (cases h'; done) | (cases h'; rw [hv])
      · cases h'
  | flag ma fa ka inva =>
    have hset : (if e.kind.isStruct then (match structGet e ka with
        | .error y => (.error y : Py Event)
        | .ok word =>
          match flagWrite ver ma fa inva word x with
          | .error y => (.error y : Py Event)
          | .ok word' => structSet e ka word')
      else (match e.value with
        | .lv y =>
          match flagWrite ver ma fa inva (some y) x with
          | .ok (some y') => .ok { e with value := .lv y' }
          | .ok none => .error .typeError
          | .error y => .error y
        | _ => .error .typeError)) = .ok e' := h
    by_cases hs : e.kind.isStruct = true
    · rw [if_pos hs] at hset
      cases hg : structGet e ka with
      | error y => rw [hg] at hset; cases hset
      | ok word =>
        rw [hg] at hset
        dsimp only at hset
        cases hfw : flagWrite ver ma fa inva word x with
        | error y => rw [hfw] at hset; cases hset
        | ok word' =>
          rw [hfw] at hset
          dsimp only at hset
          cases b with
          | event => cases hd
          | field kb =>
            simp only [disjoint, bne_iff_ne, ne_eq] at hd
            exact (structSet_get (key' := kb) hset).2.1 (Ne.symm hd)
          | flag mb fb kb invb =>
            simp only [disjoint, Bool.and_eq_true, beq_iff_eq, bne_iff_ne, ne_eq] at hd
            obtain ⟨⟨⟨⟨d1, d2⟩, rfl⟩, d3⟩, d4⟩ := hd
            obtain ⟨s1, s2, s3⟩ := structSet_get (key' := kb) hset
            rw [readFlag, readFlag, s1, if_pos hs, if_pos hs]
            by_cases hk : kb = ka
            · subst hk
              rw [s3, hg]
              exact flagRead_flagWrite d1 d2 d3 d4 hfw
            · rw [s2 hk]
    · rw [if_neg hs] at hset
      split at hset
      · next y hv =>
        split at hset
        · next y' hfw =>
          cases hset
          cases b with
          | event => cases hd
          | field kb =>
            show structGet { e with value := .lv y' } kb = structGet e kb
            unfold structGet
            rw [hv]
          | flag mb fb kb invb =>
            simp only [disjoint, Bool.and_eq_true, beq_iff_eq, bne_iff_ne, ne_eq] at hd
            obtain ⟨⟨⟨⟨d1, d2⟩, rfl⟩, d3⟩, d4⟩ := hd
            rw [readFlag, readFlag]
            dsimp only
            rw [if_neg hs, if_neg hs, hv]
            exact flagRead_flagWrite d1 d2 d3 d4 hfw
        · cases hset
        · cases hset
      · cases hset

/-- C76: assigning to a property leaves every property of every model as it was, if the properties stand for different
things, or the models have no event in common. -/
theorem C76_independent {w w' : World} {L : Nat → Prop} (r : WReach w L) {t u : Nat} (ht : L t) (hu : L u)
    (ver ver' : PyVer) (p q : PropRow) (hp : ModelOf p (w.events t)) (hq : ModelOf q (w.events u)) (x : p.type)
    (hw : p.write ver w t x = (w', .ok ()))
    (hsep : apart p q = true ∨ ∀ i ∈ w.entries t, ∀ j ∈ w.entries u, i.1 ≠ j.1) :
    q.read ver' w' u = q.read ver' w u := by
  rcases getEvent_spec r ht p.ids with ⟨k, ref, h1, h2, h3, h4⟩ | ⟨_, h1, _⟩ | ⟨_, _, h1⟩ | ⟨_, _, h1⟩
  · obtain ⟨ref', g1, g2, g3, g4, -, g5⟩ :=
      write_spec r ht (p.descr ver) (descr_readonly ver p) x (k := k) (e := w.ev ref) (by rw [descr_ids]; exact h4)
    rw [descr_ids, h1] at g4
    have hrr : ref = ref' := by injection g4 with g4; injection g4
    subst hrr
    unfold PropRow.write at hw
    rw [g5] at hw
    cases hset : (p.descr ver).set (w.ev ref) x with
    | error y => rw [hset] at hw; cases hw
    | ok e' =>
      rw [hset] at hw
      injection hw with hw _
      subst hw
      unfold PropRow.read Descr.read
      rw [getEvent_congr (w := w) (by rfl), descr_ids]
      rcases getEvent_spec r hu q.ids with ⟨k', ref', j1, j2, j3, j4⟩ | ⟨_, j1, _⟩ | ⟨_, _, j1⟩ | ⟨_, _, j1⟩
      · rw [j1]
        dsimp only
        rw [World.ev_setEv]
        by_cases hc : ref' = ref
        · subst hc
          rw [if_pos ⟨rfl, h3⟩]
          rcases hsep with hsep | hsep
          · obtain ⟨i1, -⟩ := target_id hp h4
            obtain ⟨i2, -⟩ := target_id hq j4
            have := List.all_eq_true.1 hsep _ i1
            have hcon : q.idsOf.contains (w.ev ref').id = true := List.contains_iff_mem.2 i2
            rw [hcon] at this
            exact set_get_disjoint (by simpa using this) hset
          · have m1 : ref' ∈ (w.entries t).map Prod.fst := by rw [World.entries_refs]; exact List.mem_of_getElem? h2
            have m2 : ref' ∈ (w.entries u).map Prod.fst := by rw [World.entries_refs]; exact List.mem_of_getElem? j2
            obtain ⟨a, a1, a2⟩ := List.mem_map.1 m1
            obtain ⟨b, b1, b2⟩ := List.mem_map.1 m2
            exact absurd (a2.trans b2.symm) (hsep a a1 b b1)
        · rw [if_neg (fun h => hc h.1)]
      · rw [j1]
      · rw [j1]
      · rw [j1]
  all_goals
    unfold PropRow.write Descr.write at hw
    rw [descr_readonly, descr_ids, h1] at hw
    simp at hw

/-- Pairs of properties for the same value: the slot number has two names; channels and slots both have the events of
a plugin. -/
def Spec.sameValue : List ((String × String) × (String × String)) := [
  (("Slot", "iid"), ("Slot", "index")), (("Channel", "color"), ("Slot", "color")),
  (("Channel", "internal_name"), ("Slot", "internal_name")), (("Channel", "icon"), ("Slot", "icon")),
  (("Channel", "name"), ("Slot", "name"))]

/-- C76: all properties are apart, except for the pairs above and properties of plugins of different classes. -/
theorem C76_apart : ∀ p ∈ propTable, ∀ q ∈ propTable, apart p q = true ∨ p = q ∨
    (((p.cls, p.attr), (q.cls, q.attr)) ∈ sameValue ∨ ((q.cls, q.attr), (p.cls, p.attr)) ∈ sameValue) ∨
    (p.cls ≠ q.cls ∧ p.cls ∈ pluginClasses.map Prod.fst ∧ q.cls ∈ pluginClasses.map Prod.fst) := by
  decide +kernel

/-! ### Examples -/

namespace Demo

/-- `BooBass.bass`. -/
def bassRow : PropRow := ⟨"BooBass", "bass", [213], [], .field "bass", none⟩

/-- `Channel.name`. -/
def nameRow : PropRow := ⟨"Channel", "name", [203, 192], [], .event, none⟩

/-- `Arp.chord`. -/
def chordRow : PropRow := ⟨"Arp", "chord", [], [215], .field "chord", none⟩

theorem bass_model [FloatEnv] : ModelOf bassRow ((World.ofProject project).events 0) := by
  refine ⟨by simp [bassRow], fun k hk e he hid => ?_⟩
  have hk : k = .struct .booBass := by simpa [pluginClasses, bassRow] using hk
  subst hk
  have he : e ∈ (World.ofProject project).project.events := he
  rw [ofProject_project] at he
  simp only [project, events, List.mem_cons, List.not_mem_nil, or_false] at he
  rcases he with rfl | rfl | rfl | rfl | rfl | rfl | rfl | rfl | rfl | rfl <;> first | rfl | (cases hid; done)

/-- A project whose only event has parameters that all are missing. -/
def arpProject : Project := ⟨0, 0, 96, [⟨215, .struct .parameters,
  .fields ((SName.fields .parameters).map fun f => (f.1, if f.1 = "_extra" then some (.bytes []) else none)), 0⟩]⟩

end Demo

/-- The hypotheses of `C75_readable_partial`, `C75_assignable_partial` and `C75_programs_partial` can be met: the bass of
the BooBass of the demo project is 7 and can be set to 9. -/
example [FloatEnv] : Demo.bassRow ∈ propTable ∧ PropReach (World.ofProject Demo.project) (· = 0) ∧
    Typed (World.ofProject Demo.project).project.events ∧
    ModelOf Demo.bassRow ((World.ofProject Demo.project).events 0) ∧
    Demo.bassRow.read .from311 (World.ofProject Demo.project) 0 = .ok (some (.int 7)) ∧
    Demo.bassRow.read .from311 (Demo.bassRow.write .from311 (World.ofProject Demo.project) 0 (.int 9)).1 0
      = .ok (some (.int 9)) := by
  refine ⟨by decide +kernel, .parsed Demo.parsed, ?_, Demo.bass_model, rfl, rfl⟩
  rw [ofProject_project]
  exact parsed_typed Demo.parsed

theorem Demo.arp_typed : Typed (World.ofProject Demo.arpProject).project.events := by
  rw [ofProject_project]
  intro e he
  cases List.mem_singleton.1 he
  refine ⟨fun k hk => ?_, _, rfl, rfl, fun n f x hm hl => ?_⟩
  · have : enumType enums 215 = some (.struct .parameters) := by decide +kernel
    exact Option.some.inj (this.symm.trans hk)
  · revert x
    have hall : ∀ nf ∈ SName.fields .parameters, ∀ y, Rec.lookup
        ((SName.fields .parameters).map fun f => (f.1, if f.1 = "_extra" then some (LV.bytes []) else none)) nf.1 = y →
        y = some none ∨ (nf.1 = "_extra" ∧ nf.2.leaf = .greedy ∧ y = some (some (.bytes []))) := by
      intro nf hnf y hy
      subst hy
      revert nf
      decide +kernel
    intro x hl
    rcases hall _ hm _ hl with h | ⟨-, h2, h3⟩
    · cases h
    · cases h3
      rw [h2]
      trivial

/-- The hypotheses of `C75_arp_refuted` can be met. -/
example : Demo.chordRow ∈ propTable ∧ Typed (World.ofProject Demo.arpProject).project.events ∧
    ModelOf Demo.chordRow ((World.ofProject Demo.arpProject).events 0) :=
  ⟨by decide +kernel, Demo.arp_typed, fun _ => ⟨_, rfl, by decide⟩, fun k hk => by simp [pluginClasses, Demo.chordRow] at hk⟩

/-- The hypotheses of `C76_independent` can be met: setting the bass leaves the name of the channel as it is. -/
example [FloatEnv] : apart Demo.bassRow Demo.nameRow = true ∧
    ModelOf Demo.nameRow ((World.ofProject Demo.project).events 0) ∧
    (∃ w', Demo.bassRow.write .from311 (World.ofProject Demo.project) 0 (.int 9) = (w', .ok ()) ∧
      Demo.nameRow.read .from311 w' 0 = .ok (some (.str (PStr.lit "Bass")))) :=
  ⟨by decide, ⟨by simp [Demo.nameRow], fun k hk => by simp [pluginClasses, Demo.nameRow] at hk⟩, _, rfl, rfl⟩

/-- C75: a property that stands for a field has the name of this field, up to a prefix that ends with a dot. -/
theorem C75_names : ∀ p ∈ propTable, ∀ key, p.acc = .field key →
    key.toList = p.attr.toList ∨ '.' :: p.attr.toList <:+ key.toList := by
  have h : propTable.all (fun p => match p.acc with
      | .field key => decide (key.toList = p.attr.toList) || decide ('.' :: p.attr.toList <:+ key.toList)
      | _ => true) = true := by decide +kernel
  intro p hp key hk
  have := List.all_eq_true.1 h p hp
  rw [hk] at this
  simpa using this

end PyFLP
