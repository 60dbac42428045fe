import Verif.Reprs
import Verif.Props.Repr
import Verif.Props.Nested
import Verif.Props.Notebook
import Verif.Props.Times
import Verif.Props.Automation
import Verif.Props.Exact3
import Verif.Props.Offsets
/-!
# Printing effects, remote controllers, notebooks and items (C107)
-/

namespace PyFLP

open Spec Heap

namespace Spec

/-- What an attribute of an `FX` model with the events `evs` must be shown as: `reverb` as a model with the events 139 among them. -/
def PrintsFX (evs : List Event) (var : String) (x : ShownDeep) : Prop :=
  if var = "reverb" then
    ∃ a, x = .model a ∧ a.map Prod.fst = ["type", "mix"] ∧ ∀ y ∈ a, Prints "Reverb" (evs.filter (·.id == 139)) y.1 y.2
  else ∃ s, x = .plain s ∧ Prints "FX" evs var s

end Spec

theorem no_reverb_rows : ∀ p ∈ propTable, p.cls ≠ "Reverb" := by decide +kernel
theorem fx_rows : ∀ p ∈ propTable, p.cls = "FX" → p.ids ≠ [] := by decide +kernel
theorem fx_plugin : ∀ x ∈ pluginClasses, x.1 ≠ "FX" := by decide +kernel

/-- The attributes are read and then printed. -/
theorem fx_core [FloatEnv] (ver : PyVer) {t : Nat} {vars : List String} : ∀ {w : World} {L : Nat → Prop}, WReach w L →
    Typed w.project.events → w.project.events ≠ [] → L t →
    ∃ w' m, w.fxAttrs ver t vars = .ok (w', m) ∧ (∃ L', WReach w' L' ∧ (∀ v, L v → L' v ∧ w'.events v = w.events v) ∧
      w'.project = w.project ∧ ∀ x ∈ m, ∀ u, x.2 = .inr u → x.1 = "reverb" ∧ L' u ∧ w'.events u = (w.events t).filter (·.id == 139)) ∧
      m.map Prod.fst = vars ∧ (∀ x ∈ m, x.1 = "reverb" → ∃ u, x.2 = .inr u) ∧
      ∀ x ∈ m, ∀ s, x.2 = .inl s → Prints "FX" (w.events t) x.1 s := by
  induction vars with
  | nil => intro w L r _ _ _; exact ⟨w, [], rfl, ⟨L, r, fun v h => ⟨h, rfl⟩, rfl, by simp⟩, rfl, by simp, by simp⟩
  | cons var vars ih =>
    intro w L r hty hne ht
    by_cases hv : var = "reverb"
    · obtain ⟨w1, u, n1, n2, n3, n4, n5⟩ := C90_nested r ht hne [139]
      obtain ⟨w', m, h1, ⟨L', h2, h3, h4, h5⟩, h6, h7, h8⟩ :=
        ih n2 (by rw [n4]; exact hty) (by rw [n4]; exact hne) (.inl ht)
      have hev : w1.events u = (w.events t).filter (·.id == 139) := by
        rw [← (n5 t ht).2]
        show (w1.refs u).map w1.ev = ((w1.refs t).map w1.ev).filter _
        rw [n3, List.filter_map]
        congr 1
        refine List.filter_congr fun x _ => ?_
        by_cases h : (w1.ev x).id = 139 <;> simp [h]
      refine ⟨w', (var, .inr u) :: m, ?_, ⟨L', h2, fun v hv => ?_, h4.trans n4, ?_⟩, by simp [h6], ?_, ?_⟩
      · unfold World.fxAttrs
        rw [if_pos hv, n1]
        dsimp only
        rw [h1]
      · exact ⟨(h3 v (.inl hv)).1, (h3 v (.inl hv)).2.trans (n5 v hv).2⟩
      · intro x hx v hxv
        rcases List.mem_cons.1 hx with rfl | hx
        · cases hxv
          exact ⟨hv, (h3 _ (.inr rfl)).1, (h3 _ (.inr rfl)).2.trans hev⟩
        · rw [← (n5 t ht).2]
          exact h5 x hx v hxv
      · intro x hx hn
        rcases List.mem_cons.1 hx with rfl | hx
        · exact ⟨u, rfl⟩
        · exact h7 x hx hn
      · intro x hx s hxs
        rcases List.mem_cons.1 hx with rfl | hx
        · cases hxs
        · rw [← (n5 t ht).2]
          exact h8 x hx s hxs
    · obtain ⟨s, s1, s2⟩ := attr_core r hty ht ver (cls := "FX") (by decide)
        (fun p hp hc => ⟨fun h => absurd h (fx_rows p hp hc), fun k hk => absurd rfl (by rw [hc] at hk; exact fx_plugin _ hk)⟩)
        (fun h => absurd h (by decide)) var
      obtain ⟨w', m, h1, ⟨L', h2, h3, h4, h5⟩, h6, h7, h8⟩ := ih r hty hne ht
      refine ⟨w', (var, .inl s) :: m, ?_, ⟨L', h2, h3, h4, ?_⟩, by simp [h6], ?_, ?_⟩
      · unfold World.fxAttrs
        rw [if_neg hv, s1]
        dsimp only [getattrOr]
        rw [h1]
      · intro x hx v hxv
        rcases List.mem_cons.1 hx with rfl | hx
        · cases hxv
        · exact h5 x hx v hxv
      · intro x hx hn
        rcases List.mem_cons.1 hx with rfl | hx
        · exact absurd hn hv
        · exact h7 x hx hn
      · intro x hx s' hxs
        rcases List.mem_cons.1 hx with rfl | hx
        · cases hxs; exact s2
        · exact h8 x hx s' hxs

theorem fx_values [FloatEnv] (ver : PyVer) {w' : World} {L' : Nat → Prop} (r : WReach w' L') (hty : Typed w'.project.events) {evs : List Event} :
    ∀ {m : List (String × (Shown ⊕ Nat))},
    (∀ x ∈ m, ∀ u, x.2 = .inr u → x.1 = "reverb" ∧ L' u ∧ w'.events u = evs.filter (·.id == 139)) →
    (∀ x ∈ m, x.1 = "reverb" → ∃ u, x.2 = .inr u) → (∀ x ∈ m, ∀ s, x.2 = .inl s → Prints "FX" evs x.1 s) →
    ∃ m', w'.fxValues ver m = .ok m' ∧ m'.map Prod.fst = m.map Prod.fst ∧ ∀ x ∈ m', PrintsFX evs x.1 x.2 := by
  intro m
  induction m with
  | nil => intro _ _ _; exact ⟨[], rfl, rfl, by simp⟩
  | cons x m ih =>
    intro h1 h2 h3
    obtain ⟨m', i1, i2, i3⟩ := ih (fun y hy => h1 y (List.mem_cons_of_mem _ hy)) (fun y hy => h2 y (List.mem_cons_of_mem _ hy)) fun y hy =>
      h3 y (List.mem_cons_of_mem _ hy)
    obtain ⟨var, v⟩ := x
    cases v with
    | inl s =>
      refine ⟨(var, .plain s) :: m', by unfold World.fxValues; rw [i1]; rfl, by simp [i2], fun y hy => ?_⟩
      rcases List.mem_cons.1 hy with rfl | hy
      · unfold PrintsFX
        split
        · next hn => obtain ⟨u, hu⟩ := h2 _ (List.mem_cons_self ..) hn; cases hu
        · exact ⟨s, rfl, h3 _ (List.mem_cons_self ..) s rfl⟩
      · exact i3 y hy
    | inr u =>
      obtain ⟨u1, u2, u3⟩ := h1 _ (List.mem_cons_self ..) u rfl
      obtain ⟨a, a1, a2, a3⟩ := reprModel_ok (vars := ["type", "mix"]) (ver := ver) (t := u) fun var _ =>
        attr_core r hty u2 ver (cls := "Reverb") (by decide) (fun p hp hc => absurd hc (no_reverb_rows p hp)) (fun h => absurd h (by decide)) var
      refine ⟨(var, .model a) :: m', by unfold World.fxValues; rw [a1, i1]; rfl, by simp [i2], fun y hy => ?_⟩
      rcases List.mem_cons.1 hy with rfl | hy
      · unfold PrintsFX
        rw [if_pos u1]
        exact ⟨a, rfl, a2, by rw [u3] at a3; exact a3⟩
      · exact i3 y hy

open Declared in
/-- **C107**, `FX`: in every state of a program that parsed a file and read and assigned properties, the effects of a sampler can be
printed; each attribute is shown with its value, in order, and the reverb with its type and mix. -/
theorem C107_fx [FloatEnv] {w : World} {L : Nat → Prop} (r : PropReach w L) {t : Nat} (ht : L t) (hne : w.project.events ≠ []) (ver : PyVer)
    {d : ReprDecl} (hd : d ∈ reprs) (hc : d.cls = "FX") :
    ∃ m, w.reprFX ver t (d.names.map Prod.fst) = .ok m ∧ m.map Prod.fst = d.names.map Prod.fst ∧
      ∀ x ∈ m, PrintsFX (w.events t) x.1 x.2 := by
  obtain ⟨r', hty⟩ := C75_typed r
  obtain ⟨w', m, h1, ⟨L', h2, h3, h4, h5⟩, h6, h7, h8⟩ := fx_core ver (vars := d.names.map Prod.fst) r' hty hne ht
  obtain ⟨m', i1, i2, i3⟩ := fx_values ver h2 (by rw [h4]; exact hty) h5 h7 h8
  exact ⟨m', by unfold World.reprFX; rw [h1]; exact i1, i2.trans h6, i3⟩

/-- **C107**, remote controllers: exactly what is shown.  The parameter is shown as 1 and never as one of a VST, as it is read (C99);
without a parameter word both are `None`. -/
theorem C107_remote {w : World} {L : Nat → Prop} (r : WReach w L) {t : Nat} (ht : L t) {v : Option Int} (h : ParameterData (w.events t) v) :
    ∃ p c, w.remoteParameter t = .ok p ∧ w.remoteControlsVst t = .ok c ∧
      w.reprRemote t = .ok [("parameter", p.elim .none .int), ("controls_vst", c.elim .none .bool)] ∧
      (p = none ↔ v = none) ∧ (c = none ↔ v = none) := by
  obtain ⟨n, b, h1, h2, h3, h4⟩ := C99_none_partial r ht h
  refine ⟨n, b, h1, h2, ?_, h3, h4⟩
  unfold World.reprRemote
  rw [h1, h2]
  rfl

/-- **C107**, notebooks: the internal name, the active page, the mark and the pages, or `None` without plugin data. -/
theorem C107_notebook {w : World} {L : Nat → Prop} (r : WReach w L) {t : Nat} (ht : L t) :
    (∀ u p ps b, HasNotebook w t u p ps b → w.reprNotebook t = .ok [("INTERNAL_NAME", .plain .constant), ("active_page", .plain (.int p)),
      ("editable", .plain (.bool b)), ("pages", .pages ps)]) ∧
    ((∀ e ∈ w.events t, e.id ≠ 213) → w.reprNotebook t = .ok [("INTERNAL_NAME", .plain .constant), ("active_page", .plain .none),
      ("editable", .plain .none), ("pages", .plain .none)]) := by
  obtain ⟨h1, h2⟩ := C114_get r ht
  refine ⟨fun u p ps b h => ?_, fun h => ?_⟩
  · obtain ⟨a, b, c⟩ := h1 u p ps b h
    unfold World.reprNotebook
    rw [a, b, c]
    rfl
  · obtain ⟨⟨a, b, c⟩, -⟩ := h2 h
    unfold World.reprNotebook
    rw [a, b, c]
    rfl

/-- **C107**, automation points: each point that iteration gives shows its position, tension and value. -/
theorem C107_points [FloatAdd] {w : World} {L : Nat → Prop} (r : WReach w L) {t : Nat} (ht : L t) {ps : List Pt} (h : HasPoints w t ps) :
    ∃ us, w.points t = .ok us ∧ us.length = ps.length ∧ ∀ a p b, ps = a ++ p :: b → ∃ u, us[a.length]? = some u ∧
      w.reprPoint u = .ok [("position", .field (.f64 (xPosition a p))), ("tension", .field (.f32 p.tension)), ("value", .field (.f64 p.value))] := by
  obtain ⟨⟨us, hs⟩, -⟩ := C84_read r ht h
  refine ⟨us, hs.points, hs.length, fun a p b hab => ?_⟩
  obtain ⟨u, h1, h2, h3, h4, -⟩ := hs.value a p b hab
  refine ⟨u, h1, ?_⟩
  unfold World.reprPoint
  rw [h4, h3, h2]
  rfl

namespace Spec

/-- A program that edits and deletes the items of an event with the records `l` at first: the list, and the items fetched so far. -/
inductive ItemProgram (l : List Rec) : ListObj → List Item → Prop
  | parsed : ItemProgram l (.parse l) []
  | fetch {s hs} (r : ItemProgram l s hs) : ItemProgram l s (hs ++ s.items)
  | edit {s hs it} (r : ItemProgram l s hs) (h : it ∈ hs) (key : String) (x : Option LV) : ItemProgram l (s.set it key x).1 hs
  | delete {s hs i} (r : ItemProgram l s hs) (h : i < s.list.length) : ItemProgram l (s.delete i).1 hs

end Spec

theorem itemProgram_reach {l : List Rec} {s : ListObj} {hs : List Item} (r : ItemProgram l s hs) : AReach s hs := by
  induction r with
  | parsed => exact .parsed _
  | fetch _ ih => exact .fetch ih
  | edit _ h k x ih => exact .edit ih h k x
  | delete _ h ih => exact .delete ih h

theorem itemProgram_keys {l : List Rec} {key : String} (hl : ∀ rec ∈ l, (Rec.lookup rec key).isSome) {s : ListObj} {hs : List Item}
    (r : ItemProgram l s hs) : ∀ rec ∈ s.objs, (Rec.lookup rec key).isSome := by
  induction r with
  | parsed => exact hl
  | fetch _ ih => exact ih
  | @edit s hs it r h k x ih =>
    have : ∀ rec ∈ s.objs.set it.ref (Rec.put (s.objs.getD it.ref []) k x), (Rec.lookup rec key).isSome := by
      intro rec hrec
      rcases List.mem_or_eq_of_mem_set hrec with h' | rfl
      · exact ih _ h'
      · have hlt := (areach_inv (itemProgram_reach r)).2 it h
        obtain ⟨p1, p2⟩ := lookup_put (s.objs.getD it.ref []) k x
        by_cases hk : key = k
        · subst hk; rw [p1]; rfl
        · rw [p2 key hk]
          exact ih _ (by rw [List.getD_eq_getElem?_getD, List.getElem?_eq_getElem hlt]; exact List.getElem_mem hlt)
    unfold ListObj.set
    dsimp only
    split <;> exact this
  | @delete s hs i r h ih =>
    unfold ListObj.delete
    split <;> exact ih

/-- **C107**, controllers of a pattern: after any edits and deletions each item fetched so far, whenever that was, can be printed and
shows the channel, position and value of its record. -/
theorem C107_items [FloatEnv] {data : Bytes} {l : List Rec} (hp : Kind.parse (.list .controller) data = .ok (.items l)) {s : ListObj}
    {hs : List Item} (r : ItemProgram l s hs) {it : Item} (hi : it ∈ hs) {d : Declared.ReprDecl} (hd : d ∈ Declared.reprs)
    (hc : d.cls = "Controller") :
    ∃ m, s.reprItem it (d.names.map Prod.fst) = .ok m ∧ m.map Prod.fst = ["channel", "position", "value"] ∧
      ∀ x ∈ m, ∃ v, Rec.lookup (recordOf s it) x.1 = some v ∧ x.2 = v.elim .none .field := by
  have hn : d.names.map Prod.fst = ["channel", "position", "value"] := by
    have : ∀ d ∈ Declared.reprs, d.cls = "Controller" → d.names.map Prod.fst = ["channel", "position", "value"] := by decide +kernel
    exact this d hd hc
  have hkey : ∀ key ∈ ["channel", "position", "value"], ∀ rec ∈ l, (Rec.lookup rec key).isSome := by
    obtain ⟨l', h1, -, h2⟩ := C131_item .controller data _ hp
    cases h1
    intro key hk rec hrec
    obtain ⟨i, hi⟩ := List.mem_iff_getElem?.1 hrec
    simp only [List.mem_cons, List.not_mem_nil, or_false] at hk
    rcases hk with rfl | rfl | rfl
    · obtain ⟨_, _, -, h3, -⟩ := h2 i rec hi "channel" _ _ (by simp [listLayout]; exact ⟨rfl, rfl⟩)
      rw [h3]; rfl
    · obtain ⟨_, _, -, h3, -⟩ := h2 i rec hi "position" _ _ (by simp [listLayout]; exact ⟨rfl, rfl⟩)
      rw [h3]; rfl
    · obtain ⟨_, _, -, h3, -⟩ := h2 i rec hi "value" _ _ (by simp [listLayout]; exact ⟨rfl, rfl⟩)
      rw [h3]; rfl
  have hlt := (areach_inv (itemProgram_reach r)).2 it hi
  have hmem : recordOf s it ∈ s.objs := by
    unfold recordOf
    rw [List.getD_eq_getElem?_getD, List.getElem?_eq_getElem hlt]
    exact List.getElem_mem hlt
  have gen : ∀ vars, (∀ v ∈ vars, v ∈ ["channel", "position", "value"]) → ∃ m, s.reprItem it vars = .ok m ∧ m.map Prod.fst = vars ∧
      ∀ x ∈ m, ∃ v, Rec.lookup (recordOf s it) x.1 = some v ∧ x.2 = v.elim .none .field := by
    intro vars
    induction vars with
    | nil => intro _; exact ⟨[], rfl, rfl, by simp⟩
    | cons var vars ih =>
      intro hv
      obtain ⟨m, m1, m2, m3⟩ := ih fun v h => hv v (by simp [h])
      obtain ⟨v, hvl⟩ := Option.isSome_iff_exists.1 (itemProgram_keys (hkey var (hv var (by simp))) r _ hmem)
      refine ⟨(var, v.elim .none .field) :: m, ?_, by simp [m2], fun x hx => ?_⟩
      · unfold ListObj.reprItem ListObj.get
        unfold recordOf at hvl
        rw [hvl]
        dsimp only
        rw [m1]
        rfl
      · rcases List.mem_cons.1 hx with rfl | hx
        · exact ⟨v, hvl, rfl⟩
        · exact m3 x hx
  rw [hn]
  exact gen _ fun v h => h

/-- A sampler with a boost and a reverb of type B. -/
def Demo.effects : Project := ⟨0, 1, 96, [⟨64, .u16, .lv (.int 0), 2⟩, ⟨74, .u16, .lv (.int 128), 2⟩, ⟨139, .u32, .lv (.int 65600), 4⟩]⟩

/-- Effects are printed with the boost and the reverb; the hypotheses of `C107_fx` are met by the demo file. -/
example [FloatEnv] : (∃ d ∈ Declared.reprs, d.cls = "FX" ∧ d.names.length = 22) ∧ PropReach (World.ofProject Demo.project) (· = 0) ∧
    (World.ofProject Demo.project).project.events ≠ [] ∧
    (World.ofProject Demo.effects).reprFX .from311 0 ["boost", "reverb", "cutoff"] =
      .ok [("boost", .plain (.value (.lv (.int 128)))), ("reverb", .model [("type", .reverb .B), ("mix", .int 64)]), ("cutoff", .plain .none)] :=
  ⟨by decide +kernel, .parsed Demo.parsed, List.cons_ne_nil _ _, rfl⟩

/-- A controller of a pattern, changed after it was fetched. -/
example [FloatEnv] : ∃ (data : Bytes) (l : List Rec) (s : ListObj) (it : Item) (hs : List Item),
    Kind.parse (.list .controller) data = .ok (.items l) ∧ ItemProgram l s hs ∧ it ∈ hs ∧
    s.reprItem it ["channel", "position", "value"] = .ok [("channel", .field (.int 2)), ("position", .field (.int 5)),
      ("value", .field (.f32 1065353216))] := by
  obtain ⟨data, -, h, -⟩ := kind_roundtrip (k := .list .controller) (len := 12) (v := .items [[("position", some (.int 1)),
      ("_u1", some (.int 0)), ("_u2", some (.int 0)), ("channel", some (.int 2)), ("_flags", some (.int 0)), ("value", some (.f32 1065353216))]])
    ⟨by
      intro r hr
      simp only [List.mem_cons, List.not_mem_nil, or_false] at hr
      subst hr
      exact ⟨rfl, rfl, rfl, rfl, rfl, rfl, rfl, rfl, rfl, rfl, rfl, (show (1065353216 : Nat) < 2 ^ 32 by decide), trivial⟩, nofun⟩
  exact ⟨data, _, _, ⟨0, 0⟩, _, h, .edit (it := ⟨0, 0⟩) (.fetch .parsed) (by decide) "position" (some (.int 5)), by decide, rfl⟩

/-- A remote controller whose word is 32773, parameter 5 of a VST, is printed as parameter 1. -/
example : (World.ofProject ⟨0, 1, 96, [⟨227, .struct .remoteController, .fields [("parameter_data", some (.int 32773))], 20⟩]⟩).reprRemote 0 =
    .ok [("parameter", .int 1), ("controls_vst", .bool false)] := rfl

/-- A notebook with one page. -/
example : (World.ofProject ⟨0, 1, 96, [⟨213, .notebook, .notebook [0, 0, 0, 0] 0 [.text 0 1 (PStr.lit "a"), .stop] true, 30⟩]⟩).reprNotebook 0 =
    .ok [("INTERNAL_NAME", .plain .constant), ("active_page", .plain (.int 0)), ("editable", .plain (.bool true)),
      ("pages", .pages [.text 0 1 (PStr.lit "a"), .stop])] := rfl

/-- A clip with one point. -/
example [FloatAdd] : ∃ u, (World.ofProject ⟨0, 1, 96, [⟨234, .automation, .auto [] [Pt.fields ⟨0, 7, 8, []⟩] [], 45⟩]⟩).points 0 = .ok [u] ∧
    (World.ofProject ⟨0, 1, 96, [⟨234, .automation, .auto [] [Pt.fields ⟨0, 7, 8, []⟩] [], 45⟩]⟩).reprPoint u =
      .ok [("position", .field (.f64 (xPosition [] ⟨0, 7, 8, []⟩))), ("tension", .field (.f32 8)), ("value", .field (.f64 7))] :=
  ⟨⟨0, 0⟩, rfl, rfl⟩

end PyFLP
