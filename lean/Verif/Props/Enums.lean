import Verif.Props.PropSaved
import Verif.Props.Plugins
/-!
# Plain numbers assigned to properties with enum members (C117)
-/

namespace PyFLP

open Spec Heap

namespace Spec

/-- The properties whose values are members of enums: class, name, event ids, ids of the events of a model without event
ids, field of the struct (`arrangement.py:133-150`, `channel.py:131-309`, `plugin.py:192-222`; `Arp.direction`, which
cannot be read at all, is left out). -/
def enumProps : List (String × String × List Nat × List Nat × String) := [
  ("Track", "motion", [238], [], "motion"), ("Track", "press", [238], [], "press"),
  ("Track", "trigger_sync", [238], [], "trigger_sync"), ("Track", "position_sync", [238], [], "position_sync"),
  ("SamplerLFO", "shape", [], [218], "lfo.shape"), ("Filter", "type", [219], [], "filter.type"),
  ("Content", "declick_mode", [215], [], "content.declick_mode"),
  ("TimeStretching", "mode", [215], [], "stretching.mode"), ("_PluginBase", "page", [212], [], "page")]

/-- Its row in the table of properties. -/
abbrev enumRow (x : String × String × List Nat × List Nat × String) : PropRow :=
  ⟨x.1, x.2.1, x.2.2.1, x.2.2.2.1, .field x.2.2.2.2, none⟩

end Spec

section
variable [FloatEnv]

omit [FloatEnv] in
/-- The struct of the events of an enum property, split at the field. -/
theorem enum_field {x : String × String × List Nat × List Nat × String} (hx : x ∈ enumProps) {i : Nat}
    (hi : i ∈ (enumRow x).idsOf) :
    ∃ s pre post wd sg, enumType enums i = some (.struct s) ∧ 192 ≤ i ∧ 1 ≤ wd ∧
      s.fields = pre ++ (x.2.2.2.2, .opt (.int wd sg)) :: post ∧ x.2.2.2.2 ∉ pre.map Prod.fst ∧
      (s.fields.map Prod.fst).Nodup := by
  simp only [enumProps, List.mem_cons, List.not_mem_nil, or_false] at hx
  rcases hx with rfl | rfl | rfl | rfl | rfl | rfl | rfl | rfl | rfl <;>
    simp only [PropRow.idsOf, List.mem_cons, List.not_mem_nil, or_false, if_true, if_false,
      List.cons_ne_nil] at hi <;> subst hi
  · exact ⟨.track, (SName.fields .track).take 7, (SName.fields .track).drop 8, 4, false, rfl, by decide, by decide, rfl,
      by decide, by decide⟩
  · exact ⟨.track, (SName.fields .track).take 8, (SName.fields .track).drop 9, 4, false, rfl, by decide, by decide, rfl,
      by decide, by decide⟩
  · exact ⟨.track, (SName.fields .track).take 9, (SName.fields .track).drop 10, 4, false, rfl, by decide, by decide, rfl,
      by decide, by decide⟩
  · exact ⟨.track, (SName.fields .track).take 12, (SName.fields .track).drop 13, 4, false, rfl, by decide, by decide, rfl,
      by decide, by decide⟩
  · exact ⟨.envelopeLFO, (SName.fields .envelopeLFO).take 13, (SName.fields .envelopeLFO).drop 14, 4, true, rfl, by decide, by decide, rfl,
      by decide, by decide⟩
  · exact ⟨.levels, (SName.fields .levels).take 5, (SName.fields .levels).drop 6, 4, false, rfl, by decide, by decide, rfl,
      by decide, by decide⟩
  · exact ⟨.parameters, (SName.fields .parameters).take 21, (SName.fields .parameters).drop 22, 1, false, rfl, by decide, by decide, rfl,
      by decide, by decide⟩
  · exact ⟨.parameters, (SName.fields .parameters).take 28, (SName.fields .parameters).drop 29, 4, true, rfl, by decide, by decide, rfl,
      by decide, by decide⟩
  · exact ⟨.wrapper, (SName.fields .wrapper).take 3, (SName.fields .wrapper).drop 4, 1, false, rfl, by decide, by decide, rfl,
      by decide, by decide⟩

omit [FloatEnv] in
/-- A container with the names of a struct splits like the struct. -/
theorem rec_split {pre post : Fields} {key : String} {f : Fld} {r : Rec} {old : LV}
    (hn : r.map Prod.fst = (pre ++ (key, f) :: post).map Prod.fst) (fresh : key ∉ pre.map Prod.fst)
    (ho : Rec.lookup r key = some (some old)) :
    ∃ rpre rpost, r = rpre ++ (key, some old) :: rpost ∧ pre.length = rpre.length ∧
      ∀ x, Rec.update r key x = rpre ++ (key, x) :: rpost := by
  induction pre generalizing r with
  | nil =>
    cases r with
    | nil => simp at hn
    | cons a r =>
      obtain ⟨n, v⟩ := a
      simp only [List.nil_append, List.map_cons, List.cons.injEq] at hn
      obtain ⟨rfl, -⟩ := hn
      simp only [Rec.lookup, if_true, Option.some.injEq] at ho
      subst ho
      exact ⟨[], r, rfl, rfl, fun x => by simp [Rec.update]⟩
  | cons g pre ih =>
    cases r with
    | nil => simp at hn
    | cons a r =>
      obtain ⟨n, v⟩ := a
      simp only [List.cons_append, List.map_cons, List.cons.injEq] at hn
      obtain ⟨rfl, hn⟩ := hn
      simp only [List.map_cons, List.mem_cons, not_or] at fresh
      simp only [Rec.lookup, if_neg (Ne.symm fresh.1)] at ho
      obtain ⟨rpre, rpost, h1, h2, h3⟩ := ih hn fresh.2 ho
      refine ⟨(g.1, v) :: rpre, rpost, by rw [h1]; rfl, by simp [h2], fun x => ?_⟩
      simp only [Rec.update, if_neg (Ne.symm fresh.1), h3, List.cons_append]

/-- Replacing an event by one of the same id that takes no more bytes keeps the project savable. -/
theorem save_replaced {p : Project} {j : Nat} {e e' : Event} (hj : p.events[j]? = some e) (hid : e'.id = e.id)
    {file : Bytes} (hs : saveBytes p = .ok file)
    (hb : ∀ raw, e.toBytes = .ok raw → ∃ raw', e'.toBytes = .ok raw' ∧ raw'.length ≤ raw.length) :
    ∃ file', saveBytes { p with events := p.events.set j e' } = .ok file' := by
  obtain ⟨raws, h1, h2, h3, h4, h5⟩ := (C03_save_succeeds p).1 ⟨file, hs⟩
  have hl : p.events.length = raws.length := by have := congrArg List.length h1; simpa using this
  have hjl : j < p.events.length := (List.getElem?_eq_some_iff.1 hj).1
  have hraw : e.toBytes = .ok raws[j] := by
    have := congrArg (·[j]?) h1
    simp only [List.getElem?_map, hj, Option.map_some, List.getElem?_eq_getElem (hl ▸ hjl), Option.some.injEq] at this
    exact this
  obtain ⟨raw', r1, r2⟩ := hb _ hraw
  refine (C03_save_succeeds _).2 ⟨raws.set j raw', ?_, ?_, h3, h4, ?_⟩
  · dsimp only
    rw [List.map_set, h1, r1, List.map_set]
  · have : channelStarts (p.events.set j e') = channelStarts p.events := by
      have hd := List.set_eq_take_append_cons_drop (l := p.events) (i := j) (a := e')
      rw [if_pos hjl] at hd
      have hd2 : p.events = p.events.take j ++ e :: p.events.drop (j + 1) := by
        rw [← (List.getElem?_eq_some_iff.1 hj).2, List.getElem_cons_drop, List.take_append_drop]
      unfold channelStarts
      rw [hd]
      conv => rhs; rw [hd2]
      simp only [List.filter_append, List.filter_cons, hid, List.length_append]
      split <;> rfl
    rw [this]
    exact h2
  · have hd := List.set_eq_take_append_cons_drop (l := raws) (i := j) (a := raw')
    rw [if_pos (hl ▸ hjl)] at hd
    have hd2 : raws = raws.take j ++ raws[j] :: raws.drop (j + 1) := by
      rw [List.getElem_cons_drop, List.take_append_drop]
    rw [hd]
    rw [hd2] at h5
    simp only [List.flatten_append, List.flatten_cons, List.length_append] at h5 ⊢
    omega

omit [FloatEnv] in
theorem varBuild_mono {m n : Nat} (h : m ≤ n) : (varBuild m).length ≤ (varBuild n).length := by
  induction n using Nat.strongRecOn generalizing m with
  | _ n ih =>
    rw [varBuild.eq_def m, varBuild.eq_def n]
    split
    · split <;> simp
    · rw [dif_neg (by omega)]
      simp only [List.length_cons, Nat.add_le_add_iff_right]
      exact ih (n / 128) (by omega) (Nat.div_le_div_right h)

/-- C117. Assigning a plain number to a property with enum members is accepted, and the property gives the number; but
the project is saved, without an error, with an event that lacks the bytes of the field: the fields behind it move. -/
theorem C117_plain_refuted {w : World} {L : Nat → Prop} (r : WReach w L) {t : Nat} (ht : L t) (ver : PyVer)
    {x : String × String × List Nat × List Nat × String} (hx : x ∈ enumProps) (hm : ModelOf (enumRow x) (w.events t))
    (hwt : WellTyped w.project.events) (hv : ∀ e ∈ w.project.events, validValue e.kind e.len e.value)
    {old : LV} (hold : (enumRow x).read ver w t = .ok (some old)) (n : Int) :
    enumRow x ∈ propTable ∧
    ∃ w', (enumRow x).write ver w t (.num n) = (w', .ok ()) ∧ (enumRow x).read ver w' t = .ok (some (.num n)) ∧
      (∃ j e e' front field back, w.project.events[j]? = some e ∧
        w'.project = { w.project with events := w.project.events.set j e' } ∧ e'.id = e.id ∧
        1 ≤ field.length ∧ e.payload = .ok (front ++ field ++ back) ∧ e'.payload = .ok (front ++ back)) ∧
      ∀ file, saveBytes w.project = .ok file → ∃ file', saveBytes w'.project = .ok file' := by
  refine ⟨?_, ?_⟩
  · clear hold hm
    revert x
    decide
  -- the event
  have hT : ∃ k e, Target (w.events t) x.2.2.1 k e ∧ structGet e x.2.2.2.2 = .ok (some old) := by
    have h : (structProp x.2.2.1 x.2.2.2.2).read w t = .ok (some old) := hold
    unfold Descr.read at h
    rcases getEvent_spec r ht x.2.2.1 with ⟨k, ref, h1, -, -, h2⟩ | ⟨-, h1, -⟩ | ⟨-, -, h1⟩ | ⟨-, -, h1⟩
    · rw [show (structProp x.2.2.1 x.2.2.2.2).ids = x.2.2.1 from rfl, h1] at h
      exact ⟨k, w.ev ref, h2, h⟩
    all_goals
      rw [show (structProp x.2.2.1 x.2.2.2.2).ids = x.2.2.1 from rfl, h1] at h
      cases h
  obtain ⟨k, e, hT, hget⟩ := hT
  obtain ⟨hid, hmem⟩ := target_id hm hT
  obtain ⟨s, pre, post, wd, sg, s1, s2, s3, s4, s5, s6⟩ := enum_field hx hid
  have hkind : e.kind = .struct s := (typed_view r ht (wellTyped_typed hwt hv) e hmem).1 _ s1
  obtain ⟨ref, g1, g2, g3, g4, ⟨j, j1, j2, j3⟩, g5⟩ :=
    write_spec r ht (structProp x.2.2.1 x.2.2.2.2) rfl (.num n) hT
  have hval := hv e (List.mem_of_getElem? j2)
  rw [hkind] at hval
  cases hev : e.value with
  | fields rec =>
    rw [hev] at hval
    have hval : validFields ⟨e.len⟩ s.fields rec := hval
    have hlook : Rec.lookup rec x.2.2.2.2 = some (some old) := by
      simp only [structGet, hev] at hget
      split at hget
      · next h => cases hget; exact h
      · cases hget
    have hset : (structProp x.2.2.1 x.2.2.2.2).set e (.num n) =
        .ok { e with value := .fields (Rec.update rec x.2.2.2.2 (some (.num n))) } := by
      simp only [structProp, structSet, hev, hlook]
    rw [hset] at g5
    have hnames := (validFields_typed s6 hval).names
    rw [s4] at hnames
    obtain ⟨rpre, rpost, p1, p2, p3⟩ := rec_split hnames s5 hlook
    have hlv : leafValid (.int wd sg) old := validFields_lookup s6 hval hlook (f := .opt (.int wd sg)) (by rw [s4]; simp)
    obtain ⟨m, hm1, -⟩ := leafRT_of_valid hlv
    have hm2 : m.length = wd := leafBuild_size hm1 rfl
    obtain ⟨bs, hb, -⟩ := struct_roundtrip _ hval
    have hpay : e.payload = .ok bs := by
      show Kind.build e.kind e.len e.value = _
      rw [hkind, hev]; exact hb
    -- the bytes before and after
    rw [s4, p1, structBuild_append p2] at hb
    have key : ∃ a b, bs = a ++ m ++ b ∧
        structBuild ⟨e.len⟩ s.fields (Rec.update rec x.2.2.2.2 (some (.num n))) = .ok (a ++ b) := by
      rw [s4, p3, structBuild_append p2]
      cases ha : structBuild ⟨e.len⟩ pre rpre with
      | error z => rw [ha] at hb; cases hb
      | ok a =>
        rw [ha] at hb
        simp only [structBuild, if_true, fldBuild, hm1] at hb ⊢
        cases hbb : structBuild ⟨e.len⟩ post rpost with
        | error z => rw [hbb] at hb; cases hb
        | ok b =>
          rw [hbb] at hb
          simp only [seqBuild, Except.ok.injEq] at hb
          refine ⟨a, b, by rw [← hb, List.append_assoc], ?_⟩
          simp only [leafBuild, seqBuild, List.nil_append]
    obtain ⟨a, b, k1, k2⟩ := key
    have hpay' : Event.payload { e with value := .fields (Rec.update rec x.2.2.2.2 (some (.num n))) } = .ok (a ++ b) := by
      show Kind.build e.kind e.len _ = _
      rw [hkind]; exact k2
    refine ⟨_, g5, ?_, ⟨j, e, _, a, m, b, j2, j3 _, rfl, by omega, by rw [hpay, k1], hpay'⟩, fun file hs => ?_⟩
    · show (structProp x.2.2.1 x.2.2.2.2).read _ t = _
      unfold Descr.read
      rw [getEvent_congr (w := w) (w' := w.setEv ref _) rfl, g4]
      dsimp only
      rw [World.ev_setEv, if_pos ⟨rfl, g3⟩]
      simp only [structProp, structGet, (lookup_update hlook (some (.num n))).1]
    · rw [j3]
      refine save_replaced j2 rfl hs fun raw hraw => ?_
      unfold Event.toBytes at hraw ⊢
      dsimp only
      split at hraw
      · cases hraw
      · next i hi =>
        rw [hpay] at hraw
        rw [hpay']
        dsimp only at hraw ⊢
        rw [if_neg (by omega)] at hraw ⊢
        cases hraw
        refine ⟨_, rfl, ?_⟩
        have := varBuild_mono (m := (a ++ b).length) (n := bs.length) (by rw [k1]; simp only [List.length_append]; omega)
        rw [k1] at this ⊢
        simp only [List.length_append] at this ⊢
        omega
  | lv y => rw [hev] at hval; obtain ⟨l, h, -⟩ := hval; cases h
  | _ => rw [hev] at hval; cases hval

namespace Demo

/-- A wrapper with all fields: page 2, 640 pixels wide, 480 pixels high. -/
def editor (page : LV) : Event :=
  ⟨212, .struct .wrapper, .fields [("_u1", some (.bytes zeros)), ("flags", some (.int 0)), ("_u2", some (.bytes [0, 0])),
    ("page", some page), ("_u3", some (.bytes (zeros ++ zeros.drop 9))), ("width", some (.int 640)),
    ("height", some (.int 480)), ("_extra", some (.bytes []))], 52⟩

/-- A project with this wrapper. -/
def edited (page : LV) : Project :=
  ⟨0, 1, 96, [⟨199, .ascii, .str (PStr.lit "20.8.3"), 7⟩, ⟨64, .u16, .lv (.int 0), 2⟩, editor page]⟩

/-- What is read from the file saved after `plugin.page = 1`. -/
def movedEditor : Event :=
  ⟨212, .struct .wrapper, .fields [("_u1", some (.bytes zeros)), ("flags", some (.int 0)), ("_u2", some (.bytes [0, 0])),
    ("page", some (.int 0)), ("_u3", some (.bytes (zeros ++ zeros.drop 10 ++ [128]))), ("width", some (.int 3758096386)),
    ("height", none), ("_extra", some (.bytes [1, 0, 0]))], 51⟩

/-- The data of the wrapper in that file. -/
def movedData : Bytes := zeros ++ zeros ++ zeros.drop 5 ++ [128, 2, 0, 0, 224, 1, 0, 0]

/-- That file. -/
def movedFile : Bytes := [70, 76, 104, 100, 6, 0, 0, 0, 0, 0, 1, 0, 96, 0, 70, 76, 100, 116, 65, 0, 0, 0,
  199, 7, 50, 48, 46, 56, 46, 51, 0, 64, 0, 0, 212, 51] ++ movedData

omit [FloatEnv] in
theorem moved_frames : movedFile.drop 22 = frames [(199, [50, 48, 46, 56, 46, 51, 0]), (64, [0, 0]), (212, movedData)] := by
  simp [frames, frame, varBuild_small, movedFile, movedData, zeros]

theorem moved_saved : saveBytes (edited (.num 1)) = .ok movedFile := by
  have hp : ∀ e ∈ (edited (.num 1)).events, e.id < 256 ∧ ∃ b, e.payload = .ok b := by
    intro e he
    simp only [edited, List.mem_cons, List.not_mem_nil, or_false] at he
    rcases he with rfl | rfl | rfl <;> exact ⟨by decide, _, rfl⟩
  unfold saveBytes
  rw [show channelLen (edited (.num 1)).events = .ok 1 from rfl]
  dsimp only
  rw [show packHeader (edited (.num 1)).format 1 (edited (.num 1)).ppq = .ok (movedFile.take 14) from rfl, eventsBytes_eq hp,
    show (edited (.num 1)).events.map Event.fr = [(199, [50, 48, 46, 56, 46, 51, 0]), (64, [0, 0]), (212, movedData)] from rfl,
    ← moved_frames]
  rfl

theorem moved_parsed : parseFile movedFile = .ok ⟨0, 1, 96, [⟨199, .ascii, .str (PStr.lit "20.8.3"), 7⟩,
    ⟨64, .u16, .lv (.int 0), 2⟩, movedEditor]⟩ := by
  refine (C07_parse_iff _ _).2 ⟨0, 0, 1, 0, 96, 0, 65, 0, 0, 0, movedFile.drop 22, rfl, by decide, by decide, by decide,
    by decide, rfl, rfl, rfl, _, by
      rw [moved_frames]
      exact splits_frames (by simp [FrameOK, sizeOK, zeros, movedData]), ?_⟩
  refine .cons ⟨rfl, rfl, by decide +kernel, rfl, by simp, by simp, by simp, fun _ => ⟨_, rfl, [20, 8, 3], by decide +kernel⟩⟩ ?_
  refine .cons ⟨rfl, rfl, by decide +kernel, rfl, by simp, by simp, by simp, by simp⟩ ?_
  refine .cons ⟨rfl, rfl, by decide +kernel, rfl, by simp, by simp, by simp, by simp⟩ .nil

/-- The property `page`. -/
def pageProp : String × String × List Nat × List Nat × String := ("_PluginBase", "page", [212], [], "page")

end Demo

open Demo in
/-- C117, a witness: `plugin.page = 1` in a project whose editor is 640 pixels wide and 480 high.  The saved file has page
0, a width of 3758096386 and no height. -/
theorem C117_witness_refuted (ver : PyVer) :
    (enumRow pageProp).write ver (World.ofProject (edited (.int 2))) 0 (.num 1) =
      (World.ofProject (edited (.num 1)), .ok ()) ∧
    ∃ file q e, saveBytes (edited (.num 1)) = .ok file ∧ parseFile file = .ok q ∧ e ∈ q.events ∧ e.id = 212 ∧
      structGet e "page" = .ok (some (.int 0)) ∧ structGet e "width" = .ok (some (.int 3758096386)) ∧
      structGet e "height" = .ok none :=
  ⟨rfl, _, _, movedEditor, moved_saved, moved_parsed, by simp, rfl, rfl, rfl, rfl⟩

open Demo in
/-- The hypotheses of `C117_plain_refuted` can be met: the project of the witness. -/
example (ver : PyVer) : pageProp ∈ enumProps ∧ WReach (World.ofProject (edited (.int 2))) (fun i => i = 0) ∧
    ModelOf (enumRow pageProp) ((World.ofProject (edited (.int 2))).events 0) ∧
    WellTyped (World.ofProject (edited (.int 2))).project.events ∧
    (∀ e ∈ (World.ofProject (edited (.int 2))).project.events, validValue e.kind e.len e.value) ∧
    (enumRow pageProp).read ver (World.ofProject (edited (.int 2))) 0 = .ok (some (.int 2)) := by
  refine ⟨by decide, .parsed _, ⟨by simp [pageProp], by
    intro k hk
    simp [pluginClasses, pageProp] at hk⟩, ?_, ?_, rfl⟩
  · rw [ofProject_project]; exact Demo.wellTyped_of (by decide +kernel)
  · rw [ofProject_project]
    intro e he
    simp only [edited, List.mem_cons, List.not_mem_nil, or_false] at he
    rcases he with rfl | rfl | rfl
    · exact ⟨by decide, by decide⟩
    · exact ⟨_, rfl, rfl⟩
    · exact ⟨rfl, rfl, by simp, rfl, rfl, by simp [PyFLP.u16], rfl, rfl, by simp, rfl, rfl, by simp [PyFLP.u8], rfl, rfl, by simp,
        rfl, rfl, by simp [PyFLP.u32], rfl, rfl, by simp [PyFLP.u32], rfl, trivial, by simp, trivial⟩

end

end PyFLP
