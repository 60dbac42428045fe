import Verif.Notebook
import Verif.Props.Plugins
/-!
# C114: Fruity NoteBook 2
-/

namespace PyFLP

open Spec

namespace Spec

/-- The first plugin data of the model is that of a notebook with this active page, these pages and this mark. -/
def HasNotebook (w : World) (t : Nat) (u : Bytes) (page : Int) (pages : List Page) (editable : Bool) : Prop :=
  valueOf (w.events t) 213 = some (.notebook u page pages editable)

/-- The number of bytes of a text in UTF-16. -/
def utf16Size (s : PStr) : Nat := (s.map fun c => if c < 0x10000 then 2 else 4).sum

/-- A page that can be stored: its index is a 32-bit number other than -1, and its text has no unpaired surrogates and no zero at
the end and is not longer than the number of 16-bit units the page says it has. -/
def PageFits : Page → Prop
  | .stop => True
  | .text i n s => (-2 ^ 31 ≤ i ∧ i < 2 ^ 31 ∧ i ≠ -1) ∧ (∀ c ∈ s, isScalar c) ∧ s.getLast? ≠ some 0 ∧ utf16Size s ≤ 2 * n

/-- A page that cannot be written: its index is no 32-bit number, or its text has an unpaired surrogate or is longer than the page
says. -/
def PageRefused : Page → Prop
  | .stop => False
  | .text i n s => (i < -2 ^ 31 ∨ 2 ^ 31 ≤ i) ∨ (i ≠ -1 ∧ ((∃ c ∈ s, ¬ isScalar c) ∨ 2 * n < utf16Size s))

/-- No file can be made of the project. -/
def Unsavable [FloatEnv] (w : World) : Prop := ∀ file, saveBytes w.project ≠ .ok file

end Spec

theorem utf16Encode_size {s : PStr} {t : Bytes} (h : utf16Encode s = .ok t) : t.length = utf16Size s := by
  induction s generalizing t with
  | nil => simp only [utf16Encode] at h; cases h; rfl
  | cons c cs ih =>
    obtain ⟨b, t', hb, ht', rfl⟩ := utf16Encode_cons_ok h
    rw [List.length_append, ih ht']
    unfold utf16Size
    rw [List.map_cons, List.sum_cons]
    congr 1
    unfold utf16Char at hb
    split at hb
    · injection hb with hb
      subst hb
      rw [if_pos (by omega)]
      rfl
    · split at hb
      · injection hb with hb
        subst hb
        rw [if_neg (by omega)]
        rfl
      · cases hb

theorem pageFits_valid {pg : Page} (h : PageFits pg) : validPage pg := by
  cases pg with
  | stop => trivial
  | text i n s =>
    obtain ⟨h1, h2, h3, h4⟩ := h
    exact ⟨h1, h2, h3, fun t ht => by rw [utf16Encode_size ht]; exact h4⟩

theorem utf16Encode_scalar {s : PStr} (h : ∀ c ∈ s, isScalar c) : ∃ t, utf16Encode s = .ok t := by
  cases hs : utf16Encode s with
  | ok t => exact ⟨t, rfl⟩
  | error e =>
    exfalso
    induction s generalizing e with
    | nil => cases hs
    | cons c cs ih =>
      unfold utf16Encode at hs
      have hc := h c (by simp)
      cases hu : utf16Char c with
      | none =>
        unfold utf16Char at hu
        unfold isScalar at hc
        split at hu
        · cases hu
        · split at hu
          · cases hu
          · omega
      | some b =>
        rw [hu] at hs
        cases ht : utf16Encode cs with
        | ok t => rw [ht] at hs; cases hs
        | error e' => exact ih (fun c hc => h c (by simp [hc])) _ ht

/-! ### Reading and assigning -/

theorem notebook_first {w : World} {L : Nat → Prop} (r : WReach w L) {t : Nat} (ht : L t) {v : Value}
    (h : valueOf (w.events t) 213 = some v) :
    ∃ ref, w.getEvent t [213] = .ok (some ref) ∧ w.heap.first t 213 = .ok ref ∧ (w.ev ref).id = 213 ∧ (w.ev ref).value = v := by
  rcases World.first_value r ht 213 with ⟨ref, f1, _, f2, f3⟩ | ⟨_, f2⟩
  · refine ⟨ref, ?_, f1, f3, ?_⟩
    · unfold World.getEvent
      rw [if_neg (by simp)]
      unfold World.firstOf
      have : w.contains t 213 = true := by
        rw [World.contains_eq r ht, h]
        rfl
      rw [this, if_pos rfl, f1]
      rfl
    · rw [h] at f2
      injection f2 with f2
      exact f2.symm
  · rw [h] at f2; cases f2

theorem notebook_read {α : Type} {w : World} {L : Nat → Prop} (r : WReach w L) {t : Nat} (ht : L t) (d : Descr α) (hd : d.ids = [213])
    {v : Value} (h : valueOf (w.events t) 213 = some v) {x : Py (Option α)} (hx : ∀ e : Event, e.value = v → d.get e = x) :
    d.read w t = x := by
  obtain ⟨ref, f1, -, -, f4⟩ := notebook_first r ht h
  unfold Descr.read
  rw [hd, f1]
  exact hx _ f4

theorem notebook_write {α : Type} {w : World} {L : Nat → Prop} (r : WReach w L) {t : Nat} (ht : L t) (d : Descr α) (hd : d.ids = [213])
    (hr : d.readonly = false) {v v' : Value} (h : valueOf (w.events t) 213 = some v) {x : α}
    (hx : ∀ e : Event, e.value = v → d.set e x = .ok { e with value := v' }) :
    ∃ w', d.write w t x = (w', .ok ()) ∧ Assigned w w' L t 213 v' ∧ valueOf (w'.events t) 213 = some v' := by
  obtain ⟨ref, f1, f2, f3, f4⟩ := notebook_first r ht h
  have has := assigned_first r ht v' f2 f3 (by rw [h, f4])
  refine ⟨_, ?_, has, by rw [has.model, valueOf_setFirst_self (by rw [h]; rfl)]⟩
  unfold Descr.write
  rw [hd, hr, if_neg (by decide), f1]
  simp only [hx _ f4]

theorem utf16Encode_nonscalar {s : PStr} {t : Bytes} (h : utf16Encode s = .ok t) : ∀ c ∈ s, isScalar c := by
  induction s generalizing t with
  | nil => simp
  | cons c cs ih =>
    obtain ⟨b, t', hb, ht', rfl⟩ := utf16Encode_cons_ok h
    intro x hx
    rcases List.mem_cons.1 hx with rfl | hx
    · unfold utf16Char at hb
      unfold isScalar
      split at hb
      · omega
      · split at hb
        · omega
        · cases hb
    · exact ih ht' x hx

theorem pageRefused_build {pg : Page} (h : PageRefused pg) {b : Bytes} : pageBuild pg ≠ .ok b := by
  intro hb
  cases pg with
  | stop => exact h
  | text i n s =>
    unfold pageBuild at hb
    dsimp only at hb
    split at hb
    · cases hb
    next b' hi =>
    have hfit := (intBuild_ok_iff (w := 4) (s := true) (v := i)).1 ⟨_, hi⟩
    rcases h with h | ⟨hne, h⟩
    · simp [intFits] at hfit
      omega
    · rw [if_neg hne] at hb
      split at hb
      · cases hb
      next t ht =>
      rcases h with ⟨c, hc, hs⟩ | h
      · exact hs (utf16Encode_nonscalar ht c hc)
      · rw [if_pos (by rw [utf16Encode_size ht]; omega)] at hb
        cases hb

section
variable [FloatEnv]

/-- In a project that can be stored the data is an event of the notebook class. -/
theorem notebook_valid {w w' : World} {L : Nat → Prop} {t : Nat} {u : Bytes} {p : Int} {ps : List Page} {b : Bool}
    (h : HasNotebook w t u p ps b) {v' : Value} (has : Assigned w w' L t 213 v') (hst : Storable w) :
    (u.length = 4 ∧ (0 ≤ p ∧ p < 2 ^ 32) ∧ ∀ pg ∈ ps, validPage pg) ∧
    ((validValue .notebook 0 v') → Storable w') ∧
    ((∀ bs, Kind.build .notebook 0 v' ≠ .ok bs) → Unsavable w') := by
  have key : ∀ e ∈ w.project.events, valueOf (w.events t) 213 = some e.value →
      e.kind = .notebook ∧ (u.length = 4 ∧ (0 ≤ p ∧ p < 2 ^ 32) ∧ ∀ pg ∈ ps, validPage pg) := by
    intro e he hv
    unfold HasNotebook at h
    rw [h] at hv
    injection hv with hv
    have hval := hst.valid e he
    rw [← hv] at hval
    have hk : e.kind = .notebook := by
      cases hk : e.kind <;> rw [hk] at hval <;> first | rfl | exact absurd hval (by simp [validValue])
    rw [hk] at hval
    exact ⟨hk, hval⟩
  obtain ⟨i, e, p1, p2, p3, p4⟩ := has.project
  have hmem := List.mem_of_getElem? p1
  refine ⟨(key e hmem p3).2, fun hv => ?_, fun hb file hs => ?_⟩
  · refine assigned_storable has hst (by decide) (by decide) fun e he _ hve => ?_
    rw [(key e he hve).1]
    cases v' <;> exact hv
  · obtain ⟨bs, hbs⟩ := saveBytes_mem hs { e with value := v' } (by
      rw [p4]
      exact List.mem_set (List.getElem?_eq_some_iff.1 p1).1 _)
    unfold Event.payload at hbs
    dsimp only at hbs
    rw [(key e hmem p3).1] at hbs
    refine hb bs ?_
    cases v' <;> exact hbs

end

/-! ## C114 -/

/-- C114, reading: the active page, the mark and the pages are those of the first plugin data; without plugin data they are
`None`, and none of them can be assigned. -/
theorem C114_get {w : World} {L : Nat → Prop} (r : WReach w L) {t : Nat} (ht : L t) :
    (∀ u p ps b, HasNotebook w t u p ps b →
      notebookActive.read w t = .ok (some p) ∧ notebookEditable.read w t = .ok (some b) ∧
      notebookPages.read w t = .ok (some ps)) ∧
    ((∀ e ∈ w.events t, e.id ≠ 213) →
      (notebookActive.read w t = .ok none ∧ notebookEditable.read w t = .ok none ∧ notebookPages.read w t = .ok none) ∧
      (∀ n, notebookActive.write w t n = (w, .error .propertyCannotBeSet)) ∧
      (∀ n, notebookEditable.write w t n = (w, .error .propertyCannotBeSet)) ∧
      ∀ n, notebookPages.write w t n = (w, .error .propertyCannotBeSet)) := by
  refine ⟨fun u p ps b h => ⟨?_, ?_, ?_⟩, fun h => ?_⟩
  · exact notebook_read r ht _ rfl h fun e he => by unfold notebookActive; simp only [he]
  · exact notebook_read r ht _ rfl h fun e he => by unfold notebookEditable; simp only [he]
  · exact notebook_read r ht _ rfl h fun e he => by unfold notebookPages; simp only [he]
  · have h' : ∀ e ∈ w.events t, e.id ∉ [213] := fun e he => by simpa using h e he
    have h1 := C33_absent_partial r ht notebookActive (by decide) h'
    have h2 := C33_absent_partial r ht notebookEditable (by decide) h'
    have h3 := C33_absent_partial r ht notebookPages (by decide) h'
    exact ⟨⟨h1.1, h2.1, h3.1⟩, h1.2, h2.2, h3.2⟩

variable [FloatEnv]

/-- C114, assigning the active page: it is changed and nothing else is.  If it is a 32-bit number the project can be stored as
before, otherwise it cannot be saved. -/
theorem C114_active {w : World} {L : Nat → Prop} (r : WReach w L) {t : Nat} (ht : L t) {u : Bytes} {p : Int} {ps : List Page}
    {b : Bool} (h : HasNotebook w t u p ps b) (n : Int) :
    ∃ w', notebookActive.write w t n = (w', .ok ()) ∧ HasNotebook w' t u n ps b ∧
      Assigned w w' L t 213 (.notebook u n ps b) ∧
      (Storable w → (0 ≤ n ∧ n < 2 ^ 32 → Storable w') ∧ (n < 0 ∨ 2 ^ 32 ≤ n → Unsavable w')) := by
  obtain ⟨w', h1, h2, h3⟩ := notebook_write (x := n) (v' := .notebook u n ps b) r ht notebookActive rfl rfl h
    fun e he => by unfold notebookActive; simp only [he]
  refine ⟨w', h1, h3, h2, fun hst => ?_⟩
  obtain ⟨⟨a1, -, a3⟩, a4, a5⟩ := notebook_valid h h2 hst
  refine ⟨fun hn => a4 ⟨a1, hn, a3⟩, fun hn => a5 fun bs hb => ?_⟩
  simp only [Kind.build, notebookBuild] at hb
  rw [if_neg (by omega)] at hb
  split at hb
  · cases hb
  next q hq =>
  have := (intBuild_ok_iff (w := 4) (s := false) (v := n)).1 ⟨_, hq⟩
  simp [intFits] at this
  omega

/-- C114, assigning the mark: it is changed and nothing else is, and the project can be stored as before. -/
theorem C114_editable {w : World} {L : Nat → Prop} (r : WReach w L) {t : Nat} (ht : L t) {u : Bytes} {p : Int} {ps : List Page}
    {b : Bool} (h : HasNotebook w t u p ps b) (x : Bool) :
    ∃ w', notebookEditable.write w t x = (w', .ok ()) ∧ HasNotebook w' t u p ps x ∧
      Assigned w w' L t 213 (.notebook u p ps x) ∧ (Storable w → Storable w') := by
  obtain ⟨w', h1, h2, h3⟩ := notebook_write (x := x) (v' := .notebook u p ps x) r ht notebookEditable rfl rfl h
    fun e he => by unfold notebookEditable; simp only [he]
  exact ⟨w', h1, h3, h2, fun hst => (notebook_valid h h2 hst).2.1 (notebook_valid h h2 hst).1⟩

/-- C114, assigning the pages: they are changed and nothing else is.  If all of them fit the project can be stored as before, if
one is refused it cannot be saved. -/
theorem C114_pages {w : World} {L : Nat → Prop} (r : WReach w L) {t : Nat} (ht : L t) {u : Bytes} {p : Int} {ps : List Page}
    {b : Bool} (h : HasNotebook w t u p ps b) (new : List Page) :
    ∃ w', notebookPages.write w t new = (w', .ok ()) ∧ HasNotebook w' t u p new b ∧
      Assigned w w' L t 213 (.notebook u p new b) ∧
      (Storable w → ((∀ pg ∈ new, PageFits pg) → Storable w') ∧ ((∃ pg ∈ new, PageRefused pg) → Unsavable w')) := by
  obtain ⟨w', h1, h2, h3⟩ := notebook_write (x := new) (v' := .notebook u p new b) r ht notebookPages rfl rfl h
    fun e he => by unfold notebookPages; simp only [he]
  refine ⟨w', h1, h3, h2, fun hst => ?_⟩
  obtain ⟨⟨a1, a2, -⟩, a4, a5⟩ := notebook_valid h h2 hst
  refine ⟨fun hn => a4 ⟨a1, a2, fun pg hpg => pageFits_valid (hn pg hpg)⟩, fun ⟨pg, hpg, hr⟩ => a5 fun bs hb => ?_⟩
  simp only [Kind.build, notebookBuild] at hb
  rw [if_neg (by omega)] at hb
  split at hb
  · cases hb
  split at hb
  · cases hb
  next q hq =>
  obtain ⟨y, hy⟩ := manyBuild_mem hq pg hpg
  exact pageRefused_build hr hy

omit [FloatEnv] in
theorem modify_at {α : Type} (pre post : List α) (x : α) (f : α → α) :
    (pre ++ x :: post).modify pre.length f = pre ++ f x :: post := by
  induction pre with
  | nil => rfl
  | cons a pre ih => simp only [List.cons_append, List.length_cons, List.modify_succ_cons, ih]

/-- C114, changing the text of a page: the text of this page is changed and nothing else is, and if it is not longer than the
page says, the project can be stored as before.  Missing: longer texts, see `C114_text_refuted`. -/
theorem C114_text_partial {w : World} {L : Nat → Prop} (r : WReach w L) {t : Nat} (ht : L t) {u : Bytes} {p : Int}
    {pre post : List Page} {i : Int} {n : Nat} {old : PStr} {b : Bool}
    (h : HasNotebook w t u p (pre ++ .text i n old :: post) b) (s : PStr) :
    ∃ w', w.setPageText t pre.length s = (w', .ok ()) ∧ HasNotebook w' t u p (pre ++ .text i n s :: post) b ∧
      Assigned w w' L t 213 (.notebook u p (pre ++ .text i n s :: post) b) ∧
      (Storable w → (∀ c ∈ s, isScalar c) → s.getLast? ≠ some 0 → utf16Size s ≤ 2 * n → Storable w') := by
  obtain ⟨w', h1, h3, h2, -⟩ := C114_pages r ht h (pre ++ .text i n s :: post)
  have hmod := modify_at pre post (.text i n old) (Page.withText s)
  refine ⟨w', ?_, h3, h2, fun hst hs hz hl => ?_⟩
  · unfold World.setPageText
    rw [((C114_get r ht).1 _ _ _ _ h).2.2]
    dsimp only
    rw [if_pos (by simp), hmod]
    exact h1
  · obtain ⟨⟨a1, a2, a3⟩, a4, -⟩ := notebook_valid h h2 hst
    refine a4 ⟨a1, a2, fun pg hpg => ?_⟩
    rcases List.mem_append.1 hpg with hpg | hpg
    · exact a3 pg (by simp [hpg])
    · rcases List.mem_cons.1 hpg with rfl | hpg
      · have := a3 (.text i n old) (by simp)
        exact pageFits_valid ⟨this.1, hs, hz, hl⟩
      · exact a3 pg (by simp [hpg])

/-- C114: a page the notebook does not have raises `IndexError`, and nothing changes. -/
theorem C114_no_page {w : World} {L : Nat → Prop} (r : WReach w L) {t : Nat} (ht : L t) {u : Bytes} {p : Int}
    {ps : List Page} {b : Bool} (h : HasNotebook w t u p ps b) {k : Nat} (hk : ps.length ≤ k) (s : PStr) :
    w.setPageText t k s = (w, .error .indexError) := by
  unfold World.setPageText
  rw [((C114_get r ht).1 _ _ _ _ h).2.2]
  dsimp only
  rw [if_neg (by omega)]

/-- C114: without plugin data `pages` is `None`, so that changing the text of a page raises `TypeError`, and nothing changes. -/
theorem C114_no_data {w : World} {L : Nat → Prop} (r : WReach w L) {t : Nat} (ht : L t)
    (h : ∀ e ∈ w.events t, e.id ≠ 213) (k : Nat) (s : PStr) : w.setPageText t k s = (w, .error .typeError) := by
  unfold World.setPageText
  rw [((C114_get r ht).2 h).1.2.2]

/-- C114 is false of longer texts: the length of the page stays, and the project cannot be saved. -/
theorem C114_text_refuted {w : World} {L : Nat → Prop} (r : WReach w L) {t : Nat} (ht : L t) {u : Bytes} {p : Int}
    {pre post : List Page} {i : Int} {n : Nat} {old : PStr} {b : Bool}
    (h : HasNotebook w t u p (pre ++ .text i n old :: post) b) (hst : Storable w) {s : PStr} (hs : 2 * n < utf16Size s) :
    ∃ w', w.setPageText t pre.length s = (w', .ok ()) ∧ HasNotebook w' t u p (pre ++ .text i n s :: post) b ∧ Unsavable w' := by
  obtain ⟨w', h1, h2, h3, -⟩ := C114_text_partial r ht h s
  obtain ⟨w'', g1, -, g2, g3⟩ := C114_pages r ht h (pre ++ .text i n s :: post)
  have hne : i ≠ -1 := ((notebook_valid h h3 hst).1.2.2 (.text i n old) (by simp)).1.2.2
  have : w'' = w' := by
    unfold World.setPageText at h1
    rw [((C114_get r ht).1 _ _ _ _ h).2.2] at h1
    dsimp only at h1
    rw [if_pos (by simp)] at h1
    have hmod := modify_at pre post (.text i n old) (Page.withText s)
    rw [hmod] at h1
    simp only [Page.withText] at h1
    rw [g1] at h1
    injection h1
  subst this
  exact ⟨_, h1, h2, (g3 hst).2 ⟨.text i n s, by simp, .inr ⟨hne, .inr hs⟩⟩⟩

namespace Spec

/-- What the documentation says of the pages: `pages[n]` is page number `n`, as long as the notebook has been read from a
file. -/
def PagesByNumber : Prop :=
  ∀ (w : World) (L : Nat → Prop) (t : Nat) (u : Bytes) (p : Int) (ps : List Page) (b : Bool), WReach w L → L t → Storable w →
    HasNotebook w t u p ps b → ∀ (k : Nat) (pg : Page), ps[k]? = some pg → ∃ n s, pg = .text k n s

end Spec

namespace Demo

/-- A slot with a notebook: pages 1 and 0, and the end mark. -/
def notes : Project := ⟨0, 1, 96, [⟨199, .ascii, .str (PStr.lit "20.8.3"), 7⟩,
  ⟨201, .unicode, .str (PStr.lit "Fruity NoteBook 2"), 36⟩,
  ⟨213, .notebook, .notebook [0, 0, 0, 0] 1 [.text 1 5 (PStr.lit "verse"), .text 0 2 (PStr.lit "hi"), .stop] true, 37⟩]⟩

theorem notes_storable : Storable (World.ofProject notes) := by
  refine ⟨by decide, by decide, by rw [ofProject_project]; exact Demo.wellTyped_of (by decide +kernel), ?_⟩
  rw [ofProject_project]
  intro e he
  simp only [notes, List.mem_cons, List.not_mem_nil, or_false] at he
  rcases he with rfl | rfl | rfl
  · exact ⟨by decide, by decide⟩
  · exact valid_text (.inr rfl) (by unfold Storable1 isScalar; decide +kernel)
  · refine ⟨by decide, by decide, fun x hx => pageFits_valid ?_⟩
    simp only [List.mem_cons, List.not_mem_nil, or_false] at hx
    rcases hx with rfl | rfl | rfl
    · exact ⟨by decide, by unfold isScalar; decide +kernel, by decide +kernel, by decide +kernel⟩
    · exact ⟨by decide, by unfold isScalar; decide +kernel, by decide +kernel, by decide +kernel⟩
    · trivial

omit [FloatEnv] in
theorem notes_has : HasNotebook (World.ofProject notes) 0 [0, 0, 0, 0] 1
    ([] ++ .text 1 5 (PStr.lit "verse") :: [.text 0 2 (PStr.lit "hi"), .stop]) true := by
  unfold HasNotebook
  decide +kernel

end Demo

/-- C114: the pages are in the order of the file, with the end mark among them, and not by their numbers. -/
theorem C114_numbers_refuted : ¬ PagesByNumber := by
  intro h
  obtain ⟨n, s, hp⟩ := h (World.ofProject Demo.notes) (· = 0) 0 _ _ _ _ (.parsed _) rfl Demo.notes_storable Demo.notes_has 0 _ rfl
  injection hp with hp
  exact absurd hp (by decide)

/-- The hypotheses of the C114 theorems can be met, and longer texts exist. -/
example : WReach (World.ofProject Demo.notes) (· = 0) ∧ Storable (World.ofProject Demo.notes) ∧
    (∃ u p pre post, HasNotebook (World.ofProject Demo.notes) 0 u p (pre ++ .text 1 5 (PStr.lit "verse") :: post) true) ∧
    utf16Size (PStr.lit "intro") ≤ 2 * 5 ∧ 2 * 5 < utf16Size (PStr.lit "chorus") ∧
    notebookPages.read (World.ofProject Demo.notes) 0 =
      .ok (some [.text 1 5 (PStr.lit "verse"), .text 0 2 (PStr.lit "hi"), .stop]) :=
  ⟨.parsed _, Demo.notes_storable, ⟨_, _, _, _, Demo.notes_has⟩, by decide +kernel, by decide +kernel,
    ((C114_get (.parsed _) rfl).1 _ _ _ _ Demo.notes_has).2.2⟩

/-- It has three pages. -/
example (s : PStr) : (World.ofProject Demo.notes).setPageText 0 3 s = (World.ofProject Demo.notes, .error .indexError) :=
  C114_no_page (.parsed _) rfl Demo.notes_has (by decide) s

/-- A project with a version and nothing else has no plugin data. -/
example (k : Nat) (s : PStr) :
    let w := World.ofProject ⟨0, 0, 96, [⟨199, .ascii, .str (PStr.lit "20.8"), 5⟩]⟩
    w.setPageText 0 k s = (w, .error .typeError) :=
  C114_no_data (.parsed _) rfl (by decide +kernel) k s

end PyFLP
