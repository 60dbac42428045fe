import Verif.WinPaths
import Verif.Props.ChannelProps
import Verif.Props.Undo
/-!
# Paths on Windows (C144)
-/

namespace PyFLP

open Spec

namespace Spec

/-- A separator: `\` or `/`. -/
def isSep (c : Nat) : Prop := c = 92 ∨ c = 47

/-- The usual paths: `\folder\file`, `C:\folder\file` or `C:file`, `folder\file` without colons, and
`\\computer\share\folder\file`.  (Both kinds of slashes, any number of them between names, dots.) -/
inductive Usual : PStr → Prop
  | rooted {a : Nat} {q : PStr} (ha : isSep a) (hq : ∀ c, q.head? = some c → ¬ isSep c) : Usual (a :: q)
  | drive {x : Nat} (q : PStr) (hx : (65 ≤ x ∧ x ≤ 90) ∨ (97 ≤ x ∧ x ≤ 122)) : Usual (x :: 58 :: q)
  | relative {q : PStr} (h1 : ∀ c, q.head? = some c → ¬ isSep c) (h2 : 58 ∉ q) : Usual q
  | share {a b c : Nat} {m s q : PStr} (ha : isSep a) (hb : isSep b) (hc : isSep c) (hm : m ≠ []) (hs : s ≠ [])
      (hm' : ∀ c ∈ m, ¬ isSep c) (hs' : ∀ c ∈ s, ¬ isSep c) (hx : m ≠ PStr.lit "?")
      (hq : ∀ c, q.head? = some c → isSep c) : Usual (a :: b :: (m ++ c :: (s ++ q)))

/-- A name in a path. -/
def isName (n : PStr) : Prop := n ≠ [] ∧ n ≠ PStr.lit "." ∧ ∀ c ∈ n, ¬ isSep c

/-- Names with backslashes between them. -/
def joined (ns : List PStr) : PStr := [92].intercalate ns

/-- Texts as Windows programs write them: `C:\folder\file`, `\folder\file`, `folder\file`, `\\computer\share\folder\file`. -/
inductive Written : PStr → Prop
  | drive {x : Nat} {ns : List PStr} (hx : (65 ≤ x ∧ x ≤ 90) ∨ (97 ≤ x ∧ x ≤ 122)) (h : ∀ n ∈ ns, isName n) :
      Written (x :: 58 :: 92 :: joined ns)
  | rooted {ns : List PStr} (h : ∀ n ∈ ns, isName n) : Written (92 :: joined ns)
  | relative {ns : List PStr} (h : ∀ n ∈ ns, isName n ∧ 58 ∉ n) : Written (joined ns)
  | share {m s : PStr} {ns : List PStr} (hm : m ≠ []) (hs : s ≠ []) (hm' : ∀ c ∈ m, ¬ isSep c) (hs' : ∀ c ∈ s, ¬ isSep c)
      (hx : m ≠ PStr.lit "?") (h : ∀ n ∈ ns, isName n) : Written (92 :: 92 :: (m ++ 92 :: (s ++ 92 :: joined ns)))

end Spec

/-- What is between the separators. -/
structure WinNames (ns : List PStr) : Prop where
  names : ∀ x ∈ ns, x ≠ [] ∧ x ≠ [46] ∧ 92 ∉ x
  slash : ∀ x ∈ ns, 47 ∉ x

theorem winNames_of {s : PStr} (h47 : 47 ∉ s) : WinNames ((pySplit 92 s).filter fun n => !n.isEmpty && n != [46]) := by
  refine ⟨fun x hx => ?_, fun x hx h => h47 ((pySplit_mem (List.mem_filter.1 hx).1).2 47 h)⟩
  simp only [List.mem_filter, Bool.and_eq_true, Bool.not_eq_true', bne_iff_ne, ne_eq] at hx
  refine ⟨?_, hx.2.2, (pySplit_mem hx.1).1⟩
  rintro rfl
  simp at hx

theorem winNames_split {ns : List PStr} (h : WinNames ns) :
    (pySplit 92 (pyJoin 92 ns)).filter (fun n => !n.isEmpty && n != [46]) = ns := by
  by_cases hne : ns = []
  · subst hne; rfl
  · rw [pySplit_pyJoin hne (fun x hx => (h.names x hx).2.2)]
    refine List.filter_eq_self.2 fun x hx => ?_
    obtain ⟨h1, h2, -⟩ := h.names x hx
    cases x with
    | nil => exact absurd rfl h1
    | cons c cs => simpa using h2

theorem winNames_head {ns : List PStr} (h : WinNames ns) : (pyJoin 92 ns)[0]? ≠ some 92 := by
  cases ns with
  | nil => simp [pyJoin]
  | cons p ps =>
    obtain ⟨h1, -, h2⟩ := h.names p (by simp)
    cases p with
    | nil => exact absurd rfl h1
    | cons d ds =>
      intro e
      have : d = 92 := by
        cases ps with
        | nil => simpa [pyJoin] using e
        | cons q qs => simpa [pyJoin] using e
      subst this
      simp at h2

theorem winNames_colon {ns : List PStr} (h : ∀ x ∈ ns, 58 ∉ x) : 58 ∉ pyJoin 92 ns := by
  intro hm
  rcases pyJoin_mem hm with e | ⟨p, hp, hc⟩
  · exact absurd e (by decide)
  · exact h p hp hc

theorem dropWhile_sep {j : PStr} (h : j[0]? ≠ some 92) : j.dropWhile (· == 92) = j := by
  cases j with
  | nil => rfl
  | cons c cs =>
    have : (c == 92) = false := by simpa using h
    simp [List.dropWhile, this]

theorem dropWhile_head (s : PStr) : (s.dropWhile (· == 92))[0]? ≠ some 92 := by
  induction s with
  | nil => simp
  | cons c cs ih =>
    by_cases h : c = 92
    · subst h; simpa [List.dropWhile] using ih
    · have : (c == 92) = false := by simpa using h
      simp only [List.dropWhile, this]
      simpa using h

theorem not_letter92 : driveLetter 92 = false := by decide

/-! ### The forms of usual paths -/

theorem split_rooted {j : PStr} (h : j[0]? ≠ some 92) : winSplitRoot (92 :: j) = ([], [92], j) := by
  unfold winSplitRoot
  have h1 : ((92 : Nat) :: j)[1]? = j[0]? := by simp
  have hp : winPrefix (92 :: j) = ([], 92 :: j) := if_neg (by rw [h1]; exact fun x => h x.1)
  rw [hp]
  dsimp only
  rw [if_neg (by rw [h1]; exact fun x => h x.1)]
  unfold winDrive
  have hd : winLetter (92 :: j) = ([], 92 :: j, some 92) := if_neg (by simp [not_letter92])
  rw [hd]
  dsimp only
  rw [if_pos (by simp)]
  simp only [List.nil_append, List.dropWhile, beq_self_eq_true]
  rw [dropWhile_sep h]

theorem split_relative {j : PStr} (h : j[0]? ≠ some 92) (hc : 58 ∉ j) : winSplitRoot j = ([], [], j) := by
  unfold winSplitRoot
  have hp : winPrefix j = ([], j) := if_neg (fun x => h x.2)
  rw [hp]
  dsimp only
  rw [if_neg (fun x => h x.2.1)]
  unfold winDrive
  have hd : winLetter j = ([], j, j[0]?) := if_neg (fun x => hc (List.mem_of_getElem? x.1))
  rw [hd]
  dsimp only
  rw [if_neg h]
  rfl

theorem letter_ne {x : Nat} (hx : driveLetter x = true) : x ≠ 92 := by
  rintro rfl
  rw [not_letter92] at hx
  cases hx

theorem split_drive {x : Nat} (hx : driveLetter x = true) (j : PStr) :
    winSplitRoot (x :: 58 :: j) =
      if j[0]? = some 92 then ([x, 58], [92], j.dropWhile (· == 92)) else ([x, 58], [], j) := by
  unfold winSplitRoot
  have hp : winPrefix (x :: 58 :: j) = ([], x :: 58 :: j) := if_neg (by simp)
  rw [hp]
  dsimp only
  rw [if_neg (by simp)]
  unfold winDrive
  have hd : winLetter (x :: 58 :: j) = ([x, 58], j, j[0]?) := (if_pos (by simp [hx])).trans (by simp)
  rw [hd]
  rfl

theorem findSep_append {p r : PStr} (hp : 92 ∉ p) (i : Nat) (pre : PStr) (hi : pre.length = i) :
    findSep (pre ++ (p ++ 92 :: r)) i = some (i + p.length) := by
  unfold findSep
  rw [List.drop_append_of_le_length (by omega), List.drop_eq_nil_of_le (by omega), List.nil_append]
  have : (p ++ 92 :: r).findIdx? (· == 92) = some p.length := by
    induction p with
    | nil => rfl
    | cons c cs ih =>
      have hc : (c == 92) = false := by
        have : c ≠ 92 := by rintro rfl; simp at hp
        simpa using this
      rw [List.cons_append, List.findIdx?_cons, hc, ih (fun h => hp (List.mem_cons_of_mem _ h))]
      simp
  rw [this]
  simp [Nat.add_comm]

theorem findSep_none {p : PStr} (hp : 92 ∉ p) (i : Nat) (pre : PStr) (hi : pre.length = i) : findSep (pre ++ p) i = none := by
  unfold findSep
  rw [List.drop_append_of_le_length (by omega), List.drop_eq_nil_of_le (by omega), List.nil_append]
  have : p.findIdx? (· == 92) = none := by
    rw [List.findIdx?_eq_none_iff]
    intro c hc
    have : c ≠ 92 := by rintro rfl; exact hp hc
    simpa using this
  rw [this]
  rfl

theorem share_extended {m r : PStr} (hm : m ≠ []) (hm' : 92 ∉ m) (hx : m ≠ [63]) :
    splitExtended (92 :: 92 :: (m ++ 92 :: r)) = ([], 92 :: 92 :: (m ++ 92 :: r)) := by
  unfold splitExtended
  rw [if_neg]
  intro h
  match m, hm, hm', hx with
  | [a], _, _, hx =>
    simp at h
    exact hx (by rw [h])
  | a :: b :: m, _, hm', _ =>
    simp at h
    exact hm' (by rw [h.2]; simp)

theorem split_share {m s j : PStr} (hm : m ≠ []) (hs : s ≠ []) (hm' : 92 ∉ m) (hs' : 92 ∉ s) (hx : m ≠ [63])
    (hj : j = [] ∨ ∃ k, j = 92 :: k) :
    winSplitRoot (92 :: 92 :: (m ++ 92 :: (s ++ j))) = (92 :: 92 :: (m ++ 92 :: s), [92], j.drop 1) := by
  unfold winSplitRoot
  have hp : winPrefix (92 :: 92 :: (m ++ 92 :: (s ++ j))) = ([], 92 :: 92 :: (m ++ 92 :: (s ++ j))) :=
    (if_pos (by simp)).trans (share_extended hm hm' hx)
  rw [hp]
  dsimp only
  have h2 : (92 :: 92 :: (m ++ 92 :: (s ++ j)))[2]? ≠ some 92 := by
    cases m with
    | nil => exact absurd rfl hm
    | cons a m =>
      intro e
      have : a = 92 := by simpa using e
      exact hm' (by rw [this]; simp)
  rw [if_pos ⟨by simp, by simp, h2⟩]
  have f1 : findSep (92 :: 92 :: (m ++ 92 :: (s ++ j))) 2 = some (2 + m.length) := findSep_append hm' 2 [92, 92] rfl
  rw [f1]
  dsimp only
  have hre : 92 :: 92 :: (m ++ 92 :: (s ++ j)) = (92 :: 92 :: (m ++ [92])) ++ (s ++ j) := by simp
  have hl : (92 :: 92 :: (m ++ [92])).length = 2 + m.length + 1 := by simp; omega
  rcases hj with rfl | ⟨k, rfl⟩
  · have f2 : findSep (92 :: 92 :: (m ++ 92 :: (s ++ []))) (2 + m.length + 1) = none := by
      rw [hre, List.append_nil]
      exact findSep_none hs' _ _ hl
    rw [f2]
    unfold winShare
    rw [List.take_length, List.drop_eq_nil_of_le (Nat.le_succ _)]
    simp
  · have f2 : findSep (92 :: 92 :: (m ++ 92 :: (s ++ 92 :: k))) (2 + m.length + 1) = some (2 + m.length + 1 + s.length) := by
      rw [hre]
      exact findSep_append hs' _ _ hl
    rw [f2]
    dsimp only
    have hsl : s.length ≠ 0 := fun e => hs (List.length_eq_zero_iff.1 e)
    rw [if_neg (by omega)]
    unfold winShare
    have hre2 : 92 :: 92 :: (m ++ 92 :: (s ++ 92 :: k)) = (92 :: 92 :: (m ++ 92 :: s)) ++ 92 :: k := by simp
    have hl2 : 2 + m.length + 1 + s.length = (92 :: 92 :: (m ++ 92 :: s)).length := by simp; omega
    rw [hre2, hl2, List.take_left, ← List.drop_drop, List.drop_left]
    simp

/-- What `Path(q)` can be for a usual path. -/
inductive WinUsual : WinPath → Prop
  | rooted {ns : List PStr} (h : WinNames ns) : WinUsual ⟨[], [92], ns⟩
  | drive {x : Nat} {ns : List PStr} (hx : driveLetter x = true) (h : WinNames ns) : WinUsual ⟨[x, 58], [], ns⟩
  | driveRoot {x : Nat} {ns : List PStr} (hx : driveLetter x = true) (h : WinNames ns) : WinUsual ⟨[x, 58], [92], ns⟩
  | relative {ns : List PStr} (h : WinNames ns) (hc : ∀ x ∈ ns, 58 ∉ x) : WinUsual ⟨[], [], ns⟩
  | share {m s : PStr} {ns : List PStr} (hm : m ≠ []) (hs : s ≠ []) (hm' : 92 ∉ m) (hs' : 92 ∉ s) (hm4 : 47 ∉ m)
      (hs4 : 47 ∉ s) (hx : m ≠ [63]) (h : WinNames ns) : WinUsual ⟨92 :: 92 :: (m ++ 92 :: s), [92], ns⟩

theorem slashes_none {s : PStr} (h : 47 ∉ s) : winSlashes s = s := by
  unfold winSlashes
  conv => rhs; rw [← List.map_id s]
  refine List.map_congr_left fun c hc => ?_
  rw [if_neg (by rintro rfl; exact h hc)]
  rfl

theorem slashes_47 (s : PStr) : 47 ∉ winSlashes s := by
  intro hm
  obtain ⟨c, -, e⟩ := List.mem_map.1 hm
  split at e
  · cases e
  · contradiction

theorem slashes_nosep {s : PStr} (h : ∀ c ∈ s, ¬ isSep c) : 92 ∉ winSlashes s := by
  unfold winSlashes
  intro hm
  obtain ⟨c, hc, e⟩ := List.mem_map.1 hm
  refine h c hc ?_
  split at e
  · exact .inr (by assumption)
  · exact .inl e

theorem slashes_head {s : PStr} (h : ∀ c, s.head? = some c → ¬ isSep c) : (winSlashes s)[0]? ≠ some 92 := by
  cases s with
  | nil => simp [winSlashes]
  | cons c cs =>
    have := h c rfl
    intro e
    refine this ?_
    simp only [winSlashes, List.map_cons, List.getElem?_cons_zero, Option.some.injEq] at e
    split at e
    · exact .inr (by assumption)
    · exact .inl e

theorem slash_sep {a : Nat} (h : isSep a) : (if a = 47 then 92 else a) = 92 := by
  rcases h with rfl | rfl <;> rfl

theorem usual_of {q : PStr} (h : Usual q) : WinUsual (WinPath.of q) := by
  unfold WinPath.of
  cases h with
  | @rooted a q ha hq =>
    have e : winSlashes (a :: q) = 92 :: winSlashes q := by simp [winSlashes, slash_sep ha]
    rw [e, split_rooted (slashes_head hq)]
    exact .rooted (winNames_of (slashes_47 _))
  | @drive x q hx =>
    have hl : driveLetter x = true := by unfold driveLetter; simp; omega
    have e : winSlashes (x :: 58 :: q) = x :: 58 :: winSlashes q := by
      have : x ≠ 47 := by omega
      simp [winSlashes, this]
    rw [e, split_drive hl]
    split
    · exact .driveRoot hl (winNames_of fun h => slashes_47 q ((List.dropWhile_sublist _).mem h))
    · exact .drive hl (winNames_of (slashes_47 _))
  | relative h1 h2 =>
    have hc : 58 ∉ winSlashes q := by
      intro hm
      obtain ⟨c, hc, e⟩ := List.mem_map.1 hm
      split at e
      · cases e
      · subst e; exact h2 hc
    rw [split_relative (slashes_head h1) hc]
    refine .relative (winNames_of (slashes_47 _)) fun x hx => ?_
    intro h58
    exact hc ((pySplit_mem (List.mem_filter.1 hx).1).2 58 h58)
  | @share a b c m s q ha hb hc hm hs hm' hs' hx hq =>
    have e : winSlashes (a :: b :: (m ++ c :: (s ++ q))) = 92 :: 92 :: (winSlashes m ++ 92 :: (winSlashes s ++ winSlashes q)) := by
      simp [winSlashes, slash_sep ha, slash_sep hb, slash_sep hc]
    have e1 : winSlashes m = m := slashes_none fun h => hm' 47 h (.inr rfl)
    have e2 : winSlashes s = s := slashes_none fun h => hs' 47 h (.inr rfl)
    have hj : winSlashes q = [] ∨ ∃ k, winSlashes q = 92 :: k := by
      cases q with
      | nil => exact .inl rfl
      | cons d ds => exact .inr ⟨winSlashes ds, by simp [winSlashes, slash_sep (hq d rfl)]⟩
    have n1 : 92 ∉ m := fun h => hm' 92 h (.inl rfl)
    have n2 : 92 ∉ s := fun h => hs' 92 h (.inl rfl)
    rw [e, e1, e2, split_share hm hs n1 n2 hx hj]
    exact .share hm hs n1 n2 (fun h => hm' 47 h (.inr rfl)) (fun h => hs' 47 h (.inr rfl)) hx
      (winNames_of fun h => slashes_47 q (List.mem_of_mem_drop h))

theorem join_slash {ns : List PStr} (h : WinNames ns) : 47 ∉ pyJoin 92 ns := by
  intro hm
  rcases pyJoin_mem hm with e | ⟨p, hp, hc⟩
  · exact absurd e (by decide)
  · exact h.slash p hp hc

theorem letter_slash {x : Nat} (hx : driveLetter x = true) : x ≠ 47 := by
  rintro rfl
  exact absurd hx (by decide)

theorem of_key {p : WinPath} (h : WinUsual p) : WinPath.of (p.drive ++ p.root ++ pyJoin 92 p.names) = p := by
  unfold WinPath.of
  cases h with
  | rooted h =>
    have hs := join_slash h
    dsimp only
    rw [List.nil_append, List.singleton_append, slashes_none (by simpa using hs), split_rooted (winNames_head h), winNames_split h]
  | @drive x ns hx h =>
    have hs := join_slash h
    dsimp only
    rw [List.append_nil, List.cons_append, List.cons_append, List.nil_append,
      slashes_none (by simp only [List.mem_cons]; exact fun e => e.elim (fun e => letter_slash hx e.symm) (fun e => e.elim (by decide) hs)),
      split_drive hx, if_neg (winNames_head h), winNames_split h]
  | @driveRoot x ns hx h =>
    have hs := join_slash h
    dsimp only
    have e : [x, 58] ++ [92] ++ pyJoin 92 ns = x :: 58 :: 92 :: pyJoin 92 ns := rfl
    rw [e, slashes_none (by
        simp only [List.mem_cons]
        exact fun e => e.elim (fun e => letter_slash hx e.symm) (fun e => e.elim (by decide) fun e => e.elim (by decide) hs)),
      split_drive hx, if_pos (by simp)]
    have : (92 :: pyJoin 92 ns).dropWhile (· == 92) = pyJoin 92 ns := by
      simp only [List.dropWhile, beq_self_eq_true]
      exact dropWhile_sep (winNames_head h)
    rw [this, winNames_split h]
  | relative h hc =>
    have hs := join_slash h
    dsimp only
    rw [List.nil_append, List.nil_append, slashes_none hs, split_relative (winNames_head h) (winNames_colon hc), winNames_split h]
  | @share m s ns hm hs hm' hs' hm4 hs4 hx h =>
    have hj := join_slash h
    dsimp only
    have e : 92 :: 92 :: (m ++ 92 :: s) ++ [92] ++ pyJoin 92 ns = 92 :: 92 :: (m ++ 92 :: (s ++ 92 :: pyJoin 92 ns)) := by simp
    rw [e, slashes_none (by
        simp only [List.mem_cons, List.mem_append]
        rintro (e | e | e | e | e | e | e)
        · cases e
        · cases e
        · exact hm4 e
        · cases e
        · exact hs4 e
        · cases e
        · exact hj e), split_share hm hs hm' hs' hx (.inr ⟨_, rfl⟩)]
    rw [List.drop_succ_cons, List.drop_zero, winNames_split h]

/-- The text stored for a usual path is read as that path. -/
theorem WinPath.of_text {p : WinPath} (h : WinUsual p) : WinPath.of (World.pathText p.str) = p := by
  have key := of_key h
  unfold WinPath.str
  dsimp only
  split
  · next hs =>
    rw [List.isEmpty_iff] at hs
    rw [hs] at key
    exact key
  · unfold World.pathText
    split
    · next hs =>
      exfalso
      rw [hs] at key
      have h46 : WinPath.of [46] = ⟨[], [], []⟩ := by decide +kernel
      rw [h46] at key
      rw [← key] at hs
      simp [pyJoin] at hs
    · exact key

/-! ### Characters -/

theorem winLetter_mem {part : PStr} {c : Nat} (h : c ∈ (winLetter part).1 ∨ c ∈ (winLetter part).2.1) : c ∈ part := by
  unfold winLetter at h
  split at h
  · exact h.elim List.mem_of_mem_take List.mem_of_mem_drop
  · exact h.elim (fun h => absurd h (by simp)) id

theorem winDrive_mem {pre part : PStr} {c : Nat}
    (h : c ∈ (winDrive pre part).1 ∨ c ∈ (winDrive pre part).2.1 ∨ c ∈ (winDrive pre part).2.2) :
    c ∈ pre ∨ c ∈ part ∨ c = 92 := by
  unfold winDrive at h
  dsimp only at h
  split at h
  · rcases h with h | h | h
    · rcases List.mem_append.1 h with h | h
      · exact .inl h
      · exact .inr (.inl (winLetter_mem (.inl h)))
    · exact .inr (.inr (by simpa using h))
    · exact .inr (.inl (winLetter_mem (.inr ((List.dropWhile_sublist _).mem h))))
  · rcases h with h | h | h
    · rcases List.mem_append.1 h with h | h
      · exact .inl h
      · exact .inr (.inl (winLetter_mem (.inl h)))
    · cases h
    · exact .inr (.inl (winLetter_mem (.inr h)))

theorem winShare_mem {pre part : PStr} {i c : Nat}
    (h : c ∈ (winShare pre part i).1 ∨ c ∈ (winShare pre part i).2.1 ∨ c ∈ (winShare pre part i).2.2) :
    c ∈ pre ∨ c ∈ part ∨ c = 92 := by
  unfold winShare at h
  dsimp only at h
  rcases h with h | h | h
  · split at h
    · exact .inr (.inl (List.mem_of_mem_take h))
    · rcases List.mem_append.1 h with h | h
      · exact .inl h
      · exact .inr (.inl (List.mem_of_mem_take (List.mem_of_mem_drop h)))
  · exact .inr (.inr (by simpa using h))
  · exact .inr (.inl (List.mem_of_mem_drop h))

theorem winPrefix_mem {s : PStr} {c : Nat} (h : c ∈ (winPrefix s).1 ∨ c ∈ (winPrefix s).2) : c ∈ s ∨ c = 92 := by
  unfold winPrefix at h
  split at h
  · unfold splitExtended at h
    split at h
    · split at h
      · rcases h with h | h
        · rcases List.mem_append.1 h with h | h
          · exact .inl (List.mem_of_mem_take h)
          · exact .inl (List.mem_of_mem_drop (List.mem_of_mem_take h))
        · rcases List.mem_cons.1 h with h | h
          · exact .inr h
          · exact .inl (List.mem_of_mem_drop (List.mem_of_mem_drop h))
      · exact .inl (h.elim List.mem_of_mem_take List.mem_of_mem_drop)
    · exact .inl (h.elim (fun h => absurd h (by simp)) id)
  · exact .inl (h.elim (fun h => absurd h (by simp)) id)

theorem winSplit_mem {s : PStr} {c : Nat}
    (h : c ∈ (winSplitRoot s).1 ∨ c ∈ (winSplitRoot s).2.1 ∨ c ∈ (winSplitRoot s).2.2) : c ∈ s ∨ c = 92 := by
  have key : c ∈ (winPrefix s).1 ∨ c ∈ (winPrefix s).2 ∨ c = 92 := by
    unfold winSplitRoot at h
    dsimp only at h
    split at h
    · split at h
      · exact winDrive_mem h
      · split at h
        · exact winShare_mem h
        · split at h
          · exact winDrive_mem h
          · exact winShare_mem h
    · exact winDrive_mem h
  rcases key with h | h | h
  · exact winPrefix_mem (.inl h)
  · exact winPrefix_mem (.inr h)
  · exact .inr h

theorem win_text_mem {q : PStr} {c : Nat} (h : c ∈ World.pathText (WinPath.of q).str) : c ∈ q ∨ c = 92 := by
  have hs : ∀ {c}, c ∈ winSlashes q → c ∈ q ∨ c = 92 := by
    intro c h
    obtain ⟨d, hd, e⟩ := List.mem_map.1 h
    split at e
    · exact .inr e.symm
    · exact .inl (e ▸ hd)
  have key : c ∈ winSlashes q ∨ c = 92 := by
    unfold World.pathText at h
    split at h
    · cases h
    · next hne =>
      unfold WinPath.str at h hne
      dsimp only at h hne
      split at h
      · next he => rw [if_pos he] at hne; exact absurd rfl hne
      · unfold WinPath.of at h
        dsimp only at h
        rcases List.mem_append.1 h with h | h
        · rcases List.mem_append.1 h with h | h
          · exact winSplit_mem (.inl h)
          · exact winSplit_mem (.inr (.inl h))
        · rcases pyJoin_mem h with h | ⟨p, hp, hc⟩
          · exact .inr h
          · exact winSplit_mem (.inr (.inr ((pySplit_mem (List.mem_filter.1 hp).1).2 c hc)))
  exact key.elim hs .inr

theorem backslash_storable (k : Kind) : Storable1 k 92 := ⟨by decide, fun _ => by decide, fun _ => .inl (by decide)⟩

/-! ### Projects -/

theorem win_path_eq {w : World} {L : Nat → Prop} (r : WReach w L) {t : Nat} (ht : L t) {id : Nat} {s : PStr}
    (h : valueOf (w.events t) id = some (.str s)) : w.winPath t id = .ok (some (.of s)) := by
  unfold World.winPath
  rw [World.contains_eq r ht, h, if_pos Option.isSome_some, World.firstVal_eq r ht h]

theorem win_path_none {w : World} {L : Nat → Prop} (r : WReach w L) {t : Nat} (ht : L t) {id : Nat}
    (h : valueOf (w.events t) id = none) : w.winPath t id = .ok none := by
  unfold World.winPath
  rw [World.contains_eq r ht, h, if_neg (by simp)]

/-- C144, samples, for usual paths `q` (`C144_refuted` for the others): on Windows `sample_path` is the path with the stored
text; after `sample_path = Path(q)` it is `Path(q)`.  Only the stored text changes, and it is saved if the characters of `q`
can be.  Without the event the path is `None` and cannot be set. -/
theorem C144_sample_path_partial [FloatEnv] {w : World} {L : Nat → Prop} (r : WReach w L) {t : Nat} (ht : L t)
    (hst : Storable w) {q : PStr} (hq : Usual q) :
    (∃ s, valueOf (w.events t) 196 = some (.str s) ∧ w.winPath t 196 = .ok (some (.of s)) ∧
      ∃ w', w.setWinSamplePath t (.of q) = (w', .ok ()) ∧ w'.winPath t 196 = .ok (some (.of q)) ∧ WReach w' L ∧
        ChangedOnly w w' t [196] ∧
        ((∀ e ∈ w.project.events, e.id = 196 → ∀ c ∈ q, Storable1 e.kind c) → Storable w')) ∨
    (valueOf (w.events t) 196 = none ∧ w.winPath t 196 = .ok none ∧
      w.setWinSamplePath t (.of q) = (w, .error .propertyCannotBeSet)) := by
  cases h : valueOf (w.events t) 196 with
  | none =>
    refine .inr ⟨rfl, win_path_none r ht h, ?_⟩
    unfold World.setWinSamplePath
    rw [win_path_none r ht h]
  | some v =>
    obtain ⟨s, rfl⟩ := text_of r ht hst text196 h
    refine .inl ⟨s, rfl, win_path_eq r ht h, ?_⟩
    obtain ⟨w', p1, -, p3, p2, p4, p5⟩ :=
      path_set r ht hst text196 (by decide) (by decide) h (World.pathText (WinPath.of q).str)
    have p2 := win_path_eq p3 ht p2
    rw [WinPath.of_text (usual_of hq)] at p2
    refine ⟨w', ?_, p2, p3, p4, fun hc => p5 fun e he hid c hcm => ?_⟩
    · unfold World.setWinSamplePath
      rw [win_path_eq r ht h]
      exact p1
    · rcases win_text_mem hcm with hq | rfl
      · exact hc e he hid c hq
      · exact backslash_storable _

/-- C144, the data folder, for usual paths `q`: on Windows, after `data_path = Path(q)` it is `Path(q)`; only the stored text
changes, and it is saved if the characters of `q` can be.  Assigning a string `q` (usual or not) stores that string, or
nothing for `.`. -/
theorem C144_data_path_partial [FloatEnv] {w : World} {L : Nat → Prop} (r : WReach w L) {t : Nat} (ht : L t)
    (hst : Storable w) (q : PStr) :
    (∃ s, valueOf (w.events t) 202 = some (.str s) ∧ w.winPath t 202 = .ok (some (.of s)) ∧
      (∃ w', w.setDataPath t q = (w', .ok ()) ∧ w'.winPath t 202 = .ok (some (.of q)) ∧ WReach w' L ∧
        ChangedOnly w w' t [202]) ∧
      (Usual q → ∃ w', w.setWinDataPath t (.of q) = (w', .ok ()) ∧ w'.winPath t 202 = .ok (some (.of q)) ∧ WReach w' L ∧
        ChangedOnly w w' t [202] ∧
        ((∀ e ∈ w.project.events, e.id = 202 → ∀ c ∈ q, Storable1 e.kind c) → Storable w'))) ∨
    (valueOf (w.events t) 202 = none ∧ w.winPath t 202 = .ok none ∧
      w.setWinDataPath t (.of q) = (w, .error .propertyCannotBeSet)) := by
  cases h : valueOf (w.events t) 202 with
  | none =>
    refine .inr ⟨rfl, win_path_none r ht h, ?_⟩
    unfold World.setWinDataPath World.setDataPath
    rw [World.contains_eq r ht, h, if_neg (by simp)]
  | some v =>
    obtain ⟨s, rfl⟩ := text_of r ht hst text202 h
    refine .inl ⟨s, rfl, win_path_eq r ht h, ?_, fun hq => ?_⟩
    · obtain ⟨w', p1, -, p3, p0, p4, -⟩ := path_set r ht hst text202 (by decide) (by decide) h (World.pathText q)
      refine ⟨w', ?_, ?_, p3, p4⟩
      · unfold World.setDataPath
        rw [World.contains_eq r ht, h, if_pos Option.isSome_some]
        exact p1
      · rw [win_path_eq p3 ht p0]
        unfold World.pathText
        split
        · next hq => subst hq; decide +kernel
        · rfl
    · obtain ⟨w', p1, -, p3, p2, p4, p5⟩ :=
        path_set r ht hst text202 (by decide) (by decide) h (World.pathText (WinPath.of q).str)
      have p2 := win_path_eq p3 ht p2
      rw [WinPath.of_text (usual_of hq)] at p2
      refine ⟨w', ?_, p2, p3, p4, fun hc => p5 fun e he hid c hcm => ?_⟩
      · unfold World.setWinDataPath World.setDataPath
        rw [World.contains_eq r ht, h, if_pos Option.isSome_some]
        exact p1
      · rcases win_text_mem hcm with hq | rfl
        · exact hc e he hid c hq
        · exact backslash_storable _

/-- The hypotheses can be met: these are usual paths. -/
example : Usual (PStr.lit "C:\\Users/a/kick.wav") ∧ Usual (PStr.lit "\\\\server\\packs\\\\kick.wav") ∧
    Usual (PStr.lit "/kick.wav") ∧ Usual (PStr.lit "packs/./kick.wav") ∧ Usual [] :=
  ⟨.drive _ (by decide), .share (m := PStr.lit "server") (s := PStr.lit "packs") (.inl rfl) (.inl rfl) (.inl rfl) (by decide)
      (by decide) (by unfold isSep; decide +kernel) (by unfold isSep; decide +kernel) (by decide)
      (q := PStr.lit "\\\\kick.wav") (by intro c hc; cases hc; exact .inl rfl),
    .rooted (.inr rfl) (by intro c hc; cases hc; unfold isSep; decide),
    .relative (by intro c hc; cases hc; unfold isSep; decide) (by decide +kernel), .relative (by simp) (by simp)⟩

/-- Not so for every path: `Path("//m/")` is stored as `\\m\`, which is read as `\m`; `Path("./c:")` is stored as `c:`, a
drive. -/
theorem C144_refuted [FloatEnv] :
    ¬ (∀ (q : PStr) (w : World), Storable w → (valueOf (w.events 0) 196).isSome →
        (w.setWinSamplePath 0 (.of q)).1.winPath 0 196 = .ok (some (.of q))) ∧
    WinPath.of (World.pathText (WinPath.of (PStr.lit "./c:")).str) ≠ WinPath.of (PStr.lit "./c:") := by
  refine ⟨fun h => ?_, by decide +kernel⟩
  exact absurd (h (PStr.lit "//m/") (World.ofProject (Demo.sampled "a//b")) Demo.sampled_storable (by decide +kernel))
    (by decide +kernel)

theorem joined_eq (ns : List PStr) : joined ns = pyJoin 92 ns := by
  unfold joined
  induction ns with
  | nil => rfl
  | cons p ps ih =>
    cases ps with
    | nil => simp [List.intercalate, pyJoin]
    | cons q qs =>
      rw [pyJoin, ← ih]
      simp [List.intercalate]

theorem winNames_name {ns : List PStr} (h : ∀ n ∈ ns, isName n) : WinNames ns :=
  ⟨fun x hx => ⟨(h x hx).1, (h x hx).2.1, fun e => (h x hx).2.2 92 e (.inl rfl)⟩, fun x hx e => (h x hx).2.2 47 e (.inr rfl)⟩

theorem written_usual {s : PStr} (h : Written s) : ∃ p : WinPath, WinUsual p ∧ p.drive ++ p.root ++ pyJoin 92 p.names = s := by
  cases h with
  | @drive x ns hx h =>
    rw [joined_eq]
    exact ⟨_, .driveRoot (x := x) (by unfold driveLetter; simp; omega) (winNames_name h), by simp⟩
  | rooted h => rw [joined_eq]; exact ⟨_, .rooted (winNames_name h), by simp⟩
  | relative h =>
    rw [joined_eq]
    exact ⟨_, .relative (winNames_name fun n hn => (h n hn).1) fun x hx => (h x hx).2, by simp⟩
  | @share m s ns hm hs hm' hs' hx h =>
    rw [joined_eq]
    exact ⟨_, .share hm hs (fun e => hm' 92 e (.inl rfl)) (fun e => hs' 92 e (.inl rfl)) (fun e => hm' 47 e (.inr rfl))
      (fun e => hs' 47 e (.inr rfl)) hx (winNames_name h), by simp⟩

theorem written_text {s : PStr} (h : Written s) : World.pathText (WinPath.of s).str = s := by
  obtain ⟨p, hp, rfl⟩ := written_usual h
  rw [of_key hp]
  unfold WinPath.str
  dsimp only
  split
  · next hs =>
    rw [List.isEmpty_iff] at hs
    rw [hs]
    rfl
  · unfold World.pathText
    split
    · next hs =>
      exfalso
      have key := of_key hp
      rw [hs] at key
      have h46 : WinPath.of [46] = ⟨[], [], []⟩ := by decide +kernel
      rw [h46] at key
      rw [← key] at hs
      simp [pyJoin] at hs
    · rfl

theorem setFirstVal_same {w : World} {L : Nat → Prop} (r : WReach w L) {t : Nat} (ht : L t) {id : Nat} {v : Value}
    (h : valueOf (w.events t) id = some v) : w.setFirstVal t id v = (w, .ok ()) := by
  unfold World.setFirstVal
  rcases World.first_value r ht id with ⟨ref, f1, hlt, f2, -⟩ | ⟨-, f2⟩
  · rw [f1]
    rw [h] at f2
    have : v = (w.ev ref).value := Option.some.inj f2
    subst this
    exact congrArg (·, _) ((World.setEv_same hlt _).2 rfl)
  · rw [h] at f2; cases f2

/-- C144: on Windows, a path stored the way Windows programs write it is not changed at all by reading it and assigning it
back. -/
theorem C144_unchanged {w : World} {L : Nat → Prop} (r : WReach w L) {t : Nat} (ht : L t) {s : PStr} (hs : Written s) :
    (valueOf (w.events t) 196 = some (.str s) →
      ∃ p, w.winPath t 196 = .ok (some p) ∧ w.setWinSamplePath t p = (w, .ok ())) ∧
    (valueOf (w.events t) 202 = some (.str s) →
      ∃ p, w.winPath t 202 = .ok (some p) ∧ w.setWinDataPath t p = (w, .ok ())) := by
  refine ⟨fun h => ⟨_, win_path_eq r ht h, ?_⟩, fun h => ⟨_, win_path_eq r ht h, ?_⟩⟩
  · unfold World.setWinSamplePath
    rw [win_path_eq r ht h, written_text hs]
    exact setFirstVal_same r ht h
  · unfold World.setWinDataPath World.setDataPath
    rw [World.contains_eq r ht, h, if_pos Option.isSome_some, written_text hs]
    exact setFirstVal_same r ht h

/-- The hypotheses can be met. -/
example : Written (PStr.lit "C:\\a\\kick.wav") :=
  .drive (ns := [PStr.lit "a", PStr.lit "kick.wav"]) (by decide) (by unfold isName isSep; decide +kernel)

/-- C144, other systems: a text without slashes, such as a path written on Windows, is one name there; reading it and assigning
it back changes nothing. -/
theorem C144_elsewhere {w : World} {L : Nat → Prop} (r : WReach w L) {t : Nat} (ht : L t) {s : PStr} (hs : 47 ∉ s)
    (h0 : s ≠ []) (h1 : s ≠ PStr.lit ".") :
    (valueOf (w.events t) 196 = some (.str s) →
      w.path t 196 = .ok (some ⟨[], [s]⟩) ∧ w.setSamplePath t ⟨[], [s]⟩ = (w, .ok ())) ∧
    (valueOf (w.events t) 202 = some (.str s) →
      w.path t 202 = .ok (some ⟨[], [s]⟩) ∧ w.setDataPath t (PosixPath.str ⟨[], [s]⟩) = (w, .ok ())) := by
  have e1 : PosixPath.of s = ⟨[], [s]⟩ := by
    have hd : s.dropWhile (· == 47) = s := dropWhile_slash fun c hc => by
      rintro rfl
      exact hs (List.mem_of_mem_head? hc)
    have hr : splitRoot s = ([], s) := by
      unfold splitRoot
      rw [hd]
      simp
    have hj : s = pyJoin 47 [s] := by simp [pyJoin]
    have hp : pySplit 47 s = [s] := by
      conv => lhs; rw [hj]
      exact pySplit_pyJoin (by simp) (by simpa using hs)
    unfold PosixPath.of
    rw [hr, hp]
    have h1 : s ≠ [46] := h1
    cases s with
    | nil => exact absurd rfl h0
    | cons c cs => simp [h1]
  have e2 : PosixPath.str ⟨[], [s]⟩ = s := by
    unfold PosixPath.str
    cases s with
    | nil => exact absurd rfl h0
    | cons c cs => simp [pyJoin]
  have e3 : World.pathText s = s := if_neg h1
  refine ⟨fun h => ?_, fun h => ?_⟩
  · have hp := path_eq r ht h
    rw [e1] at hp
    refine ⟨hp, ?_⟩
    unfold World.setSamplePath
    rw [hp, e2, e3]
    exact setFirstVal_same r ht h
  · have hp := path_eq r ht h
    rw [e1] at hp
    refine ⟨hp, ?_⟩
    unfold World.setDataPath
    rw [World.contains_eq r ht, h, if_pos Option.isSome_some, e2, e3]
    exact setFirstVal_same r ht h

/-- The hypotheses can be met. -/
example : valueOf ((World.ofProject (Demo.sampled "C:\\a\\kick.wav")).events 0) 196 = some (.str (PStr.lit "C:\\a\\kick.wav")) ∧
    47 ∉ PStr.lit "C:\\a\\kick.wav" := by decide +kernel

namespace Spec

/-- What a text as Windows programs write it says: the drive or share, whether it starts at the root, and the names. -/
inductive Says : PStr → WinPath → Prop
  | drive {x : Nat} {ns : List PStr} (hx : (65 ≤ x ∧ x ≤ 90) ∨ (97 ≤ x ∧ x ≤ 122)) (h : ∀ n ∈ ns, isName n) :
      Says (x :: 58 :: 92 :: joined ns) ⟨[x, 58], [92], ns⟩
  | rooted {ns : List PStr} (h : ∀ n ∈ ns, isName n) : Says (92 :: joined ns) ⟨[], [92], ns⟩
  | relative {ns : List PStr} (h : ∀ n ∈ ns, isName n ∧ 58 ∉ n) : Says (joined ns) ⟨[], [], ns⟩
  | share {m s : PStr} {ns : List PStr} (hm : m ≠ []) (hs : s ≠ []) (hm' : ∀ c ∈ m, ¬ isSep c) (hs' : ∀ c ∈ s, ¬ isSep c)
      (hx : m ≠ PStr.lit "?") (h : ∀ n ∈ ns, isName n) :
      Says (92 :: 92 :: (m ++ 92 :: (s ++ 92 :: joined ns))) ⟨92 :: 92 :: (m ++ 92 :: s), [92], ns⟩

end Spec

/-- C144: on Windows, a path stored the way Windows programs write it is read as the drive or share, the root and the names that were
written. -/
theorem C144_says {w : World} {L : Nat → Prop} (r : WReach w L) {t : Nat} (ht : L t) {s : PStr} {p : WinPath} (hs : Says s p) :
    (valueOf (w.events t) 196 = some (.str s) → w.winPath t 196 = .ok (some p)) ∧
    (valueOf (w.events t) 202 = some (.str s) → w.winPath t 202 = .ok (some p)) := by
  have key : WinPath.of s = p := by
    cases hs with
    | @drive x ns hx h =>
      have := of_key (.driveRoot (x := x) (by unfold driveLetter; simp; omega) (winNames_name h))
      rw [joined_eq]
      simpa using this
    | rooted h => rw [joined_eq]; simpa using of_key (.rooted (winNames_name h))
    | relative h =>
      rw [joined_eq]
      simpa using of_key (.relative (winNames_name fun n hn => (h n hn).1) fun x hx => (h x hx).2)
    | @share m s ns hm hs hm' hs' hx h =>
      rw [joined_eq]
      have := of_key (.share hm hs (fun e => hm' 92 e (.inl rfl)) (fun e => hs' 92 e (.inl rfl)) (fun e => hm' 47 e (.inr rfl))
        (fun e => hs' 47 e (.inr rfl)) hx (winNames_name h))
      simpa using this
  exact ⟨fun h => by rw [← key]; exact win_path_eq r ht h, fun h => by rw [← key]; exact win_path_eq r ht h⟩

/-- The hypotheses can be met. -/
example : Says (PStr.lit "C:\\a\\b.wav") ⟨PStr.lit "C:", PStr.lit "\\", [PStr.lit "a", PStr.lit "b.wav"]⟩ :=
  .drive (x := 67) (ns := [PStr.lit "a", PStr.lit "b.wav"]) (.inl (by decide)) (by
    intro n hn
    simp only [List.mem_cons, List.not_mem_nil, or_false] at hn
    rcases hn with rfl | rfl <;> exact ⟨by decide, by decide, by unfold isSep; decide⟩)

/-- C144: a path that does not start with two separators has a drive exactly when it starts with a letter and a colon, and then the drive
is these two characters. -/
theorem C144_drive {w : World} {L : Nat → Prop} (r : WReach w L) {t : Nat} (ht : L t) {s : PStr}
    (h2 : ∀ a b q, s = a :: b :: q → ¬ (isSep a ∧ isSep b)) (hv : valueOf (w.events t) 196 = some (.str s)) :
    ∃ p, w.winPath t 196 = .ok (some p) ∧
      (p.drive ≠ [] ↔ ∃ x q, s = x :: 58 :: q ∧ ((65 ≤ x ∧ x ≤ 90) ∨ (97 ≤ x ∧ x ≤ 122))) ∧
      ∀ d, d ∈ p.drive → p.drive = s.take 2 := by
  refine ⟨_, win_path_eq r ht hv, ?_⟩
  have hsl : ∀ c, (if c = 47 then 92 else c) = 92 → isSep c := by
    intro c h
    split at h
    · exact .inr (by assumption)
    · exact .inl h
  have hp : ¬ ((winSlashes s)[1]? = some 92 ∧ (winSlashes s)[0]? = some 92) := by
    rintro ⟨x, y⟩
    match s, x, y with
    | a :: b :: q, x, y =>
      simp only [winSlashes, List.map_cons, List.getElem?_cons_succ, List.getElem?_cons_zero, Option.some.injEq] at x y
      exact h2 a b q rfl ⟨hsl a y, hsl b x⟩
  have e1 : winPrefix (winSlashes s) = ([], winSlashes s) := if_neg hp
  have e2 : (WinPath.of s).drive = (winLetter (winSlashes s)).1 := by
    unfold WinPath.of winSplitRoot
    rw [e1]
    dsimp only
    rw [if_neg (fun x => hp ⟨x.1, x.2.1⟩)]
    unfold winDrive
    dsimp only
    split <;> simp
  rw [e2]
  have e3 : ∀ q : PStr, ∀ x : Nat, ((65 ≤ x ∧ x ≤ 90) ∨ (97 ≤ x ∧ x ≤ 122)) →
      (winLetter (winSlashes (x :: 58 :: q))).1 = [x, 58] := by
    intro q x hx
    have : x ≠ 47 := by omega
    have hl : driveLetter x = true := by unfold driveLetter; simp; omega
    have : winSlashes (x :: 58 :: q) = x :: 58 :: winSlashes q := by simp [winSlashes, this]
    rw [this]
    unfold winLetter
    rw [if_pos (by simp [hl])]
    rfl
  have e4 : (winLetter (winSlashes s)).1 ≠ [] → ∃ x q, s = x :: 58 :: q ∧ ((65 ≤ x ∧ x ≤ 90) ∨ (97 ≤ x ∧ x ≤ 122)) := by
    intro h
    unfold winLetter at h
    split at h
    · next hc =>
      match s, hc with
      | [], hc => simp [winSlashes] at hc
      | [a], hc => simp [winSlashes] at hc
      | a :: b :: q, hc =>
        simp only [winSlashes, List.map_cons, List.getElem?_cons_succ, List.getElem?_cons_zero, Option.some.injEq, Option.map_some] at hc
        obtain ⟨q1, q2⟩ := hc
        have hb : b = 58 := by
          split at q1
          · cases q1
          · exact q1
        subst hb
        refine ⟨a, q, rfl, ?_⟩
        split at q2
        · rw [not_letter92] at q2; cases q2
        · unfold driveLetter at q2
          simp at q2
          omega
    · exact absurd rfl h
  refine ⟨⟨e4, ?_⟩, ?_⟩
  · rintro ⟨x, q, rfl, hx⟩
    rw [e3 q x hx]
    simp
  · intro d hd
    obtain ⟨x, q, rfl, hx⟩ := e4 (fun h => by rw [h] at hd; cases hd)
    rw [e3 q x hx]
    rfl

/-- The hypotheses can be met: a path relative to the folder of a drive. -/
example : ∀ a b q, PStr.lit "c:x" = a :: b :: q → ¬ (isSep a ∧ isSep b) := by
  intro a b q h
  cases h
  unfold isSep
  decide

/-- C144, long paths, `\\?\C:\folder\file`: they are read as drive, root and names, and assigning what was read changes nothing. -/
theorem C144_extended {w : World} {L : Nat → Prop} (r : WReach w L) {t : Nat} (ht : L t) {x : Nat} {ns : List PStr}
    (hx : (65 ≤ x ∧ x ≤ 90) ∨ (97 ≤ x ∧ x ≤ 122)) (h : ∀ n ∈ ns, isName n)
    (hv : valueOf (w.events t) 196 = some (.str (PStr.lit "\\\\?\\" ++ x :: 58 :: 92 :: joined ns))) :
    w.winPath t 196 = .ok (some ⟨PStr.lit "\\\\?\\" ++ [x, 58], PStr.lit "\\", ns⟩) ∧
      w.setWinSamplePath t ⟨PStr.lit "\\\\?\\" ++ [x, 58], PStr.lit "\\", ns⟩ = (w, .ok ()) := by
  have l1 : PStr.lit "\\\\?\\" = [92, 92, 63, 92] := by decide
  have l2 : PStr.lit "\\" = [92] := by decide
  have hn := winNames_name h
  rw [l1, joined_eq] at hv
  rw [l1, l2]
  have hl : driveLetter x = true := by unfold driveLetter; simp; omega
  have hj : (pyJoin 92 ns)[0]? ≠ some 92 := by
    cases ns with
    | nil => simp [pyJoin]
    | cons n ns' =>
      obtain ⟨n1, -, n3⟩ := h n (by simp)
      cases n with
      | nil => exact absurd rfl n1
      | cons c cs =>
        have hc : c ≠ 92 := fun e => n3 c (by simp) (.inl e)
        cases ns' <;> simp [pyJoin, hc]
  have h47 : 47 ∉ ([92, 92, 63, 92] ++ x :: 58 :: 92 :: pyJoin 92 ns) := by
    intro hm
    have := join_slash hn
    simp only [List.mem_append, List.mem_cons, List.not_mem_nil, or_false] at hm
    rcases hm with hm | hm | hm | hm | hm
    · omega
    · omega
    · omega
    · omega
    · exact this hm
  have key : WinPath.of ([92, 92, 63, 92] ++ x :: 58 :: 92 :: pyJoin 92 ns) = ⟨[92, 92, 63, 92] ++ [x, 58], [92], ns⟩ := by
    unfold WinPath.of
    rw [slashes_none h47]
    have e1 : winPrefix ([92, 92, 63, 92] ++ x :: 58 :: 92 :: pyJoin 92 ns) = ([92, 92, 63, 92], x :: 58 :: 92 :: pyJoin 92 ns) := by
      unfold winPrefix splitExtended
      simp
    have e2 : winSplitRoot ([92, 92, 63, 92] ++ x :: 58 :: 92 :: pyJoin 92 ns) =
        ([92, 92, 63, 92] ++ [x, 58], [92], pyJoin 92 ns) := by
      unfold winSplitRoot
      rw [e1]
      dsimp only
      rw [if_neg (by simp)]
      unfold winDrive
      have hd : winLetter (x :: 58 :: 92 :: pyJoin 92 ns) = ([x, 58], 92 :: pyJoin 92 ns, some 92) :=
        (if_pos (by simp [hl])).trans (by simp)
      rw [hd]
      dsimp only
      rw [if_pos rfl]
      simp only [List.dropWhile, beq_self_eq_true]
      rw [dropWhile_sep hj]
    rw [e2]
    dsimp only
    rw [winNames_split hn]
  have hp := win_path_eq r ht hv
  rw [key] at hp
  refine ⟨hp, ?_⟩
  unfold World.setWinSamplePath
  rw [hp]
  have ht' : World.pathText (WinPath.str ⟨[92, 92, 63, 92] ++ [x, 58], [92], ns⟩) =
      [92, 92, 63, 92] ++ x :: 58 :: 92 :: pyJoin 92 ns := by
    unfold WinPath.str World.pathText
    simp [PStr.lit]
  rw [ht']
  exact setFirstVal_same r ht hv

/-- The hypotheses can be met. -/
example : valueOf ((World.ofProject (Demo.sampled "\\\\?\\C:\\a\\kick.wav")).events 0) 196 =
      some (.str (PStr.lit "\\\\?\\" ++ 67 :: 58 :: 92 :: joined [PStr.lit "a", PStr.lit "kick.wav"])) ∧
    ∀ n ∈ [PStr.lit "a", PStr.lit "kick.wav"], isName n :=
  ⟨by decide +kernel, by unfold isName isSep; decide +kernel⟩

/-- C144, long paths on a share, `\\?\UNC\computer\share\folder\file`. -/
theorem C144_extended_share {w : World} {L : Nat → Prop} (r : WReach w L) {t : Nat} (ht : L t) {m s : PStr} {ns : List PStr}
    (hm : m ≠ []) (hs : s ≠ []) (hm' : ∀ c ∈ m, ¬ isSep c) (hs' : ∀ c ∈ s, ¬ isSep c) (h : ∀ n ∈ ns, isName n)
    (hv : valueOf (w.events t) 196 = some (.str (PStr.lit "\\\\?\\UNC\\" ++ (m ++ 92 :: (s ++ 92 :: joined ns))))) :
    w.winPath t 196 = .ok (some ⟨PStr.lit "\\\\?\\UNC\\" ++ (m ++ 92 :: s), PStr.lit "\\", ns⟩) ∧
      w.setWinSamplePath t ⟨PStr.lit "\\\\?\\UNC\\" ++ (m ++ 92 :: s), PStr.lit "\\", ns⟩ = (w, .ok ()) := by
  have l1 : PStr.lit "\\\\?\\UNC\\" = [92, 92, 63, 92, 85, 78, 67, 92] := by decide
  have l2 : PStr.lit "\\" = [92] := by decide
  have hn := winNames_name h
  rw [l1, joined_eq] at hv
  rw [l1, l2]
  have m92 : 92 ∉ m := fun e => hm' 92 e (.inl rfl)
  have s92 : 92 ∉ s := fun e => hs' 92 e (.inl rfl)
  have h47 : 47 ∉ ([92, 92, 63, 92, 85, 78, 67, 92] ++ (m ++ 92 :: (s ++ 92 :: pyJoin 92 ns))) := by
    intro hc
    have h1 := join_slash hn
    simp only [List.mem_append, List.mem_cons, List.not_mem_nil, or_false] at hc
    rcases hc with hc | hc | hc | hc | hc | hc
    · omega
    · exact hm' 47 hc (.inr rfl)
    · omega
    · exact hs' 47 hc (.inr rfl)
    · omega
    · exact h1 hc
  have key : WinPath.of ([92, 92, 63, 92, 85, 78, 67, 92] ++ (m ++ 92 :: (s ++ 92 :: pyJoin 92 ns))) =
      ⟨[92, 92, 63, 92, 85, 78, 67, 92] ++ (m ++ 92 :: s), [92], ns⟩ := by
    unfold WinPath.of
    rw [slashes_none h47]
    have e1 : winPrefix ([92, 92, 63, 92, 85, 78, 67, 92] ++ (m ++ 92 :: (s ++ 92 :: pyJoin 92 ns))) =
        ([92, 92, 63, 92, 85, 78, 67], 92 :: 92 :: (m ++ 92 :: (s ++ 92 :: pyJoin 92 ns))) := by
      unfold winPrefix splitExtended
      simp
    have e2 : winSplitRoot ([92, 92, 63, 92, 85, 78, 67, 92] ++ (m ++ 92 :: (s ++ 92 :: pyJoin 92 ns))) =
        ([92, 92, 63, 92, 85, 78, 67, 92] ++ (m ++ 92 :: s), [92], pyJoin 92 ns) := by
      unfold winSplitRoot
      rw [e1]
      dsimp only
      have hm0 : m[0]? ≠ some 92 := fun e => m92 (List.mem_of_getElem? e)
      have h2 : (92 :: 92 :: (m ++ 92 :: (s ++ 92 :: pyJoin 92 ns)))[2]? ≠ some 92 := by
        cases m with
        | nil => exact absurd rfl hm
        | cons c cs => simpa using hm0
      rw [if_pos ⟨by simp, by simp, h2⟩]
      have f1 : findSep (92 :: 92 :: (m ++ 92 :: (s ++ 92 :: pyJoin 92 ns))) 2 = some (2 + m.length) :=
        findSep_append m92 2 [92, 92] rfl
      rw [f1]
      dsimp only
      have hre : 92 :: 92 :: (m ++ 92 :: (s ++ 92 :: pyJoin 92 ns)) = (92 :: 92 :: (m ++ [92])) ++ (s ++ 92 :: pyJoin 92 ns) := by simp
      have f2 : findSep (92 :: 92 :: (m ++ 92 :: (s ++ 92 :: pyJoin 92 ns))) (2 + m.length + 1) = some (2 + m.length + 1 + s.length) := by
        rw [hre]
        exact findSep_append s92 _ _ (by simp; omega)
      rw [f2]
      dsimp only
      have hsl : s.length ≠ 0 := fun e => hs (List.length_eq_zero_iff.1 e)
      rw [if_neg (by omega)]
      unfold winShare
      have hre2 : 92 :: 92 :: (m ++ 92 :: (s ++ 92 :: pyJoin 92 ns)) = (92 :: 92 :: (m ++ 92 :: s)) ++ 92 :: pyJoin 92 ns := by simp
      have hl2 : 2 + m.length + 1 + s.length = (92 :: 92 :: (m ++ 92 :: s)).length := by simp; omega
      rw [hre2, hl2, List.take_left, ← List.drop_drop, List.drop_left]
      simp
    rw [e2]
    dsimp only
    rw [winNames_split hn]
  have hp := win_path_eq r ht hv
  rw [key] at hp
  refine ⟨hp, ?_⟩
  unfold World.setWinSamplePath
  rw [hp]
  have ht' : World.pathText (WinPath.str ⟨[92, 92, 63, 92, 85, 78, 67, 92] ++ (m ++ 92 :: s), [92], ns⟩) =
      [92, 92, 63, 92, 85, 78, 67, 92] ++ (m ++ 92 :: (s ++ 92 :: pyJoin 92 ns)) := by
    unfold WinPath.str World.pathText
    simp [PStr.lit]
  rw [ht']
  exact setFirstVal_same r ht hv

/-- The hypotheses can be met. -/
example : valueOf ((World.ofProject (Demo.sampled "\\\\?\\UNC\\pc\\packs\\kick.wav")).events 0) 196 =
      some (.str (PStr.lit "\\\\?\\UNC\\" ++ (PStr.lit "pc" ++ 92 :: (PStr.lit "packs" ++ 92 :: joined [PStr.lit "kick.wav"])))) ∧
    (∀ n ∈ [PStr.lit "kick.wav"], isName n) ∧ (∀ c ∈ PStr.lit "pc", ¬ isSep c) ∧ ∀ c ∈ PStr.lit "packs", ¬ isSep c :=
  ⟨by decide +kernel, by unfold isName isSep; decide +kernel, by unfold isSep; decide +kernel, by unfold isSep; decide +kernel⟩

/-- C83 and C144, values that are no texts (assigned to the event itself): `sample_path` and `data_path` raise `TypeError`,
on every system.  Assigning `sample_path` raises it too and changes nothing, so that it cannot mend the value; assigning
`data_path` can. -/
theorem C144_no_text {w : World} {L : Nat → Prop} (r : WReach w L) {t : Nat} (ht : L t) {v : Value} (hv : ∀ s, v ≠ .str s) :
    (valueOf (w.events t) 196 = some v → w.path t 196 = .error .typeError ∧ w.winPath t 196 = .error .typeError ∧
      (∀ p, w.setSamplePath t p = (w, .error .typeError)) ∧ ∀ p, w.setWinSamplePath t p = (w, .error .typeError)) ∧
    (valueOf (w.events t) 202 = some v → w.path t 202 = .error .typeError ∧ w.winPath t 202 = .error .typeError ∧
      ∀ q, q ≠ [46] → ∃ w', w.setDataPath t q = (w', .ok ()) ∧ WReach w' L ∧ ChangedOnly w w' t [202] ∧
        w'.path t 202 = .ok (some (.of q)) ∧ w'.winPath t 202 = .ok (some (.of q))) := by
  have h1 : ∀ id, valueOf (w.events t) id = some v → w.path t id = .error .typeError := fun id h => by
    unfold World.path
    rw [World.contains_eq r ht, h, if_pos Option.isSome_some, World.firstVal_eq r ht h]
    cases v <;> first | rfl | exact absurd rfl (hv _)
  have h2 : ∀ id, valueOf (w.events t) id = some v → w.winPath t id = .error .typeError := fun id h => by
    unfold World.winPath
    rw [World.contains_eq r ht, h, if_pos Option.isSome_some, World.firstVal_eq r ht h]
    cases v <;> first | rfl | exact absurd rfl (hv _)
  refine ⟨fun h => ⟨h1 _ h, h2 _ h, fun p => ?_, fun p => ?_⟩, fun h => ⟨h1 _ h, h2 _ h, fun q hq => ?_⟩⟩
  · unfold World.setSamplePath
    rw [h1 _ h]
  · unfold World.setWinSamplePath
    rw [h2 _ h]
  · obtain ⟨w', s1, s2⟩ := setFirstVal_spec r ht (id := 202) (by rw [h]; rfl) (.str (World.pathText q))
    have e : World.pathText q = q := if_neg hq
    rw [e] at s1 s2
    have hval : valueOf (w'.events t) 202 = some (.str q) := by
      rw [s2.model, valueOf_setFirst_self (by rw [h]; rfl)]
    refine ⟨w', ?_, s2.reach, s2.changedOnly (by simp), path_eq s2.reach ht hval, win_path_eq s2.reach ht hval⟩
    unfold World.setDataPath
    rw [World.contains_eq r ht, h, if_pos Option.isSome_some, e]
    exact s1

/-- The hypotheses can be met: a number assigned to the value of the event with the path. -/
example : ∃ (w : World) (L : Nat → Prop) (v : Value), WReach w L ∧ L 0 ∧ (∀ s, v ≠ .str s) ∧ valueOf (w.events 0) 196 = some v := by
  have h : valueOf ((World.ofProject (Demo.sampled "a")).events 0) 196 = some (.str (PStr.lit "a")) := by decide +kernel
  have r := WReach.parsed (Demo.sampled "a")
  rcases World.first_value r rfl 196 with ⟨ref, f1, -, f2, f3⟩ | ⟨-, f2⟩
  · have s := assigned_first r rfl (.lv (.int 5)) f1 f3 f2
    refine ⟨_, _, .lv (.int 5), s.reach, rfl, by simp, ?_⟩
    rw [s.model, valueOf_setFirst_self (by rw [h]; rfl)]
  · rw [h] at f2; cases f2

end PyFLP
