import Verif.ChannelProps
/-!
# Paths on Windows (`channel.py:1511-1528`, `project.py:249-269`)

`pathlib.Path` is a `WindowsPath` there.  The parser is the one of the standard library up to Python 3.11
(`pathlib._WindowsFlavour.splitroot`, `_Flavour.parse_parts`, `PurePath.__str__`); characters are numbers: 92 is the backslash,
47 the slash, 58 the colon, 46 the dot, 63 the question mark.
-/

namespace PyFLP

/-- `part.replace("/", "\\")` (`parse_parts`). -/
def winSlashes (s : PStr) : PStr := s.map fun c => if c = 47 then 92 else c

/-- `_WindowsFlavour.drive_letters`. -/
def driveLetter (c : Nat) : Bool := (65 ≤ c && c ≤ 90) || (97 ≤ c && c ≤ 122)

/-- `_split_extended_path`: the prefix `\\?\` or `\\?\UNC` and the rest. -/
def splitExtended (s : PStr) : PStr × PStr :=
  if s.take 4 = [92, 92, 63, 92] then
    if (s.drop 4).take 4 = [85, 78, 67, 92] then (s.take 4 ++ (s.drop 4).take 3, 92 :: (s.drop 4).drop 3)
    else (s.take 4, s.drop 4)
  else ([], s)

/-- `part.find("\\", i)`. -/
def findSep (s : PStr) (i : Nat) : Option Nat := ((s.drop i).findIdx? (· == 92)).map (· + i)

/-- In `splitroot`: the drive letter with its colon, the rest, and the character that decides whether there is a root. -/
def winLetter (part : PStr) : PStr × PStr × Option Nat :=
  if part[1]? = some 58 ∧ (part[0]?.map driveLetter) = some true then (part.take 2, part.drop 2, part[2]?)
  else ([], part, part[0]?)

/-- The end of `splitroot`: drive letter, root and the rest. -/
def winDrive (pre part : PStr) : PStr × PStr × PStr :=
  let d := winLetter part
  if d.2.2 = some 92 then (pre ++ d.1, [92], d.2.1.dropWhile (· == 92)) else (pre ++ d.1, [], d.2.1)

/-- A path on a network share: `index2` is where the share ends. -/
def winShare (pre part : PStr) (index2 : Nat) : PStr × PStr × PStr :=
  (if pre.isEmpty then part.take index2 else pre ++ (part.take index2).drop 1, [92], part.drop (index2 + 1))

/-- The beginning of `splitroot`: the prefix of extended paths and the rest. -/
def winPrefix (s : PStr) : PStr × PStr := if s[1]? = some 92 ∧ s[0]? = some 92 then splitExtended s else ([], s)

/-- `_WindowsFlavour.splitroot(part)`: drive, root and the rest. -/
def winSplitRoot (s : PStr) : PStr × PStr × PStr :=
  let x := winPrefix s
  if x.2[1]? = some 92 ∧ x.2[0]? = some 92 ∧ x.2[2]? ≠ some 92 then
    match findSep x.2 2 with
    | none => winDrive x.1 x.2
    | some index =>
      match findSep x.2 (index + 1) with
      | none => winShare x.1 x.2 x.2.length
      | some index2 => if index2 = index + 1 then winDrive x.1 x.2 else winShare x.1 x.2 index2
  else winDrive x.1 x.2

/-- `pathlib.PureWindowsPath`: drive, root and names. -/
structure WinPath where
  drive : PStr
  root : PStr
  names : List PStr
  deriving DecidableEq, Repr

/-- `pathlib.Path(s)` on Windows (`parse_parts`): empty names and `.` are left out. -/
def WinPath.of (s : PStr) : WinPath :=
  let x := winSplitRoot (winSlashes s)
  ⟨x.1, x.2.1, (pySplit 92 x.2.2).filter fun n => !n.isEmpty && n != [46]⟩

/-- `str(path)`: `.` for the empty path. -/
def WinPath.str (p : WinPath) : PStr :=
  let s := p.drive ++ p.root ++ pyJoin 92 p.names
  if s.isEmpty then [46] else s

namespace World

/-- `pathlib.Path(self.events.first(id).value)` on Windows: `sampler.sample_path` (`channel.py:1511-1520`, event 196),
`project.data_path` (`project.py:249-258`, event 202). -/
def winPath (w : World) (u id : Nat) : Py (Option WinPath) :=
  if w.contains u id then
    match w.firstVal u id with
    | .error e => .error e
    | .ok (.str s) => .ok (some (.of s))
    | .ok _ => .error .typeError
  else .ok none

/-- `sampler.sample_path = path` (`channel.py:1522-1528`) on Windows. -/
def setWinSamplePath (w : World) (u : Nat) (p : WinPath) : World × Py Unit :=
  match w.winPath u 196 with
  | .error e => (w, .error e)
  | .ok none => (w, .error .propertyCannotBeSet)
  | .ok (some _) => w.setFirstVal u 196 (.str (pathText p.str))

/-- `project.data_path = path` (`project.py:260-269`) on Windows. -/
def setWinDataPath (w : World) (u : Nat) (p : WinPath) : World × Py Unit := w.setDataPath u p.str

end World

end PyFLP
