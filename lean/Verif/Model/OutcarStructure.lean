import Verif.Model.Parsers

/-! # Structure from a VASP OUTCAR file: `read_from_file_structure_outcar` (dynaphopy/interface/iofile/__init__.py:168-265)

The memory mapped file is the list of its characters; a position is the list of the characters behind it. `find` starts at the
current position. When a keyword is missing `find` gives -1, and `seek(-1 + k)` goes to the start of the file. -/

set_option autoImplicit false

namespace Verif

/-- Reading numbers: `int(line)`, `np.array(line.split(), dtype=int)`, `float`, and columns 1-3 and 4-6 of a line as floats
(iofile/__init__.py:203, 208, 219, 226-228, 235-237, 246-248, 256-258); `none`: ValueError. -/
structure OutcarCodec (R : Type) where
  int : List Char → Option ℕ
  ints : List Char → Option (List ℕ)
  float : List Char → Option R
  row : List Char → Option (List R)
  row2 : List Char → Option (List R)

/-- `file_map.readline()`, and the new position. -/
def textLine (s : List Char) : List Char × List Char := (s.takeWhile (· ≠ '\n'), (s.dropWhile (· ≠ '\n')).drop 1)

/-- `n` times `file_map.readline()`. -/
def textLines : ℕ → List Char → List (List Char) × List Char
  | 0, s => ([], s)
  | n + 1, s =>
    let l := textLine s
    let r := textLines n l.2
    (l.1 :: r.1, r.2)

/-- `position_number = file_map.find(kw)`; `file_map.seek(position_number + k)` with `k > 0` (iofile/__init__.py:201-202,
206-207, 211, 214). -/
def seekBehind (file cur kw : List Char) (k : ℕ) : List Char :=
  match fromKeyword kw cur with
  | some s => s.drop k
  | none => file.drop (k - 1)

/-- `n` lines behind the line of a keyword, as an array (iofile/__init__.py:222-228, 241-248, 251-258); `seek(-1)` is a ValueError. -/
def tableBehind {R : Type} (row : List Char → Option (List R)) (cur kw : List Char) (n : ℕ) :
    Option (List (List R) × List Char) :=
  match fromKeyword kw cur with
  | none => none
  | some s =>
    let t := textLines n (textLine s).2
    ((t.1.mapM row).bind toArray).map fun a => (a, t.2)

/-- The keywords (iofile/__init__.py:201, 206, 211, 222, 241, 251). -/
def kwNions : List Char := "NIONS =".toList
/-- iofile/__init__.py:206. -/
def kwIonsType : List Char := "ions per type".toList
/-- iofile/__init__.py:211. -/
def kwPomass : List Char := "POMASS =".toList
/-- iofile/__init__.py:222. -/
def kwLattice : List Char := "direct lattice vectors".toList
/-- iofile/__init__.py:241. -/
def kwFractional : List Char := "position of ions in fractional coordinates".toList
/-- iofile/__init__.py:251. -/
def kwCartesian : List Char := "position of ions in cartesian coordinates".toList

/-- The masses: six characters for each type, and the position after the last one (iofile/__init__.py:211-219). -/
def massFields (file cur : List Char) (types : ℕ) : List (List Char) × List Char :=
  ((List.range types).map fun i => (seekBehind file cur kwPomass (9 + 6 * i)).take 6,
   if types = 0 then cur else (seekBehind file cur kwPomass (9 + 6 * (types - 1))).drop 6)

/-- `sum([[mass[j] for i in range(atoms_per_type[j])] for j in ...], [])` (iofile/__init__.py:215-217). -/
def expandTypes {α : Type} (counts : List ℕ) (vals : List α) : List α :=
  (List.zipWith (fun n a => List.replicate n a) counts vals).flatten

/-- What the reader hands to `Structure` (iofile/__init__.py:262-265). -/
structure OutcarStructure (R : Type) where
  cell : List (List R)
  positions : List (List R)
  masses : List R
  deriving DecidableEq

/-- `read_from_file_structure_outcar` (iofile/__init__.py:168-265); `none`: an exception. The reciprocal cell and the fractional
positions are read (and must be readable) but not used. -/
def readOutcarStructure {R : Type} (c : OutcarCodec R) (file : List Char) : Option (OutcarStructure R) :=
  let l1 := textLine (seekBehind file file kwNions 7)
  (c.int l1.1).bind fun n =>
  let l2 := textLine (seekBehind file l1.2 kwIonsType 15)
  (c.ints l2.1).bind fun counts =>
  let m := massFields file l2.2 counts.length
  ((expandTypes counts m.1).mapM c.float).bind fun masses =>
  (tableBehind c.row m.2 kwLattice 3).bind fun cell =>
  (tableBehind c.row2 m.2 kwLattice 3).bind fun rec =>
  (tableBehind c.row rec.2 kwFractional n).bind fun frac =>
  (tableBehind c.row frac.2 kwCartesian n).map fun pos =>
  { cell := cell.1, positions := pos.1, masses := masses }

end Verif
