import Verif.Model.Parsers
import Mathlib.Data.List.SplitOn

/-! # Choice of the parser and input file (dynaphopy/interface/iofile/__init__.py:139-165, 537-606) -/

set_option autoImplicit false

namespace Verif

/-! ## `get_trajectory_parser` -/

/-- The parsers of the table (iofile/__init__.py:142-147). -/
inductive ParserName where
  | vaspOutcar
  | lammpsDump
  | vaspXdatcar
  deriving DecidableEq

/-- `parsers_keywords` (iofile/__init__.py:142-147), in the order of insertion (the order of iteration from Python 3.7 on). -/
def parsersKeywords : List (ParserName × List Line) :=
  [(.vaspOutcar, ["NIONS".toList, "POMASS".toList, "direct lattice vectors".toList]),
   (.lammpsDump, ["ITEM: TIMESTEP".toList, "ITEM: NUMBER OF ATOMS".toList, "ITEM: BOX BOUNDS".toList]),
   (.vaspXdatcar, ["Direct configuration".toList, "Direct configuration".toList, "=".toList])]

/-- `get_trajectory_parser` (iofile/__init__.py:139-165) on the content of an existing file (`mmap` of an empty file raises an exception; that case is not modelled). -/
def getTrajectoryParser (content : List Char) (bytesToCheck : ℕ := 1000000) : Option ParserName :=
  let fileMap := content.take (min bytesToCheck content.length)
  (parsersKeywords.find? fun p => p.2.all fun kw => hasKeyword kw fileMap).map (·.1)

/-! ## `read_parameters_from_input_file` -/

/-- How the text of numbers is read: `ints` is `np.array(line.split(), dtype=int)`, `floats` the same with `float` (`none`: ValueError), `strip` is `line.strip()`. -/
structure InputCodec (R : Type*) where
  ints : Line → Option (List ℤ)
  floats : Line → Option (List R)
  strip : Line → Line

/-- `input_parameters` (iofile/__init__.py:540-543, 606). -/
structure InputParameters (R : Type*) where
  outcar : Option Line := none
  poscar : Line := "POSCAR".toList
  forceSets : Option Line := none
  forceConstants : Option Line := none
  primitiveMatrix : Option (List (List R)) := none
  supercellMatrix : Option (List (List ℤ)) := none
  ranges : Option (List (List R)) := none
  labels : Option (List (Line × Line)) := none
  mesh : Option (List ℤ) := none
  deriving DecidableEq

section input
variable {R : Type*}

/-- `[input_file[i+j+1].split() for j in range(3)]` turned into an array (iofile/__init__.py:567-574); `none`: IndexError or ValueError. -/
def readMatrix {α : Type*} (parse : Line → Option (List α)) (file : List Line) (i : ℕ) : Option (List (List α)) :=
  ((List.range 3).mapM fun j => (file[i + j + 1]?).bind parse).bind toArray

/-- `line.replace(',', ' ')`. -/
def commasToBlanks (l : Line) : Line := l.map fun ch => if ch = ',' then ' ' else ch

/-- The loop of the `BANDS` section (iofile/__init__.py:579-593). `rest` are the lines after line `i`; the result is the bands, the labels, the last value of `line`, and the number of lines `i` moved. -/
def bandsLoop (c : InputCodec R) (line : Line) : List Line → List (List R) × List (List Line) × Line × ℕ
  | [] => ([], [], line, 0)
  | l :: rest =>
    let pieces := l.splitOn ':'
    let label : List (List Line) := match pieces with
      | _ :: p :: _ => [p.splitOn ',']
      | _ => []
    let l' := match pieces with
      | p :: _ :: _ => p
      | _ => l
    match c.floats (commasToBlanks l') with
    | some [a, b, d, e, f, g] =>
      let r := bandsLoop c l' rest
      ([a, b, d, e, f, g] :: r.1, label ++ r.2.1, r.2.2.1, r.2.2.2 + 1)
    | _ => ([], label, l', 0)

/-- `(label[0].replace(' ',''), label[1].replace(' ',''))` (iofile/__init__.py:594); `none`: IndexError. -/
def labelPair : List Line → Option (Line × Line)
  | a :: b :: _ => some (a.filter (· ≠ ' '), b.filter (· ≠ ' '))
  | _ => none

/-- `if keyword in line: input_parameters.update(...)`, an exception being `none`. -/
def onKeyword (kw : String) (line : Line) (f : InputParameters R → Option (InputParameters R)) (s : InputParameters R) : Option (InputParameters R) :=
  if hasKeyword kw.toList line then f s else some s

/-- The sections before `BANDS` (iofile/__init__.py:553-577). -/
def inputSections (c : InputCodec R) (file : List Line) (i : ℕ) (line : Line) (s : InputParameters R) : Option (InputParameters R) :=
  (onKeyword "STRUCTURE FILE OUTCAR" line (fun s => (file[i + 1]?).map fun v => { s with outcar := some (c.strip v) }) s).bind fun s =>
  (onKeyword "STRUCTURE FILE POSCAR" line (fun s => (file[i + 1]?).map fun v => { s with poscar := c.strip v }) s).bind fun s =>
  (onKeyword "FORCE SETS" line (fun s => (file[i + 1]?).map fun v => { s with forceSets := some (c.strip v) }) s).bind fun s =>
  (onKeyword "FORCE CONSTANTS" line (fun s => (file[i + 1]?).map fun v => { s with forceConstants := some (c.strip v) }) s).bind fun s =>
  (onKeyword "PRIMITIVE MATRIX" line (fun s => (readMatrix c.floats file i).map fun m => { s with primitiveMatrix := some m }) s).bind fun s =>
  onKeyword "SUPERCELL MATRIX" line (fun s => (readMatrix c.ints file i).map fun m => { s with supercellMatrix := some m }) s

/-- The sections `BANDS` and `MESH PHONOPY` (iofile/__init__.py:579-604). The variables `line` and `i` are changed by the loop of `BANDS`. -/
def inputBandsMesh (c : InputCodec R) (file : List Line) (i : ℕ) (line : Line) (s : InputParameters R) : Option (InputParameters R) :=
  if hasKeyword "BANDS".toList line then
    let r := bandsLoop c line (file.drop (i + 1))
    (r.2.1.mapM labelPair).bind fun labels =>
    onKeyword "MESH PHONOPY" r.2.2.1 (fun s => ((file[i + r.2.2.2 + 1]?).bind c.ints).map fun m => { s with mesh := some m })
      { s with ranges := some r.1, labels := if labels = [] then none else some labels }
  else onKeyword "MESH PHONOPY" line (fun s => ((file[i + 1]?).bind c.ints).map fun m => { s with mesh := some m }) s

/-- One pass of the loop over the lines (iofile/__init__.py:549-604); `none`: an exception. -/
def inputLine (c : InputCodec R) (file : List Line) (s : InputParameters R) (i : ℕ) : Option (InputParameters R) :=
  match file[i]? with
  | none => none
  | some line => if line.head? = some '#' then some s else (inputSections c file i line s).bind (inputBandsMesh c file i line)

/-- `read_parameters_from_input_file` (iofile/__init__.py:537-606). -/
def readParameters (c : InputCodec R) (file : List Line) : Option (InputParameters R) :=
  (List.range file.length).foldlM (inputLine c file) {}

end input

end Verif
