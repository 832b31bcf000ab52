import Verif.Model.CurveFile
import Verif.Model.LammpsBox

/-! # The trajectory parsers on the characters of the file

`Parsers.lean` has the parsers for arbitrary functions that turn text into numbers; here these are Python's. -/

set_option autoImplicit false

namespace Verif

section
variable {K : Type} [Field K]

/-- `[float(w) for w in line.split()]` (trajectory_parsers.py:225-229, 405-408). -/
def floatWords (l : Line) : Option (List K) := (pySplit l).mapM pyFloat

/-- `float(line)`, `int(line)` and `line.split()[0:number_of_dimensions]` (trajectory_parsers.py:201, 212, 296-298, 440-442). Simplification: a negative number of atoms, which reads no
atoms, is zero. -/
def textCodec (nd : ℕ) : Codec K where
  float := pyFloat
  int l := (pyIntText l).map Int.toNat
  row l := ((pySplit l).take nd).mapM pyFloat

/-- `float(line.split(b'=')[1])` (trajectory_parsers.py:424). -/
def xdatcarStep (l : Line) : Option K := ((splitChar '=' l)[1]?).bind pyFloat

/-- `np.array(line.split(), dtype=int).sum()` (trajectory_parsers.py:413). -/
def xdatcarCounts (l : Line) : Option ℕ := ((pySplit l).mapM pyIntText).map fun c => c.sum.toNat

/-- `read_VASP_XDATCAR` (trajectory_parsers.py:354-483) on the text of the file. -/
def readXdatcarText (a : ReadArgs K) (text : List Char) : Option (Parsed K) := readXdatcar (textCodec a.nd) xdatcarStep xdatcarCounts a (fileLines text)

/-- `read_lammps_trajectory` (trajectory_parsers.py:134-352) on the text of the file, `g` being the treatment of the box. -/
def readLammpsText {G : Type} (g : LGeometry K G) (a : ReadArgs K) (text : List Char) : Option (Parsed K) := readLammps (textCodec a.nd) g a (fileLines text)

end

/-- `read_lammps_trajectory` (trajectory_parsers.py:134-352) on the text of the file, for a structure with this cell. -/
noncomputable def readLammpsCell (cell : Matrix (Fin 3) (Fin 3) ℝ) (a : ReadArgs ℝ) (text : List Char) : Option (Parsed ℝ) := readLammpsText (lammpsGeometry floatWords cell) a text

end Verif
