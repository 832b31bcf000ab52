import Verif.Model.TrajectoryText
import Verif.Model.OutcarStructure

/-! # OUTCAR files character by character: the header of `read_vasp_trajectory` (trajectory_parsers.py:38-65) and Python's conversions -/

set_option autoImplicit false

namespace Verif

section
variable {K : Type} [Field K]

/-- trajectory_parsers.py:47. -/
def kwPotim : List Char := "POTIM  =".toList

/-- `float(file_map.readline().split()[2])` (trajectory_parsers.py:99-102); `none`: fewer than three words, or no number. -/
def outcarEnergy (l : Line) : Option K := ((pySplit l)[2]?).bind pyFloat

/-- What `read_vasp_trajectory` hands to `Dynamics` (trajectory_parsers.py:126-131). -/
structure OutcarRun (K : Type) where
  cell : List (List K)
  trajectory : Parsed K
  energy : List K
  deriving DecidableEq

/-- `read_vasp_trajectory` (trajectory_parsers.py:38-131) on the text of the file: the number of atoms, the time step in units of 1/1000, the lattice vectors, and from behind the line
`direct lattice vectors` on the steps; `none`: an exception. The argument `time_step` has no effect. -/
def readOutcarRun (a : ReadArgs K) (file : List Char) : Option (OutcarRun K) :=
  let l1 := textLine (seekBehind file file kwNions 7)
  ((pyIntText l1.1).map Int.toNat).bind fun n =>
  let l2 := textLine (seekBehind file l1.2 kwPotim 8)
  (((pySplit l2.1)[0]?).bind (pyFloat (K := K))).bind fun potim =>
  (tableBehind (textCodec (K := K) a.nd).row l2.2 kwLattice a.nd).bind fun cell =>
  (fromKeyword kwLattice l2.2).bind fun s =>
  (readOutcar (textCodec a.nd) outcarEnergy { a with timeStep := potim * (1 / 1000) } n (fileLines (textLine s).2)).map fun p =>
  { cell := cell.1, trajectory := p.1, energy := p.2 }

/-- Python's conversions in `read_from_file_structure_outcar` (iofile/__init__.py:203, 208, 219, 226-228, 235-237, 246-248, 256-258). Simplification: a negative number of atoms is zero. -/
def pythonOutcar : OutcarCodec K where
  int l := (pyIntText l).map Int.toNat
  ints l := ((pySplit l).mapM pyIntText).map fun c => c.map Int.toNat
  float := pyFloat
  row l := ((pySplit l).take 3).mapM pyFloat
  row2 l := (((pySplit l).drop 3).take 3).mapM pyFloat

end

end Verif
