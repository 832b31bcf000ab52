import Verif.Model.LammpsCell
import Verif.Model.Parsers

/-! # The cell of a LAMMPS dump and the rotation to the orientation of the structure (dynaphopy/interface/iofile/trajectory_parsers.py:225-275, 304-305) -/

set_option autoImplicit false

namespace Verif

open Matrix

section bounds
variable {K : Type*} [Field K] [LinearOrder K]

/-- `supercell` (trajectory_parsers.py:233-246) from the array `bounds` with three columns. -/
def boundsCell (bounds : Matrix (Fin 3) (Fin 3) K) : Matrix (Fin 3) (Fin 3) K :=
  let xy := bounds 0 2
  let xz := bounds 1 2
  let yz := bounds 2 2
  let xlo := bounds 0 0 - min (min (min 0 xy) xz) (xy + xz)
  let xhi := bounds 0 1 - max (max (max 0 xy) xz) (xy + xz)
  let ylo := bounds 1 0 - min 0 yz
  let yhi := bounds 1 1 - max 0 yz
  let zlo := bounds 2 0
  let zhi := bounds 2 1
  (!![xhi - xlo, xy, xz; 0, yhi - ylo, yz; 0, 0, zhi - zlo])ᵀ

/-- `bounds = np.array(bounds, dtype=float)` with the third column appended if it is missing (trajectory_parsers.py:229-231). `none`: ragged array, or a
number of columns the code cannot use. -/
def boundsArray : List (List K) → Option (Matrix (Fin 3) (Fin 3) K)
  | [[a, b], [c, d], [e, f]] => some !![a, b, 0; c, d, 0; e, f, 0]
  | [[a, b, t], [c, d, u], [e, f, v]] => some !![a, b, t; c, d, u; e, f, v]
  | _ => none

end bounds

/-- `unit_matrix` (trajectory_parsers.py:268-269). -/
noncomputable def unitMatrix (m : Matrix (Fin 3) (Fin 3) ℝ) : Matrix (Fin 3) (Fin 3) ℝ := Matrix.of fun i => (norm3 (m i))⁻¹ • m i

/-- `transformation_mat` (trajectory_parsers.py:271-274). -/
noncomputable def transformationMat (cell supercell : Matrix (Fin 3) (Fin 3) ℝ) : Matrix (Fin 3) (Fin 3) ℝ :=
  ((unitMatrix cell)⁻¹ * unitMatrix supercell)ᵀ

/-- The geometry of `read_lammps_trajectory` for a structure with this cell: `box` gives the rotated supercell and the transformation (trajectory_parsers.py:225-276), `rotate` is
`np.dot(read_coordinates, transformation_mat)` (304-305; a row that has not three numbers is a ValueError). `words` is `line.split()` with `float` applied. -/
noncomputable def lammpsGeometry (words : Line → Option (List ℝ)) (cell : Matrix (Fin 3) (Fin 3) ℝ) :
    LGeometry ℝ (Matrix (Fin 3) (Fin 3) ℝ × Matrix (Fin 3) (Fin 3) ℝ) where
  box lines := ((lines.mapM words).bind boundsArray).map fun b =>
    let t := transformationMat cell (boundsCell b)
    (boundsCell b * t, t)
  rotate geo frame := frame.mapM fun row => match row with
    | [x, y, z] => some (List.ofFn (vecMul ![x, y, z] geo.2))
    | _ => none

end Verif
