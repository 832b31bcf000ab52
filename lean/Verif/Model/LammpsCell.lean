import Mathlib.Analysis.SpecialFunctions.Trigonometric.Inverse
import Mathlib.LinearAlgebra.CrossProduct
import Mathlib.LinearAlgebra.Matrix.NonsingularInverse

/-! # Geometry of the LAMMPS data file (dynaphopy/generate_cell.py:70-112, dynaphopy/atoms.py:319-334) -/

set_option autoImplicit false

namespace Verif

open Matrix

/-- `np.linalg.norm` of a vector (generate_cell.py:73-82, atoms.py:321-326). -/
noncomputable def norm3 (v : Fin 3 → ℝ) : ℝ := Real.sqrt (v ⬝ᵥ v)

/-- `lammps_cell.T` (generate_cell.py:73-82): the lattice vectors in the rows. -/
noncomputable def lammpsCellT (cell : Matrix (Fin 3) (Fin 3) ℝ) : Matrix (Fin 3) (Fin 3) ℝ :=
  let ax := norm3 (cell 0)
  let bx := cell 1 ⬝ᵥ ((norm3 (cell 0))⁻¹ • cell 0)
  let by' := norm3 (crossProduct ((norm3 (cell 0))⁻¹ • cell 0) (cell 1))
  let cx := cell 2 ⬝ᵥ ((norm3 (cell 0))⁻¹ • cell 0)
  let cy := (cell 1 ⬝ᵥ cell 2 - bx * cx) / by'
  let cz := Real.sqrt (cell 2 ⬝ᵥ cell 2 - cx ^ 2 - cy ^ 2)
  !![ax, 0, 0; bx, by', 0; cx, cy, cz]

/-- `trans_cell` (generate_cell.py:83). -/
noncomputable def transCell (cell : Matrix (Fin 3) (Fin 3) ℝ) : Matrix (Fin 3) (Fin 3) ℝ := cell⁻¹ * lammpsCellT cell

/-- `positions = np.dot(positions, trans_cell)` (generate_cell.py:86), one atom. -/
noncomputable def lammpsPosition (cell : Matrix (Fin 3) (Fin 3) ℝ) (p : Fin 3 → ℝ) : Fin 3 → ℝ := vecMul p (transCell cell)

/-- `get_cell_parameters` (atoms.py:319-334): `a, b, c, alpha, beta, gamma`. -/
noncomputable def cellParameters (cell : Matrix (Fin 3) (Fin 3) ℝ) : ℝ × ℝ × ℝ × ℝ × ℝ × ℝ :=
  let a := norm3 (cell 0)
  let b := norm3 (cell 1)
  let c := norm3 (cell 2)
  (a, b, c, Real.arccos (cell 1 ⬝ᵥ cell 2 / (c * b)), Real.arccos (cell 2 ⬝ᵥ cell 0 / (a * c)), Real.arccos (cell 1 ⬝ᵥ cell 0 / (a * b)))

/-- The numbers written after `xlo`, `ylo`, `zlo` and the tilts: `xhi, yhi, zhi, xy, xz, yz` (generate_cell.py:89-112); `xlo`, `ylo`, `zlo` are 0. -/
noncomputable def lammpsBoxNumbers (cell : Matrix (Fin 3) (Fin 3) ℝ) : ℝ × ℝ × ℝ × ℝ × ℝ × ℝ :=
  let (a, b, c, alpha, beta, gamma) := cellParameters cell
  let xhi := a
  let xy := b * Real.cos gamma
  let xz := c * Real.cos beta
  let yhi := Real.sqrt (b ^ 2 - xy ^ 2)
  let yz := (b * c * Real.cos alpha - xy * xz) / yhi
  let zhi := Real.sqrt (c ^ 2 - xz ^ 2 - yz ^ 2)
  let xhi := xhi + max (max (max 0 xy) xz) (xy + xz)
  let yhi := yhi + max 0 yz
  let xhi := if 0 < xy then xhi - xy else xhi
  let xhi := if 0 < xz then xhi - xz else xhi
  let yhi := if 0 < yz then yhi - yz else yhi
  (xhi, yhi, zhi, xy, xz, yz)

end Verif
