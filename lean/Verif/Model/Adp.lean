import Mathlib.LinearAlgebra.Matrix.NonsingularInverse
import Mathlib.Analysis.Real.Sqrt

/-! # Anisotropic displacement parameters (dynaphopy/__init__.py:1376-1430) -/

set_option autoImplicit false

namespace Verif

/-- `u_crys` (dynaphopy/__init__.py:1409); rows of `cell` are lattice vectors. -/
noncomputable def adpCrys (cell u : Matrix (Fin 3) (Fin 3) ℝ) : Matrix (Fin 3) (Fin 3) ℝ := (cell⁻¹).transpose * u * cell⁻¹

/-- `np.linalg.norm(cell_inv.T[i])` (dynaphopy/__init__.py:1405-1407). -/
noncomputable def adpNorm (cell : Matrix (Fin 3) (Fin 3) ℝ) (i : Fin 3) : ℝ := Real.sqrt (∑ k, (cell⁻¹).transpose i k ^ 2)

/-- `u_uvrs` (dynaphopy/__init__.py:1410). -/
noncomputable def adpUvrs (cell u : Matrix (Fin 3) (Fin 3) ℝ) : Matrix (Fin 3) (Fin 3) ℝ :=
  let n := Matrix.diagonal (adpNorm cell)
  n⁻¹ * adpCrys cell u * (n⁻¹).transpose

end Verif
