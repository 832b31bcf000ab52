import Verif.Model.Rounding
import Verif.Model.Settings
import Mathlib.LinearAlgebra.Matrix.NonsingularInverse
import Mathlib.Data.Rat.Floor

/-! # `Structure.get_commensurate_points` (dynaphopy/atoms.py:336-356) -/

set_option autoImplicit false

namespace Verif

/-- The values of one component (atoms.py:344-348): `np.arange(-0.5, 0.5, 1./(n*2))`, each rounded to five decimals. Exact
arithmetic: in floating point `np.arange` can have one value more. -/
def commensurateAxis (n : ℕ) : List ℚ := (arange (-1 / 2) (1 / 2) (1 / ((n : ℚ) * 2))).map (aroundDec 5)

/-- The test (atoms.py:350-353): `np.mod(q · inv(primitive_matrix) * supercell * 2, 1) == 0` for all components. -/
def commensurateTest (Pinv : Matrix (Fin 3) (Fin 3) ℚ) (n : Fin 3 → ℕ) (q : Fin 3 → ℚ) : Bool :=
  decide (∀ c, Int.fract (Matrix.vecMul q Pinv c * (n c : ℚ) * 2) = 0)

/-- `get_commensurate_points` (atoms.py:336-356). -/
def structureCommensurate (Pinv : Matrix (Fin 3) (Fin 3) ℚ) (n : Fin 3 → ℕ) : List (Fin 3 → ℚ) :=
  ((commensurateAxis (n 0)).flatMap fun k1 => (commensurateAxis (n 1)).flatMap fun k2 =>
    (commensurateAxis (n 2)).map fun k3 => ![k1, k2, k3]).filter (commensurateTest Pinv n)

end Verif
