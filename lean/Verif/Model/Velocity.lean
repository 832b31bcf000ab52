import Verif.Model.Dynamics
import Verif.Model.Displacements

/-!
# Velocity from coordinates (dynaphopy/dynamics.py:313-329) with the C displacement routine
-/

set_option autoImplicit false

namespace Verif

variable {K : Type*} [Field K] [LinearOrder K] [IsStrictOrderedRing K] [FloorRing K]

/-- dynaphopy/dynamics.py:175-176 and 323-327 for one atom `i` and one direction `j`: the displacements of the atom in
every frame, then `np.gradient` of column `j` (real parts; the imaginary parts are 0). `h` is the average time step. -/
def columnVelocity (n : ℕ) (cell : ℕ → ℕ → K) (pos : ℕ → K) (frames : List (ℕ → K × K)) (h : K) (j : ℕ) :
    Option (List K) :=
  npGradient ((cDisplacements n cell pos frames).map fun d => (d j).1) h

end Verif
