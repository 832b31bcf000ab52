import Verif.Model.Analysis
import Verif.Model.CurveFile

/-! # The text file with the distribution of the displacements -/

set_option autoImplicit false

namespace Verif

section
variable {K : Type} [Field K] [LinearOrder K] [IsStrictOrderedRing K] [FloorRing K]

/-- `write_atomic_displacements` (dynaphopy/__init__.py:1078-1080): the characters of the file; row `i` of `distributions.T` has entry `i` of each distribution. -/
def displacementText (n : ℕ) (projections : List (List K)) : Option (List Char) :=
  (atomicDisplacements n projections).bind fun r => curveText r.2 ((List.range n).map fun i => r.1.map fun c => c.getD i 0)

end
end Verif
