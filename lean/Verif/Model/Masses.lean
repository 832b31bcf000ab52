import Verif.Model.Structure
import Verif.Model.Dynamics

/-!
# Setters of data that other values are derived from: `set_masses` and `set_structure`

`set_structure` (dynaphopy/dynamics.py:140-141) and a `set_masses` on the structure of a trajectory change the
operations `DynEnv` the getters of `Dynamics` use, and nothing in the `Dynamics` object.
-/

set_option autoImplicit false

namespace Verif

variable {K F M : Type*} {d : ℕ}

/-- `Structure.set_masses`, dynaphopy/atoms.py:198-199: only `_masses` is assigned (the cast to `double` is not modelled). -/
def Structure.setMasses (s : Structure K d) (m : List K) : Structure K d := { s with masses := m }

/-- What `Structure.set_masses` changes for a trajectory of that structure: the factors `sqrt(mass)` of
dynaphopy/dynamics.py:152-154. -/
def DynEnv.withMasses (env : DynEnv F M) (w : F → F) : DynEnv F M := { env with massWeight := w }

end Verif
