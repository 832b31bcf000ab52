import Mathlib.Algebra.Field.Basic
import Mathlib.Algebra.BigOperators.Group.List.Basic
import Mathlib.Algebra.Order.Field.Basic
import Mathlib.Algebra.Order.Floor.Ring
import Mathlib.Algebra.BigOperators.Group.Finset.Basic
import Mathlib.LinearAlgebra.Matrix.NonsingularInverse
import Mathlib.LinearAlgebra.Matrix.Notation
import Mathlib.Data.List.Sort

/-! # The script fitdata (scripts/fitdata) -/

set_option autoImplicit false

namespace Verif

section
variable {K : Type*} [Field K]

/-- The rows of the file as arrays of numbers. Reading them (scripts/fitdata:63-74): with `-bi` (`groups = some _`) all rows are read; without it `readline` takes the first row, of which only the number of
columns is used. -/
def fitdataRows (groups : Option (List (List ℕ))) (rows : List (List K)) : List (List K) :=
  match groups with
  | none => rows.tail
  | some _ => rows

/-- `degeneracy` (scripts/fitdata:63-67). -/
def fitdataGroups (groups : Option (List (List ℕ))) (rows : List (List K)) : List (List ℕ) :=
  match groups with
  | none => (List.range' 1 ((rows.headD []).length - 1)).map fun i => [i]
  | some g => g

/-- `data_temp` for one group (scripts/fitdata:79-83): a value for each row; `none`: IndexError. -/
def fitdataColumn (rows : List (List K)) (group : List ℕ) : Option (List K) :=
  rows.mapM fun row => (group.mapM fun c => row[c]?).map fun vs => (vs.map fun v => v / (group.length : K)).sum

/-- The curves that are analysed (scripts/fitdata:77-83). -/
def fitdataCurves (groups : Option (List (List ℕ))) (rows : List (List K)) : Option (List (List K)) :=
  (fitdataGroups groups rows).mapM (fitdataColumn (fitdataRows groups rows))

end

section loess
variable {K : Type*} [Field K] [LinearOrder K] [IsStrictOrderedRing K] [FloorRing K]

/-- The weight of point `j` in the fit at point `i` (scripts/fitdata:42-44, 48): `(1 - clip(|x_j - x_i|/h_i, 0, 1)^3)^3`. -/
def loessWeight (x : List K) (h : K) (xi xj : K) : K := (1 - (max 0 (min 1 (|(xj - xi) / h|))) ^ 3) ^ 3

/-- `h[i] = np.sort(np.abs(x - x[i]))[r]` with `r = ceil(f*n)` (scripts/fitdata:41-42); `none`: IndexError. -/
def loessH (x : List K) (f xi : K) : Option K := ((x.map fun xj => |xj - xi|).insertionSort (· ≤ ·))[⌈f * (x.length : K)⌉.toNat]?

/-- The matrix `a` and the vector `b` of the weighted normal equations (scripts/fitdata:49-51), for weighted points `(w, x, y)`. -/
def loessA (pts : List (K × K × K)) : Matrix (Fin 2) (Fin 2) K :=
  !![(pts.map fun p => p.1).sum, (pts.map fun p => p.1 * p.2.1).sum; (pts.map fun p => p.1 * p.2.1).sum, (pts.map fun p => p.1 * p.2.1 * p.2.1).sum]

/-- See `loessA` (scripts/fitdata:49). -/
def loessB (pts : List (K × K × K)) : Fin 2 → K := ![(pts.map fun p => p.1 * p.2.2).sum, (pts.map fun p => p.1 * p.2.2 * p.2.1).sum]

/-- The smoothed value at `xi` (scripts/fitdata:47-53); `none`: IndexError, singular matrix (LinAlgError), or not a number (`h = 0`: zero divided by zero). -/
noncomputable def loessAt (x y : List K) (f xi : K) : Option K :=
  (loessH x f xi).bind fun h =>
    let pts := (x.zip y).map fun p => (loessWeight x h xi p.1, p.1, p.2)
    if h = 0 ∨ (loessA pts).det = 0 then none
    else
      let beta := ((loessA pts)⁻¹).mulVec (loessB pts)
      some (beta 0 + beta 1 * xi)

end loess

end Verif
