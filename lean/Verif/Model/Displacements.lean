import Verif.Model.Rounding
import Mathlib.LinearAlgebra.Matrix.NonsingularInverse

/-!
# c/displacements.c: determinant, cofactors, inverse, minimum image displacements

A C array `double **a` is a function of the two indices. Loops that accumulate are folds over `List.range`.
-/

set_option autoImplicit false

namespace Verif

section CMatrix
variable {K : Type*} [Field K]

/-- The indices `0..n-1` without `j`: the effect of the loops with `if (j == j1) continue; ...; j2++`
(c/displacements.c:288-293 and 324-335). Entry `k` is the index that is copied to position `k`. -/
def skipIndex (n j : ℕ) : List ℕ := (List.range n).filter (· ≠ j)

/-- The array `m` built at c/displacements.c:283-294: rows `1..n-1`, columns without `j1`. -/
def detMinor (a : ℕ → ℕ → K) (n j1 : ℕ) : ℕ → ℕ → K :=
  fun r c => a (r + 1) ((skipIndex n j1).getD c 0)

/-- `Determinant(a, n)`, c/displacements.c:268-302 (`n < 1` returns 0). -/
def cDet : ℕ → (ℕ → ℕ → K) → K
  | 0, _ => 0
  | 1, a => a 0 0
  | 2, a => a 0 0 * a 1 1 - a 1 0 * a 0 1
  | n + 3, a => (List.range (n + 3)).foldl
      (fun det j1 => det + (-1) ^ (j1 + 2) * a 0 j1 * cDet (n + 2) (detMinor a (n + 3) j1)) 0

/-- The array `c` built at c/displacements.c:323-335: all rows but `i`, all columns but `j`. -/
def cofMinor (a : ℕ → ℕ → K) (n i j : ℕ) : ℕ → ℕ → K :=
  fun r c => a ((skipIndex n i).getD r 0) ((skipIndex n j).getD c 0)

/-- `CoFactor(a, n)`, c/displacements.c:305-349. -/
def cCofactor (n : ℕ) (a : ℕ → ℕ → K) : ℕ → ℕ → K :=
  fun i j => (-1) ^ (i + j + 2) * cDet (n - 1) (cofMinor a n i j)

/-- `matrix_inverse(a, n)`, c/displacements.c:250-265. -/
def cInverse (n : ℕ) (a : ℕ → ℕ → K) : ℕ → ℕ → K :=
  fun i j => cCofactor n a j i / cDet n a

/-- `matrix_multiplication(a, b, n, l, 1)`, c/displacements.c:352-368, for a column vector `b`. -/
def cMulVec (l : ℕ) (a : ℕ → ℕ → K) (b : ℕ → K) : ℕ → K :=
  fun i => (List.range l).foldl (fun c k => c + a i k * b k) 0

/-- `pymatrix_to_c_array_real`, c/displacements.c:222-248: `c[i][j] = a[i+n*j]` on the row-major data of an `n × n`
array, i.e. the transposed array. -/
def pymatrixReal (n : ℕ) (cell : ℕ → ℕ → K) : ℕ → ℕ → K :=
  let data : ℕ → K := fun q => cell (q / n) (q % n)
  fun i j => data (i + n * j)

end CMatrix

variable {K : Type*} [Field K] [LinearOrder K] [IsStrictOrderedRing K] [FloorRing K]

/-- One frame of `atomic_displacements`, c/displacements.c:158-177, for one atom with complex coordinates `traj k`
(pairs real, imaginary part), reference position `pos` and the supercell `cell`. -/
def cDisplacement (n : ℕ) (cell : ℕ → ℕ → K) (pos : ℕ → K) (traj : ℕ → K × K) : ℕ → K × K :=
  let cellC := pymatrixReal n cell
  let cellI := cInverse n cellC
  let difference : ℕ → K := fun k => (traj k).1 - pos k
  let differenceMatrix : ℕ → K := fun k => (roundAway (cMulVec n cellI difference k) : K)
  let periodic := cMulVec n cellC differenceMatrix
  fun k => ((traj k).1 - periodic k - pos k, 0)

/-- `atomic_displacements`, c/displacements.c:161-183: the loop over the frames. -/
def cDisplacements (n : ℕ) (cell : ℕ → ℕ → K) (pos : ℕ → K) (frames : List (ℕ → K × K)) :
    List (ℕ → K × K) :=
  frames.map (cDisplacement n cell pos)

/-- One coordinate vector of `relativize_trajectory_py`, dynaphopy/analysis/coordinates.py:67-71
(`np.around` rounds ties to even; `np.linalg.inv(cell)` is not transposed). -/
noncomputable def pyDisplacement {d : ℕ} (cell : Matrix (Fin d) (Fin d) K) (pos traj : Fin d → K) : Fin d → K :=
  let difference := traj - pos
  let differenceMatrix : Fin d → K := fun k => (roundEven (Matrix.mulVec cell⁻¹ difference k) : K)
  traj - (Matrix.vecMul differenceMatrix cell + pos)

end Verif
