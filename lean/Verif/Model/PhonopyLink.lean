import Mathlib.Data.Complex.Basic
import Mathlib.Data.Matrix.Mul
import Mathlib.LinearAlgebra.Matrix.NonsingularInverse
import Mathlib.LinearAlgebra.Matrix.ConjTranspose
import Mathlib.Analysis.Complex.Norm
import Mathlib.Data.List.MinMax
import Mathlib.Data.List.FinRange
import Mathlib.Data.List.Dedup
import Mathlib.Data.Rat.Defs
import Mathlib.Algebra.Order.Field.Rat
import Mathlib.Data.Sign.Defs

/-! # Link to phonopy (dynaphopy/interface/phonopy_link.py) and reordering of bands (dynaphopy/__init__.py:401-443)

phonopy itself is not modelled; what it returns is an argument. -/

set_option autoImplicit false

namespace Verif

/-! ## Eigenvectors -/

/-- `arranged_ev` (phonopy_link.py:179-182): `arranged_ev[i][j][k] = eigenvectors[j*nd + k, i]`. -/
def arrangeEv {K : Type*} (na nd : ℕ) (ev : ℕ → ℕ → K) : List (List (List K)) :=
  (List.range (na * nd)).map fun i => (List.range na).map fun j => (List.range nd).map fun k => ev (j * nd + k) i

/-- `eigenvector.reshape(size, size, order='C').T` (phonopy_link.py:380): the entry `a, b` of the result. In C order the array is its entries one after the other, last index fastest; row `r` of the reshaped
array are the entries `r*size, ..., r*size + size - 1`; the transpose exchanges the indices. -/
def flattenEv {K : Type*} [Zero K] (size : ℕ) (ev : List (List (List K))) (a b : ℕ) : K :=
  let flat := ev.flatten.flatten
  let reshaped := (List.range size).map fun r => (flat.drop (r * size)).take size
  (reshaped.getD b []).getD a 0

/-! ## Dynamical matrices from the renormalized frequencies -/

/-- `eigenvalues = frequencies_thz ** 2 * np.sign(frequencies_thz)` with `frequencies_thz = frequencies / VaspToTHz` (phonopy_link.py:387-388). -/
noncomputable def dynEigenvalue (factor f : ℝ) : ℝ := (f / factor) ^ 2 * (SignType.sign (f / factor) : ℝ)

/-- `create_dynamical_matrices` of phonopy's `DynmatToForceConstants` (not in the repository; called in
phonopy_link.py:391-392): `E diag(eigenvalues) E^H`. -/
noncomputable def dynmatFromEigen {n : ℕ} (E : Matrix (Fin n) (Fin n) ℂ) (lam : Fin n → ℝ) : Matrix (Fin n) (Fin n) ℂ :=
  E * Matrix.diagonal (fun i => (lam i : ℂ)) * E.conjTranspose

/-- The frequency phonopy gives to an eigenvalue of the dynamical matrix (not in the repository; its result is used in
phonopy_link.py:172-198): `sqrt(abs(eig)) * sign(eig) * factor`. -/
noncomputable def phonopyFrequency (factor eig : ℝ) : ℝ := Real.sqrt |eig| * (SignType.sign eig : ℝ) * factor

/-- The dynamical matrix of one commensurate point in `get_renormalized_force_constants` (phonopy_link.py:379-391), from the eigenvectors as arranged by `obtain_eigenvectors_and_frequencies`. -/
noncomputable def renormalizedDynmat (na nd : ℕ) (factor : ℝ) (freqs : Fin (na * nd) → ℝ) (ev : List (List (List ℂ))) : Matrix (Fin (na * nd)) (Fin (na * nd)) ℂ :=
  dynmatFromEigen (Matrix.of fun a b => flattenEv (na * nd) ev a b) fun i => dynEigenvalue factor (freqs i)

/-! ## Equivalent wave vectors -/

section equivalent
variable {K : Type*} [Field K] [LinearOrder K] [IsStrictOrderedRing K]

/-- The matrix that is applied to the wave vector (phonopy_link.py:354-355); `op` is a reciprocal operation of spglib. -/
noncomputable def qOperation (P op : Matrix (Fin 3) (Fin 3) K) : Matrix (Fin 3) (Fin 3) K := P⁻¹ * op.transpose * P

/-- `get_equivalent_q_points_by_symmetry` (phonopy_link.py:343-363) for the given operations. The order of the result of `set` is arbitrary in Python; here it is the order of the last occurrences. -/
noncomputable def equivalentQPoints (P : Matrix (Fin 3) (Fin 3) K) (ops : List (Matrix (Fin 3) (Fin 3) K)) (q : Fin 3 → K) : List (Fin 3 → K) :=
  (q :: (ops.map fun op => Matrix.vecMul q (qOperation P op)).filter fun t => decide (∀ i, 0 ≤ t i)).dedup

end equivalent

/-! ## Band paths -/

/-- One segment of the path (phonopy_link.py:313-318). -/
def bandPoints {K : Type*} [Field K] (resolution : ℕ) (q0 q1 : Fin 3 → K) : List (Fin 3 → K) :=
  (List.range (resolution + 1)).map fun (i : ℕ) c => q0 c + (q1 c - q0 c) / (resolution : K) * (i : K)

/-! ## Reordering of the bands -/

/-- The overlaps `np.abs(np.dot(ref.conjugate().T, ev))` (dynaphopy/__init__.py:406, 428). -/
noncomputable def overlap {n : ℕ} (ref ev : Matrix (Fin n) (Fin n) ℂ) (i j : Fin n) : ℝ := ‖(ref.conjTranspose * ev) i j‖

/-- `eigenvector_order` (dynaphopy/__init__.py:426-431): for each band `i`, the first index at which the overlap, summed over the wave vectors of the segment, is largest. `none`: no bands. -/
noncomputable def eigenvectorOrder {n : ℕ} (refs evs : List (Matrix (Fin n) (Fin n) ℂ)) (i : Fin n) : Option (Fin n) :=
  (List.finRange n).argmax fun j => ((refs.zip evs).map fun p => overlap p.1 p.2 i j).sum

/-- `freq[i].T[o].T` (dynaphopy/__init__.py:441-443, also 408): the frequencies of one wave vector in the new order. -/
def reorderBands {n : ℕ} (freq : Fin n → ℝ) (order : Fin n → Fin n) : Fin n → ℝ := fun j => freq (order j)

end Verif
