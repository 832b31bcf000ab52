import Verif.Model.PhonopyLink
import Mathlib.Analysis.Complex.Norm
import Mathlib.Analysis.Real.Sqrt

/-! # The test of the orthonormality of the eigenvectors (dynaphopy/interface/phonopy_link.py:86-89, 172-198)

The eigenvectors are the columns of the square matrix that phonopy returns. Real arithmetic; a row of zeros, which gives nan in numpy, is left at zero here (all theorems that need it assume rows that are not
zero). -/

set_option autoImplicit false

namespace Verif

/-- `np.linalg.norm(eigenvector[i, :])` (phonopy_link.py:88). -/
noncomputable def evRowNorm {n : ℕ} (E : Matrix (Fin n) (Fin n) ℂ) (i : Fin n) : ℝ := Real.sqrt (∑ j, ‖E i j‖ ^ 2)

/-- `eigenvectors_normalization` (phonopy_link.py:86-89): every row is divided by its norm. -/
noncomputable def normalizeRows {n : ℕ} (E : Matrix (Fin n) (Fin n) ℂ) : Matrix (Fin n) (Fin n) ℂ :=
  Matrix.of fun i j => E i j / (evRowNorm E i : ℂ)

/-- `np.dot(eigenvectors.T, np.ma.conjugate(eigenvectors)).real` (phonopy_link.py:182). -/
noncomputable def printedProducts {n : ℕ} (E : Matrix (Fin n) (Fin n) ℂ) : Matrix (Fin n) (Fin n) ℝ :=
  (E.transpose * E.map (starRingEnd ℂ)).map Complex.re

/-- The entries of a matrix as a table that is indexed from zero (numpy indexing within the bounds). -/
def tableOf {K : Type*} [Zero K] {n : ℕ} (E : Matrix (Fin n) (Fin n) K) (a b : ℕ) : K := if h : a < n ∧ b < n then E ⟨a, h.1⟩ ⟨b, h.2⟩ else 0

/-- `obtain_eigenvectors_and_frequencies(structure, q_vector, test_orthonormal)` (phonopy_link.py:172-198) for the matrix `E` of phonopy: the products that are printed, if asked for, and the arranged
eigenvectors that are returned (the frequencies pass unchanged). -/
noncomputable def obtainEigenvectors (na nd : ℕ) (test : Bool) (E : Matrix (Fin (na * nd)) (Fin (na * nd)) ℂ) :
    Option (Matrix (Fin (na * nd)) (Fin (na * nd)) ℝ) × List (List (List ℂ)) :=
  let used := if test then normalizeRows E else E
  (if test then some (printedProducts used) else none, arrangeEv na nd (tableOf used))

end Verif
