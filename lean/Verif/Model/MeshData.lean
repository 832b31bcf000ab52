import Verif.Model.PhonopyLink
import Mathlib.LinearAlgebra.Matrix.Charpoly.Basic
import Mathlib.Algebra.Polynomial.Roots
import Mathlib.Data.Multiset.Sort

/-! # Frequencies and linewidths on a mesh (dynaphopy/__init__.py:383-394, 533-564; dynaphopy/interface/phonopy_link.py:287-298) -/

set_option autoImplicit false

namespace Verif

/-- The frequencies that phonopy gives for one wave vector (`run_mesh`, called in phonopy_link.py:295-298; not in the repository): `np.linalg.eigh` gives
the eigenvalues of the dynamical matrix in ascending order; they are turned into frequencies one by one. Here the eigenvalues are the roots of the characteristic polynomial. -/
noncomputable def phonopyRow {n : ℕ} (factor : ℝ) (D : Matrix (Fin n) (Fin n) ℂ) : List ℝ :=
  ((D.charpoly.roots.map Complex.re).sort (· ≤ ·)).map (phonopyFrequency factor)

/-- What `get_mesh_frequencies_and_linewidths` returns (dynaphopy/__init__.py:564): one row for each wave vector of the mesh. -/
structure MeshResult (Q : Type) where
  qpoints : List Q
  multiplicity : List ℕ
  frequencies : List (List ℝ)
  linewidths : List (List ℝ)

/-- `obtain_phonopy_mesh_from_force_constants(force_constants=get_renormalized_force_constants(values, eigenvectors, ...))` (phonopy_link.py:287-298, 363-412; called in
dynaphopy/__init__.py:542-562): `values p` are numbers for the modes of the commensurate point `p`, used as frequencies. `interpolate` is phonopy's way from the dynamical matrices at the commensurate
points to the one at a wave vector of the mesh (through the force constants, with `symmetrize` if set). -/
noncomputable def meshRowsOf {Q Com : Type} (na nd : ℕ) (factor : ℝ) (interpolate : (Com → Matrix (Fin (na * nd)) (Fin (na * nd)) ℂ) → Q → Matrix (Fin (na * nd)) (Fin (na * nd)) ℂ)
    (mesh : List (Q × ℕ)) (eigenvectors : Com → List (List (List ℂ))) (values : Com → Fin (na * nd) → ℝ) : List (List ℝ) :=
  mesh.map fun q => phonopyRow factor (interpolate (fun p => renormalizedDynmat na nd factor (values p) (eigenvectors p)) q.1)

/-- `get_mesh_frequencies_and_linewidths` (dynaphopy/__init__.py:533-564). `mesh` are phonopy's wave vectors with their weights. -/
noncomputable def meshFrequenciesLinewidths {Q Com : Type} (na nd : ℕ) (factor : ℝ)
    (interpolate : (Com → Matrix (Fin (na * nd)) (Fin (na * nd)) ℂ) → Q → Matrix (Fin (na * nd)) (Fin (na * nd)) ℂ)
    (mesh : List (Q × ℕ)) (eigenvectors : Com → List (List (List ℂ))) (frequencies linewidths : Com → Fin (na * nd) → ℝ) : MeshResult Q :=
  { qpoints := mesh.map Prod.fst
    multiplicity := mesh.map Prod.snd
    frequencies := meshRowsOf na nd factor interpolate mesh eigenvectors frequencies
    linewidths := meshRowsOf na nd factor interpolate mesh eigenvectors linewidths }

/-- The points drawn by `plot_frequencies_vs_linewidths` (dynaphopy/__init__.py:392-393), one list for each call of `plt.scatter`: branch `j` is column `j` of both arrays. -/
def scatterCalls (branches : ℕ) (frequencies linewidths : List (List ℝ)) : List (List (ℝ × ℝ)) :=
  (List.range branches).map fun j => (frequencies.map fun r => r.getD j 0).zip (linewidths.map fun r => r.getD j 0)

end Verif
