import Verif.Model.Rounding
import Mathlib.Algebra.BigOperators.Fin
import Mathlib.LinearAlgebra.Matrix.NonsingularInverse

/-!
# Supercell construction (dynaphopy/atoms.py) and index arithmetic (dynaphopy/interface/iofile/__init__.py)

`d` is the number of dimensions (general, not only 3). A list of `n` atom vectors is a `List (Fin d → K)`;
a cell is a matrix with the lattice vectors in the rows.
-/

set_option autoImplicit false

namespace Verif

/-- Python `itertools.product(*ls)` (used at dynaphopy/atoms.py:152): the last iterable varies fastest. -/
def pyProduct : List (List ℕ) → List (List ℕ)
  | [] => [[]]
  | l :: ls => l.flatMap fun a => (pyProduct ls).map (a :: ·)

/-- The sequence of `r[::-1]` for `r in itertools.product(*[range(i) for i in supercell[::-1]])`,
dynaphopy/atoms.py:152-153. -/
def cellTranslations (supercell : List ℕ) : List (List ℕ) :=
  (pyProduct (supercell.reverse.map List.range)).map List.reverse

variable {K : Type*} [Field K] {d : ℕ}

/-- `np.dot(np.array(r), cell)` for an integer row vector `r` (dynaphopy/atoms.py:153).
Simplification: entries of `r` beyond its length read as 0 (numpy raises; excluded by the hypotheses
`supercell.length = d` of the theorems). -/
def latticeVector (r : List ℕ) (cell : Matrix (Fin d) (Fin d) K) : Fin d → K :=
  fun j => ∑ i : Fin d, (r.getD i 0 : K) * cell i j

/-- `Structure.get_positions(supercell)` once `_positions` is known, dynaphopy/atoms.py:150-156. -/
def positionsSupercell (positions : List (Fin d → K)) (cell : Matrix (Fin d) (Fin d) K)
    (supercell : List ℕ) : List (Fin d → K) :=
  positions.flatMap fun p => (cellTranslations supercell).map fun r => p + latticeVector r cell

/-- The loop `for j in range(n): out += [v[j]] * np.prod(supercell)` shared by `get_masses`
(dynaphopy/atoms.py:201-208), `get_charges` (210-221), `get_atomic_numbers` (232-240), `get_atomic_elements`
(265-275, `unique=False`) and the last loop of `get_atom_type_index` (314-317). -/
def expandSupercell {α : Type*} (v : List α) (supercell : List ℕ) : List α :=
  v.flatMap fun a => List.replicate supercell.prod a

/-- `Structure.get_cell(supercell)` = `np.dot(self._cell, np.diag(supercell))`, dynaphopy/atoms.py:88-93.
`supercell` is given as a function of the direction. -/
def getCellSupercell (cell : Matrix (Fin d) (Fin d) K) (supercell : Fin d → ℕ) :
    Matrix (Fin d) (Fin d) K :=
  cell * Matrix.diagonal fun i => (supercell i : K)

/-- `np.dot(np.diagflat(supercell), cell)`: what dynaphopy/interface/iofile/__init__.py:447, 709 uses instead for the
MD supercell. -/
def diagflatCell (cell : Matrix (Fin d) (Fin d) K) (supercell : Fin d → ℕ) :
    Matrix (Fin d) (Fin d) K :=
  Matrix.diagonal (fun i => (supercell i : K)) * cell

/-- `dynaphopy_order(i, size)`, dynaphopy/interface/iofile/__init__.py:130-136. -/
def dynaphopyOrder (i s0 s1 s2 : ℕ) : ℕ × ℕ × ℕ × ℕ :=
  (i % s0, i % (s0 * s1) / s0, i % (s0 * s1 * s2) / (s1 * s0), i / (s1 * s0 * s2))

end Verif
