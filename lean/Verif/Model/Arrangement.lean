import Verif.Model.Supercell
import Mathlib.Data.List.Sort

/-! # Automatic order of the atoms (dynaphopy/interface/iofile/__init__.py:10-136) and `np.argsort` -/

set_option autoImplicit false

namespace Verif

section sorting
variable {K : Type*} [Zero K] [LinearOrder K]

/-- `np.argsort(template)` (trajectory_parsers.py:94, 301, 445). For equal entries the order is not specified by NumPy; here it is the original one. -/
def argsort (t : List K) : List ℕ := (List.range t.length).insertionSort fun i j => t.getD i 0 ≤ t.getD j 0

/-- `np.argmin` of `f 0, ..., f (n-1)`: the first index of the smallest value (0 for `n = 0`, where NumPy raises); called in iofile/__init__.py:73, 102. -/
def argmin (n : ℕ) (f : ℕ → K) : ℕ := (List.range n).foldl (fun best i => if f i < f best then i else best) 0

end sorting

variable {K : Type*} [Field K] [LinearOrder K] [FloorRing K]

/-- `np.array(x, dtype=int)`: rounding towards zero (iofile/__init__.py:58). -/
def truncZero (x : K) : ℤ := if 0 ≤ x then ⌊x⌋ else ⌈x⌉

/-- `np.max` of `f 0, ..., f (n-1)` (iofile/__init__.py:54). -/
def maxOf (n : ℕ) (f : ℕ → K) : K := (List.range n).foldl (fun m i => max m (f i)) (f 0)

/-- `supercell_dim` (iofile/__init__.py:54) from the scaled coordinates of the `N` atoms. Simplification: a negative result (all atoms
more than half a cell below the origin) is taken as 0. -/
def supercellDim (N : ℕ) (scaled : ℕ → Fin 3 → K) (k : Fin 3) : ℕ := (roundEven (maxOf N fun i => scaled i k)).toNat

/-- One component of `diff` (iofile/__init__.py:62-65). -/
def wrapDiff (u p : K) : K :=
  let d := |u - p|
  let d := if 1 / 2 ≤ d then d - 1 else d
  if d < -(1 / 2) then d + 1 else d

/-- `atom_unit_cell_index[i]` (iofile/__init__.py:56-73): the atom of the unit cell (scaled positions `sp`, `nc` atoms) closest to the scaled coordinate `x`. The norm is
replaced by its square, which has its minimum at the same place. -/
def unitCellIndex (nc : ℕ) (sp : ℕ → Fin 3 → K) (x : Fin 3 → K) : ℕ :=
  argmin nc fun j => ∑ k : Fin 3, wrapDiff (x k - truncZero (x k)) (sp j k) ^ 2

/-- `dynaphopy_order(j, supercell_dim)[:3]` (iofile/__init__.py:80, 130-136). -/
def originalConf (dim : Fin 3 → ℕ) (j : ℕ) : Fin 3 → ℕ :=
  let o := dynaphopyOrder j (dim 0) (dim 1) (dim 2)
  ![o.1, o.2.1, o.2.2.1]

/-- `lattice_points_coordinates` of one atom (iofile/__init__.py:91-98). -/
def latticePoint (dim : Fin 3 → ℕ) (x p : Fin 3 → K) (k : Fin 3) : K :=
  let l := x k - p k
  let l := if (dim k : K) - 1 / 2 < l then l - dim k else l
  if l < -(1 / 2) then l + dim k else l

/-- `np.argmin(diference)` (iofile/__init__.py:100-102) with `diff_matrix` (10-20); squared norm. If a dimension is 0 all differences are nan
(0/0) and `argmin` is 0. -/
def latticeIndex (N : ℕ) (dim : Fin 3 → ℕ) (l : Fin 3 → K) : ℕ :=
  if ∃ k, dim k = 0 then 0 else
  argmin N fun j => ∑ k : Fin 3, (l k / dim k - (originalConf dim j k : K) / dim k) ^ 2

/-- One entry of the template (iofile/__init__.py:88-102). -/
def templateEntry (N nc : ℕ) (sp scaled : ℕ → Fin 3 → K) (i : ℕ) : K :=
  let idx := unitCellIndex nc sp (scaled i)
  let dim := supercellDim N scaled
  (latticeIndex N dim (latticePoint dim (scaled i) (sp idx)) : K) + (idx : K) * N / nc

/-- `get_correct_arrangement(reference, structure)` (iofile/__init__.py:43-127) from the scaled coordinates of the reference. -/
def correctArrangement (N nc : ℕ) (sp scaled : ℕ → Fin 3 → K) : List K :=
  let template := (List.range N).map (templateEntry N nc sp scaled)
  if template.Nodup then template else (List.range N).map (fun i : ℕ => (i : K))

/-- `np.dot(coordinate, np.linalg.inv(structure.get_cell()))` (iofile/__init__.py:47-50). -/
noncomputable def scaledCoordinates (cell : Matrix (Fin 3) (Fin 3) K) (reference : ℕ → Fin 3 → K) (i : ℕ) : Fin 3 → K :=
  Matrix.vecMul (reference i) cell⁻¹

end Verif
