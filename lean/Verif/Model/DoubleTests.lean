import Verif.Model.Double

/-! # Double precision: the test for commensurate wave vectors -/

set_option autoImplicit false

namespace Verif

/-- `np.around(t, decimals=4)` (dynaphopy/__init__.py:618) in double precision: numpy multiplies by 10^4, rounds to a whole number and divides. -/
def aroundFl (t : ℚ) : ℚ := fl ((roundEven (fl (t * 10 ^ 4)) : ℚ) / 10 ^ 4)

/-- Coordinate `i` of `np.dot(q_point, inv(primitive_matrix))` times the supercell (dynaphopy/__init__.py:616-617) in double precision, products added from left to right; `q` and `B` (the inverse, computed by
LAPACK) are the floats. -/
def transformFl (q : Fin 3 → ℚ) (B : Fin 3 → Fin 3 → ℚ) (n : Fin 3 → ℕ) (i : Fin 3) : ℚ :=
  fl (fl (fl (fl (q 0 * B 0 i) + fl (q 1 * B 1 i)) + fl (q 2 * B 2 i)) * n i)

/-- `check_commensurate` with four decimals (dynaphopy/__init__.py:610-624) in double precision. `np.mod(x, 1)` of a float is 0 exactly if it is a whole number (the remainder is calculated without error). -/
def checkCommensurateFl (q : Fin 3 → ℚ) (B : Fin 3 → Fin 3 → ℚ) (n : Fin 3 → ℕ) : Bool :=
  decide (∀ i, (aroundFl (transformFl q B n i)).den = 1)

/-- `get_equivalent_q_points_by_symmetry` (phonopy_link.py:352-363) in double precision, for given matrices `operation_matrix_q` (line 355, calculated exactly if the entries of the primitive matrix and its inverse
are small multiples of 1/2), products added from left to right. The order of the result of `set` is arbitrary in Python. -/
def equivalentQPointsFl (ms : List (Fin 3 → Fin 3 → ℚ)) (q : Fin 3 → ℚ) : List (Fin 3 → ℚ) :=
  (q :: (ms.map fun m => fun i => fl (fl (fl (q 0 * m 0 i) + fl (q 1 * m 1 i)) + fl (q 2 * m 2 i))).filter fun t => decide (∀ i, 0 ≤ t i)).dedup

/-- One coordinate of point `i` of a segment of the band path (phonopy_link.py:315-317) in double precision. -/
def bandPointFl (resolution : ℕ) (q0 q1 : ℚ) (i : ℕ) : ℚ := fl (q0 + fl (fl (fl (q1 - q0) / resolution) * i))

end Verif
