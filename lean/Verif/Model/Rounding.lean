import Mathlib.Algebra.Order.Round
import Mathlib.Algebra.Order.Floor.Ring
import Mathlib.Tactic.Linarith
import Mathlib.Tactic.Ring
import Mathlib.Tactic.FieldSimp
import Mathlib.Tactic.NormNum
import Mathlib.Tactic.Positivity

/-!
# Rounding functions used by the code

The numbers are idealised: an arbitrary linearly ordered field with a floor function
(ℚ, so that the models compute, or ℝ).
-/

set_option autoImplicit false

namespace Verif

variable {K : Type*} [Field K] [LinearOrder K] [IsStrictOrderedRing K] [FloorRing K]

/-- `np.around(x)` (numpy, called in dynaphopy/atoms.py:303, dynaphopy/dynamics.py:195, 290,
dynaphopy/analysis/coordinates.py:70, dynaphopy/interface/iofile/__init__.py:54) and Python 3 `round(x)`
(dynaphopy/power_spectrum/__init__.py:35): nearest integer, ties to the even integer.
Simplification: exact arithmetic. -/
def roundEven (x : K) : ℤ :=
  let f := ⌊x⌋
  if x - f < 1 / 2 then f
  else if 1 / 2 < x - f then f + 1
  else if f % 2 = 0 then f else f + 1

/-- C library `round(x)` (called in c/displacements.c:170): nearest integer, ties away from zero.
Simplification: exact arithmetic. -/
def roundAway (x : K) : ℤ :=
  if 0 ≤ x then ⌊x + 1 / 2⌋ else -⌊-x + 1 / 2⌋

/-- `np.around(x, decimals=n)`: multiply by `10^n`, round, divide
(dynaphopy/__init__.py:618, dynaphopy/dynamics.py:136, dynaphopy/atoms.py:348). -/
def aroundDec (n : ℕ) (x : K) : K := (roundEven (x * 10 ^ n) : K) / 10 ^ n

/-- Python `int(x)` on a float: truncation towards zero
(dynaphopy/power_spectrum/__init__.py:36-48). -/
def pyInt (x : K) : ℤ := if 0 ≤ x then ⌊x⌋ else -⌊-x⌋

end Verif
