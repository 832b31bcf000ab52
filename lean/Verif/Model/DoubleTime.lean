import Verif.Model.Double

/-! # The average time step in double precision -/

set_option autoImplicit false

namespace Verif

/-- `np.round(x, decimals=8)` of a double (dynaphopy/dynamics.py:136): multiplied, rounded to the nearest integer (ties to even) and divided. -/
def roundFl8 (x : ℚ) : ℚ := fl ((roundEven (fl (x * 10 ^ 8)) : ℚ) / 10 ^ 8)

/-- The sum of `get_time_step_average` (dynaphopy/dynamics.py:132-134) in double precision, after `j` of the `n - 1` terms; `t` are the time stamps. -/
def timeStepSumFl (n : ℕ) (t : ℕ → ℚ) : ℕ → ℚ
  | 0 => 0
  | j + 1 => fl (timeStepSumFl n t j + fl (fl (t (j + 1) - t j) / ((n - 1 : ℕ) : ℚ)))

/-- `get_time_step_average` of an object without time step (dynaphopy/dynamics.py:129-138), in double precision, for `n` time stamps. -/
def timeStepFl (n : ℕ) (t : ℕ → ℚ) : ℚ := roundFl8 (timeStepSumFl n t (n - 1))

end Verif
