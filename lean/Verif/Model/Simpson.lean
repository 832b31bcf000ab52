import Verif.Model.Thermal

/-! # Simpson's rule (`scipy.integrate.simps` / `simpson`)

Used for the areas of the spectra (dynaphopy/__init__.py:918, 928, 1039, 1046), the number of states (dynaphopy/__init__.py:1266, 1339) and the thermal properties
(dynaphopy/analysis/thermal_properties.py:45-119). The code imports `simps` and, where it is missing, `simpson` (dynaphopy/__init__.py:16-19, thermal_properties.py:4-7), so that two versions of the
rule are in use: they differ for an even number of points. SciPy is not in the repository; the functions below are the formulas of its source, for points `x 0, ..., x (n-1)`. Real arithmetic. -/

set_option autoImplicit false

namespace Verif

open Finset

/-- One term of `_basic_simpson` of SciPy (called by `simps` in dynaphopy/__init__.py:918), with the points `i`, `i+1`, `i+2`. -/
noncomputable def simpsonSeg (x y : ℕ → ℝ) (i : ℕ) : ℝ :=
  let h0 := x (i + 1) - x i
  let h1 := x (i + 2) - x (i + 1)
  let hsum := h0 + h1
  let hprod := h0 * h1
  let h0divh1 := h0 / h1
  hsum / 6 * (y i * (2 - 1 / h0divh1) + y (i + 1) * (hsum * (hsum / hprod)) + y (i + 2) * (2 - h0divh1))

/-- `_basic_simpson(y, start, stop, x)` of SciPy with `m` terms (called by `simps` in dynaphopy/__init__.py:918). -/
noncomputable def basicSimpson (x y : ℕ → ℝ) (start m : ℕ) : ℝ := ∑ k ∈ range m, simpsonSeg x y (start + 2 * k)

/-- The trapezoid between the points `i` and `i+1`: `0.5*dx*(y[i] + y[i+1])`, used by `simps` for the first and last interval (dynaphopy/__init__.py:918). -/
noncomputable def trapezoid (x y : ℕ → ℝ) (i : ℕ) : ℝ := 0.5 * (x (i + 1) - x i) * (y i + y (i + 1))

/-- `scipy.integrate.simps` before version 1.11 (`even='avg'`), imported in dynaphopy/__init__.py:17 and thermal_properties.py:5: for an even number of points the average of the trapezoid on the last
interval and on the first one. -/
noncomputable def simpsAvg (n : ℕ) (x y : ℕ → ℝ) : ℝ :=
  if n % 2 = 1 then basicSimpson x y 0 ((n - 1) / 2)
  else if n = 0 then 0
  else
    let val := (trapezoid x y (n - 2) + trapezoid x y 0) / 2
    let result := (basicSimpson x y 0 ((n - 2) / 2) + basicSimpson x y 1 ((n - 2) / 2)) / 2
    result + val

/-- `scipy.integrate.simpson` from version 1.11 on, imported in dynaphopy/__init__.py:19 and thermal_properties.py:7: for an even number of points the last interval is corrected after Cartwright. -/
noncomputable def simpsCartwright (n : ℕ) (x y : ℕ → ℝ) : ℝ :=
  if n % 2 = 1 then basicSimpson x y 0 ((n - 1) / 2)
  else if n = 0 then 0
  else if n = 2 then trapezoid x y 0
  else
    let h0 := x (n - 2) - x (n - 3)
    let h1 := x (n - 1) - x (n - 2)
    let alpha := (2 * h1 ^ 2 + 3 * h0 * h1) / (6 * (h1 + h0))
    let beta := (h1 ^ 2 + 3 * h0 * h1) / (6 * h0)
    let eta := (1 * h1 ^ 3) / (6 * h0 * (h0 + h1))
    basicSimpson x y 0 ((n - 2) / 2) + (alpha * y (n - 1) + beta * y (n - 2) - eta * y (n - 3))

/-- The weight of the point `j` in an integration rule. -/
noncomputable def ruleWeight (rule : (ℕ → ℝ) → (ℕ → ℝ) → ℝ) (x : ℕ → ℝ) (j : ℕ) : ℝ := rule x (fun i => if i = j then 1 else 0)

end Verif
