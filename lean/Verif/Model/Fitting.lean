import Mathlib.Analysis.SpecialFunctions.Exp
import Mathlib.Analysis.SpecialFunctions.Log.Basic
import Mathlib.Analysis.SpecialFunctions.Pow.Real
import Mathlib.Analysis.SpecialFunctions.Trigonometric.Basic

/-! # Fitting functions and the fitting loop (dynaphopy/analysis/fitting/fitting_functions.py, .../fitting/__init__.py:40-193)

`curve_fit`, `quad` and `minimize_scalar` (SciPy) are parameters. Real arithmetic; the only non-finite values kept are those the
code tests for (`isnan(global_error)`). -/

set_option autoImplicit false

namespace Verif

open Real

/-- `Lorentzian._function` (fitting_functions.py:32-40). -/
noncomputable def lorentzian (x a b c d : ℝ) : ℝ := c / (π * b * (1 + ((x - a) / b) ^ 2)) + d

/-- `Lorentzian_asymmetric._g_a` (fitting_functions.py:114-121). -/
noncomputable def asymWidth (x a b s : ℝ) : ℝ := 2 * b / (1 + exp (s * (x - a)))

/-- `Lorentzian_asymmetric._function` (fitting_functions.py:123-132). -/
noncomputable def lorentzianAsym (x a b c d s : ℝ) : ℝ :=
  c / (π * asymWidth x a b s * (1 + ((x - a) / asymWidth x a b s) ^ 2)) + d

/-- `Damped_harmonic._function` (fitting_functions.py:214-222). -/
noncomputable def dampedHarmonic (x a b c d : ℝ) : ℝ := c / ((a ^ 2 - x ^ 2) ^ 2 + (b * x) ^ 2) + d

/-- `Gaussian_function._function` (fitting_functions.py:302-310). -/
noncomputable def gaussianFn (x a b c d : ℝ) : ℝ := c / b * √(2 * π) * exp (-(x - a) ^ 2 / (2 * b ^ 2)) + d

/-- The dictionary returned by `get_fitting` when `all_good` is True (fitting_functions.py:81-88). -/
structure FitResult where
  maximum : ℝ
  width : ℝ
  position : ℝ
  area : ℝ
  baseLine : ℝ

/-- `np.isnan(np.average(standard_errors[:2]) / np.sqrt(area))` (fitting_functions.py:73-75): the square root of a negative
number and 0/0 are nan; an infinite error (`none`: covariance not estimated) gives inf, which is accepted. -/
noncomputable def errorIsNan (avgErr : Option ℝ) (area : ℝ) : Bool :=
  area < 0 || (area = 0 && avgErr = some 0)

/-- `Lorentzian.get_fitting` (fitting_functions.py:59-91) for the parameters `(a, b, c, d)` and the average standard error
returned by curve_fit; `none` in the argument: curve_fit raised RuntimeError; `none` in the result: `all_good` is False. -/
noncomputable def lorentzianFit (r : Option ((ℝ × ℝ × ℝ × ℝ) × Option ℝ)) : Option FitResult :=
  match r with
  | none => none
  | some ((a, b, c, d), err) =>
    if errorIsNan err c then none
    else some { maximum := c / (b * π), width := 2 * b, position := a, area := c, baseLine := d }

/-- `Lorentzian_asymmetric.get_fitting` (fitting_functions.py:152-191); `peak` is the argument found by minimize_scalar, `area` the
value of quad. -/
noncomputable def lorentzianAsymFit (r : Option ((ℝ × ℝ × ℝ × ℝ × ℝ) × Option ℝ)) (peak area : ℝ) : Option FitResult :=
  match r with
  | none => none
  | some ((a, b, c, d, s), err) =>
    if errorIsNan err area then none
    else some { maximum := lorentzianAsym peak a b c d s, width := 2 * asymWidth peak a b s, position := peak, area := area,
                baseLine := d }

/-- `Damped_harmonic.get_fitting` (fitting_functions.py:241-279). -/
noncomputable def dampedFit (r : Option ((ℝ × ℝ × ℝ × ℝ) × Option ℝ)) (area : ℝ) : Option FitResult :=
  match r with
  | none => none
  | some ((a, b, c, d), err) =>
    if errorIsNan err area then none
    else some { maximum := dampedHarmonic a a b c d, width := |b|, position := a, area := area, baseLine := d }

/-- `phonon_fitting_analysis` (fitting/__init__.py:53-82, 142-147, 190-191): the lists `positions` and `widths`, one branch after the other;
`fitOne i` is the outcome of the fit of branch `i`, `shift` the thermal expansion shift. -/
noncomputable def fittingLoop (n : ℕ) (fitOne : ℕ → Option FitResult) (shift : Option (ℕ → ℝ)) : List ℝ × List ℝ :=
  (List.range n).foldl (fun acc i =>
    match fitOne i with
    | none => (acc.1 ++ [0], acc.2 ++ [0])
    | some r =>
      let position := match shift with
        | none => r.position
        | some s => r.position + s i
      (acc.1 ++ [position], acc.2 ++ [r.width])) ([], [])

/-- `h_planck` and `h_planck_bar` (fitting/__init__.py:11-12), `kb_boltzmann` (line 13). -/
noncomputable def hPlanck : ℝ := 4.135667662e-3
noncomputable def hPlanckBar : ℝ := hPlanck / (2 * π)
noncomputable def kbFit : ℝ := 8.6173324e-5

/-- `occupancy_lor` (fitting/__init__.py:90, 98) from the area of the peak. -/
noncomputable def occupancy (area position : ℝ) : ℝ := 2 * area / (position * hPlanckBar) - 0.5

/-- `fit_temperature` (fitting/__init__.py:102). -/
noncomputable def fitTemperature (area position : ℝ) : ℝ :=
  hPlanckBar * position / (kbFit * log (1 / occupancy area position + 1))

end Verif
