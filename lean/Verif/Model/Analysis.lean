import Verif.Model.Arrangement
import Verif.Model.Averages
import Mathlib.Analysis.SpecialFunctions.Log.Basic
import Mathlib.Analysis.SpecialFunctions.Trigonometric.Basic

/-! # Velocity distribution, displacement distributions, scan of MEM coefficients, drawings of the modes
(dynaphopy/analysis/energy.py, dynaphopy/__init__.py:984-1095, dynaphopy/power_spectrum/__init__.py:109-219, dynaphopy/analysis/modes.py) -/

set_option autoImplicit false
set_option linter.unusedSectionVars false

namespace Verif

/-! ## Temperature -/

/-- `kb_boltzmann` (analysis/energy.py:5). -/
noncomputable def kbEnergy : ℝ := 0.831446

/-- `np.reshape(np.linalg.norm(trajectory.get_velocity_mass_average(), axis=2), -1)` (analysis/energy.py:13) with `get_velocity_mass_average` (dynamics.py:143-156):
frame after frame, atom after atom. -/
noncomputable def massSpeeds {N : ℕ} (frames : List (Fin N → Fin 3 → ℂ)) (masses : Fin N → ℝ) : List ℝ :=
  frames.flatMap fun v => List.ofFn fun i => √(∑ j, ‖v i j * (√(masses i) : ℂ)‖ ^ 2)

/-- `scipy.stats.maxwell.pdf(x, loc=0, scale=a)` by its documentation: `√(2/π) y² exp(-y²/2) / a` with `y = x / a`; used in analysis/energy.py:19-21. -/
noncomputable def maxwellPdf (a x : ℝ) : ℝ := √(2 / Real.pi) * (x / a) ^ 2 * Real.exp (-(x / a) ^ 2 / 2) / a

/-- What `maxwell.fit(velocity, floc=0)` looks for (analysis/energy.py:21): the scale with the largest likelihood of the data. The iteration of SciPy that finds it is not modelled. -/
def IsMaxwellFit (data : List ℝ) (a : ℝ) : Prop :=
  0 < a ∧ ∀ b, 0 < b → (data.map fun x => Real.log (maxwellPdf b x)).sum ≤ (data.map fun x => Real.log (maxwellPdf a x)).sum

/-- `pow(params[1], 2)/ kb_boltzmann` (analysis/energy.py:24). -/
noncomputable def boltzmannTemperature (scale : ℝ) : ℝ := scale ^ 2 / kbEnergy

/-- `np.average(velocity)` (analysis/energy.py:15). -/
noncomputable def speedAverage (data : List ℝ) : ℝ := data.sum / data.length

/-- `np.std(velocity)` (analysis/energy.py:16). -/
noncomputable def speedDeviation (data : List ℝ) : ℝ := √((data.map fun x => (x - speedAverage data) ^ 2).sum / data.length)

/-- The end of the velocity axis of the plot of the distribution (analysis/energy.py:28). -/
noncomputable def speedAxisEnd (data : List ℝ) : ℝ := speedAverage data + 3 * speedDeviation data

/-- The attributes `get_temperature` and `set_temperature` use. -/
structure TempState (K : Type*) where
  temperature : Option K := none
  silent : Bool

/-- `get_temperature` (dynaphopy/__init__.py:1086-1092); `fit` is the temperature that `boltzmann_distribution` returns. `not x` is true for None and for 0. -/
def getTemperature {K : Type*} [Zero K] [DecidableEq K] (fit : K) (s : TempState K) : TempState K × K :=
  match s.temperature with
  | some t => if t = 0 then ({ s with temperature := some fit }, fit) else (s, t)
  | none => ({ s with temperature := some fit }, fit)

/-- `set_temperature` (dynaphopy/__init__.py:1094-1095). -/
def setTemperature {K : Type*} (t : K) (s : TempState K) : TempState K := { s with temperature := some t }

/-! ## Distribution of the displacements -/

section histogram
variable {K : Type*} [Field K] [LinearOrder K]

/-- The range `np.histogram` uses for `range=(lo, hi)` (called in dynaphopy/__init__.py:1068-1071): a range without width is enlarged by one half on both sides. -/
def histRange (lo hi : K) : K × K := if lo = hi then (lo - 1 / 2, hi + 1 / 2) else (lo, hi)

/-- Edge `k` of the `n` equal bins of `np.histogram` (dynaphopy/__init__.py:1068-1071). -/
def histEdge (n : ℕ) (r : K × K) (k : ℕ) : K := r.1 + k * ((r.2 - r.1) / n)

/-- Number of data in bin `k`: closed below, open above, but the last bin is closed (NumPy documentation; dynaphopy/__init__.py:1068). -/
def histCount (n : ℕ) (r : K × K) (data : List K) (k : ℕ) : ℕ :=
  (data.filter fun x => histEdge n r k ≤ x ∧ (x < histEdge n r (k + 1) ∨ (k + 1 = n ∧ x ≤ histEdge n r (k + 1)))).length

/-- `np.histogram(data, bins=n, range=(lo, hi), density=True)[0]` (dynaphopy/__init__.py:1068-1071): the counts divided by the widths and by their sum. -/
def histDensity (n : ℕ) (r : K × K) (data : List K) : List K :=
  (List.range n).map fun k => (histCount n r data k : K) / (histEdge n r (k + 1) - histEdge n r k) / (((List.range n).map (histCount n r data)).sum : ℕ)

/-- `get_atomic_displacements` (dynaphopy/__init__.py:1054-1076) from the projections (coordinates.py:78-98). `none`: `np.array(projections)` is not an array with a minimum
(no data, or atom types with different numbers of atoms, a ValueError of NumPy), or no bins. -/
def atomicDisplacements (n : ℕ) (projections : List (List K)) : Option (List (List K) × List K) :=
  match projections with
  | [] => none
  | p :: ps =>
    match (p :: ps).flatten with
    | [] => none
    | x :: xs =>
      if n = 0 ∨ ∃ q ∈ ps, q.length ≠ p.length then none else
      let lo := xs.foldl min x
      let hi := xs.foldl max x
      let r := histRange lo hi
      some ((p :: ps).map (histDensity n r),
        (List.range (n + 1)).map fun k => histEdge n r k - (histEdge n r 1 - histEdge n r 0) / 2)

/-- The rows written by `write_curve_to_file(frequency_range, curve_matrix)` (iofile/__init__.py:524-535), as numbers: `rows` is the number of rows of the matrix, `columns` are its columns. -/
def curveRows (x : List K) (rows : ℕ) (columns : List (List K)) : List (List K) :=
  (List.range rows).map fun i => x.getD i 0 :: columns.map fun c => c.getD i 0

/-- `write_atomic_displacements` (dynaphopy/__init__.py:1078-1080). -/
def displacementFile (n : ℕ) (projections : List (List K)) : Option (List (List K)) :=
  (atomicDisplacements n projections).map fun r => curveRows r.2 n r.1

/-- `distance_centers` and `center` of `plot_trajectory_distribution` (dynaphopy/__init__.py:1002-1009), entry `k`. -/
def plotCenters (distance : List K) (k : ℕ) : K × K :=
  let width := distance.getD 1 0 - distance.getD 0 0
  (distance.getD k 0 + width, (distance.getD k 0 + distance.getD (k + 1) 0 + width) / 2)

end histogram

/-! ## Scan of the number of MEM coefficients -/

/-- The entries of `fitting_parameters` used by the scan, and `_fit_params` (power_spectrum/__init__.py:147-165). -/
structure ScanFit where
  good : Bool
  width : ℝ
  error : ℝ
  area : ℝ
  params : List ℝ

/-- One phonon in `mem_full_dict` (power_spectrum/__init__.py:181): power spectrum, width, index, `fit_data` (row by row), `scan_params`. -/
structure ScanResult (V : Type*) where
  spectrum : V
  bestWidth : ℝ
  bestIndex : ℕ
  fitData : List (ℕ × ℝ × ℝ × ℝ)
  scanParams : List (List ℝ)

/-- One turn of the loop over `mem_scan_range` (power_spectrum/__init__.py:123-168): the lists `fit_data`, `scan_params`, `power_spectra`. -/
def scanStep {V : Type*} (spectrum : ℕ → V) (hasNan : V → Bool) (fit : V → ScanFit) (st : List (ℕ × ℝ × ℝ × ℝ) × List (List ℝ) × List V) (m : ℕ) :
    List (ℕ × ℝ × ℝ × ℝ) × List (List ℝ) × List V :=
  let p := spectrum m
  if hasNan p then st else
  let f := fit p
  if f.good then (st.1 ++ [(m, f.width, f.error, f.area)], st.2.1 ++ [f.params], st.2.2 ++ [p]) else st

/-- `np.average(fit_data[1], weights=np.sqrt(1./fit_data[2]))` (power_spectrum/__init__.py:175). -/
noncomputable def scanWidth (fitData : List (ℕ × ℝ × ℝ × ℝ)) : ℝ :=
  (fitData.map fun e => e.2.1 * √(1 / e.2.2.1)).sum / (fitData.map fun e => √(1 / e.2.2.1)).sum

/-- `mem_coefficient_scan_analysis` for one phonon (power_spectrum/__init__.py:115-181). `none`: no point left (171-173). -/
noncomputable def memScan {V : Type*} [Inhabited V] (range : List ℕ) (spectrum : ℕ → V) (hasNan : V → Bool) (fit : V → ScanFit) : Option (ScanResult V) :=
  let st := range.foldl (scanStep spectrum hasNan fit) ([], [], [])
  if st.1.isEmpty then none else
  let best := argmin st.1.length fun i => (st.1.getD i (0, 0, 0, 0)).2.2.1
  some { spectrum := st.2.2.getD best default, bestWidth := scanWidth st.1, bestIndex := best, fitData := st.1, scanParams := st.2.1 }

/-- What is printed for the phonon (power_spectrum/__init__.py:188-199): position, area, number of coefficients, error. -/
def scanPrint {V : Type*} (r : ScanResult V) : ℝ × ℝ × ℕ × ℝ :=
  let e := r.fitData.getD r.bestIndex (0, 0, 0, 0)
  ((r.scanParams.getD r.bestIndex []).getD 0 0, e.2.2.2, e.1, e.2.2.1)

/-! ## Drawing of the modes -/

/-- `vector` of atom `i` in `plot_phonon_modes` (analysis/modes.py:71-76): `eigenvector` is `eigenvectors[i_phonon]`. -/
noncomputable def modeArrow (types : List ℕ) (masses : List ℝ) (positions : List (Fin 3 → ℝ)) (eigenvector : ℕ → Fin 3 → ℂ) (q : Fin 3 → ℝ) (scale : ℝ) (i : ℕ) : Fin 3 → ℝ :=
  fun j => (eigenvector (types.getD i 0) j / (√(masses.getD (types.getD i 0) 0) : ℝ) * Complex.exp (Complex.I * (∑ k, positions.getD i 0 k * q k : ℝ)) * scale).re

end Verif
