import Mathlib.Analysis.SpecialFunctions.Log.Basic
import Mathlib.Analysis.SpecialFunctions.Trigonometric.DerivHyp
import Mathlib.Algebra.BigOperators.Group.Finset.Basic

/-! # Thermal properties (dynaphopy/analysis/thermal_properties.py, dynaphopy/__init__.py:1253-1299)

Real arithmetic. `frequency` and `dos` are arrays of `n` numbers. `simps(y, x=frequency)` is a linear rule: the sum of `w i * y i` with
weights `w` that depend on `frequency` only; the weights are a parameter (they differ between SciPy versions for an even number of
points). `np.nan_to_num` replaces the nan at frequency 0 by 0; Lean's conventions `0⁻¹ = 0`, `log 0 = 0` give 0 for the same
expressions. In `get_free_energy` the value at frequency 0 is minus infinity, so the model of that function is meant for positive
frequencies from the second point on. Overflow of the exponentials is not modelled. -/

set_option autoImplicit false

namespace Verif

open Real Finset

/-- `N_a`, `k_b`, `h_bar` (thermal_properties.py:11-13). -/
noncomputable def NA : ℝ := 6.022140857e23
noncomputable def kB : ℝ := 1.38064852e-23
noncomputable def hBar : ℝ := 6.626070040e-22

/-- `simps(y, x=frequency)` (thermal_properties.py:45, 55, 67, 84, 96, 108, 119). -/
noncomputable def simps (w : ℕ → ℝ) (n : ℕ) (y : ℕ → ℝ) : ℝ := ∑ i ∈ range n, w i * y i

/-- `n(temp, freq)` (thermal_properties.py:22-23 and others). -/
noncomputable def bose (temp freq : ℝ) : ℝ := (exp (freq * hBar / (kB * temp)) - 1)⁻¹

/-- The integrand of `get_total_energy` (thermal_properties.py:43-44). -/
noncomputable def energyTerm (temp freq dos : ℝ) : ℝ := dos * hBar * freq * (0.5 + bose temp freq)

/-- `get_total_energy` (thermal_properties.py:38-47). -/
noncomputable def getTotalEnergy (w : ℕ → ℝ) (n : ℕ) (temp : ℝ) (frequency dos : ℕ → ℝ) : ℝ :=
  simps w n (fun i => energyTerm temp (frequency i) (dos i)) * NA / 1000

/-- The integrand of `get_free_energy` (thermal_properties.py:52-53). -/
noncomputable def freeTerm (temp freq dos : ℝ) : ℝ := dos * kB * temp * log (2 * sinh (hBar * freq / (2 * kB * temp)))

/-- `get_free_energy` (thermal_properties.py:50-57); `free_energy[0] = 0` on line 55. -/
noncomputable def getFreeEnergy (w : ℕ → ℝ) (n : ℕ) (temp : ℝ) (frequency dos : ℕ → ℝ) : ℝ :=
  simps w n (fun i => if i = 0 then 0 else freeTerm temp (frequency i) (dos i)) * NA / 1000

/-- The integrand of `get_free_energy_correction_shift` (thermal_properties.py:65-66). -/
noncomputable def shiftTerm (temp freq dos shift : ℝ) : ℝ := dos * (-hBar) / 2 * shift * (bose temp freq + 1 / 2)

/-- `get_free_energy_correction_shift` (thermal_properties.py:60-69). -/
noncomputable def getFreeEnergyCorrectionShift (w : ℕ → ℝ) (n : ℕ) (temp : ℝ) (frequency dos : ℕ → ℝ) (shift : ℝ) : ℝ :=
  simps w n (fun i => shiftTerm temp (frequency i) (dos i) shift) * NA / 1000

/-- The integrands of `get_free_energy_correction_dos` (thermal_properties.py:77-81). -/
noncomputable def dosTerm (temp freq dos : ℝ) : ℝ := dos * (-hBar) / 2 * freq * (bose temp freq + 1 / 2)

/-- `get_free_energy_correction_dos` (thermal_properties.py:72-86). -/
noncomputable def getFreeEnergyCorrectionDos (w : ℕ → ℝ) (n : ℕ) (temp : ℝ) (frequency dos dosR : ℕ → ℝ) : ℝ :=
  simps w n (fun i => dosTerm temp (frequency i) (dosR i) - dosTerm temp (frequency i) (dos i)) * NA / 1000

/-- `coth` (thermal_properties.py:91-92). -/
noncomputable def coth (x : ℝ) : ℝ := cosh x / sinh x

/-- The integrand of `get_entropy` (thermal_properties.py:94-96). -/
noncomputable def entropyTerm (temp freq dos : ℝ) : ℝ :=
  dos * (1 / (2 * temp) * hBar * freq * coth (hBar * freq / (2 * kB * temp))
    - kB * log (2 * sinh (hBar * freq / (2 * kB * temp))))

/-- `get_entropy` (thermal_properties.py:89-98). -/
noncomputable def getEntropy (w : ℕ → ℝ) (n : ℕ) (temp : ℝ) (frequency dos : ℕ → ℝ) : ℝ :=
  simps w n (fun i => entropyTerm temp (frequency i) (dos i)) * NA

/-- The integrand of `get_entropy2` (thermal_properties.py:106-107). -/
noncomputable def entropy2Term (temp freq dos : ℝ) : ℝ :=
  dos * kB * ((bose temp freq + 1) * log (bose temp freq + 1) - bose temp freq * log (bose temp freq))

/-- `get_entropy2` (thermal_properties.py:101-110). -/
noncomputable def getEntropy2 (w : ℕ → ℝ) (n : ℕ) (temp : ℝ) (frequency dos : ℕ → ℝ) : ℝ :=
  simps w n (fun i => entropy2Term temp (frequency i) (dos i)) * NA

/-- The integrand of `get_cv` (thermal_properties.py:118). -/
noncomputable def cvTerm (temp freq dos : ℝ) : ℝ :=
  dos * kB * (hBar * freq / (kB * temp)) ^ 2 * exp (hBar * freq / (kB * temp)) / (exp (hBar * freq / (kB * temp)) - 1) ^ 2

/-- `get_cv` (thermal_properties.py:113-122). -/
noncomputable def getCv (w : ℕ → ℝ) (n : ℕ) (temp : ℝ) (frequency dos : ℕ → ℝ) : ℝ :=
  simps w n (fun i => cvTerm temp (frequency i) (dos i)) * NA

/-- `get_dos` (thermal_properties.py:18-35); `np.nan_to_num` acts only at frequency 0. -/
noncomputable def getDos (temp : ℝ) (frequency powerSpectrum : ℕ → ℝ) (nSize : ℝ) (boseEinstein : Bool) (i : ℕ) : ℝ :=
  2.0 * 1.60217662e-19 * powerSpectrum i /
    ((if boseEinstein then hBar * frequency i * (0.5 + bose temp (frequency i)) else kB * temp) * nSize)

/-- What `get_thermal_properties` returns (dynaphopy/__init__.py:1299). -/
structure ThermalProps where
  freeEnergy : ℝ
  entropy : ℝ
  cv : ℝ
  totalEnergy : ℝ
  integration : ℝ

/-- `get_thermal_properties` (dynaphopy/__init__.py:1253-1299) at temperature `temp`. `frequency`: the frequencies of the phonopy DOS
(from 0.01, line 1259; the same for both calls); `dosOf fc`: the DOS for given force constants (`none`: harmonic); `modes`: atoms
times dimensions; `projected`: number of primitive atoms if `project_on_atom > -1`. -/
noncomputable def getThermalProperties {F : Type*} (w : ℕ → ℝ) (n : ℕ) (temp : ℝ) (frequency : ℕ → ℝ)
    (dosOf : Option F → ℕ → ℝ) (modes : ℝ) (projected : Option ℝ) (fc : Option F) (normalize : Bool) : ThermalProps :=
  let dos0 := dosOf fc
  let integration0 := simps w n dos0 / modes
  let dos := if normalize then
      match projected with
      | none => fun i => dos0 i / integration0
      | some p => fun i => dos0 i / integration0 / p
    else dos0
  let integration := if normalize then
      match projected with
      | none => 1
      | some p => 1 / p
    else integration0
  let correction := match fc with
    | none => 0
    | some _ => getFreeEnergyCorrectionDos w n temp frequency (dosOf none) dos
  { freeEnergy := getFreeEnergy w n temp frequency dos + correction
    entropy := getEntropy w n temp frequency dos
    cv := getCv w n temp frequency dos
    totalEnergy := getTotalEnergy w n temp frequency dos + correction
    integration := integration }

end Verif
