import Verif.Model.Thermal

/-! # Thermal properties from the power spectrum (dynaphopy/__init__.py:1334-1353, dynaphopy/analysis/thermal_properties.py:18-35) -/

set_option autoImplicit false

namespace Verif

/-- The density of states of the molecular dynamics as used in `display_thermal_properties` (dynaphopy/__init__.py:1337-1346): `modes` is atoms of the unit cell times dimensions, `projected` the
number of primitive atoms if `project_on_atom > -1`. -/
noncomputable def powerDos (w : ℕ → ℝ) (n : ℕ) (temp : ℝ) (frequency powerSpectrum : ℕ → ℝ) (nSize modes : ℝ) (projected : Option ℝ) (normalize : Bool) : (ℕ → ℝ) × ℝ :=
  let dos0 := getDos temp frequency powerSpectrum nSize false
  let integration0 := simps w n dos0 / modes
  if normalize then
    match projected with
    | none => (fun i => dos0 i / integration0, 1)
    | some p => (fun i => dos0 i / integration0 / p, 1 / p)
  else (dos0, integration0)

/-- The third column of the table of `display_thermal_properties(from_power_spectrum=True)` (dynaphopy/__init__.py:1334-1353). `nSize` is `np.prod(get_supercell_matrix())`. -/
noncomputable def thermalFromPower (w : ℕ → ℝ) (n : ℕ) (temp : ℝ) (frequency powerSpectrum : ℕ → ℝ) (nSize modes : ℝ) (projected : Option ℝ) (normalize : Bool) : ThermalProps :=
  let d := powerDos w n temp frequency powerSpectrum nSize modes projected normalize
  { freeEnergy := getFreeEnergy w n temp frequency d.1
    entropy := getEntropy w n temp frequency d.1
    cv := getCv w n temp frequency d.1
    totalEnergy := getTotalEnergy w n temp frequency d.1
    integration := d.2 }

end Verif
