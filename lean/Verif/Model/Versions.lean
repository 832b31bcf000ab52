import Mathlib.Data.List.Basic

/-! # Loading with different versions of the libraries (dynaphopy/interface/phonopy_link.py:1-19, dynaphopy/__init__.py:16-19, dynaphopy/analysis/thermal_properties.py:4-7)

An installed library is what its modules offer: for the name of a module and a name in it, whether it can be imported. A failing import is `none` (`ImportError`, to which `ModuleNotFoundError` belongs). -/

set_option autoImplicit false

namespace Verif

/-- What is installed: `offers module name`. -/
abbrev Installed := String → String → Bool

/-- `from module import name`: the full name of the object, or `ImportError`. -/
def fromImport (w : Installed) (mod name : String) : Option (String × String) := if w mod name then some (mod, name) else none

/-- `try: a  except ImportError: b`. -/
def tryImport {α : Type*} (a b : Option α) : Option α :=
  match a with
  | some x => some x
  | none => b

/-- What the names of the module `phonopy_link` refer to when it is loaded. `factor` is `VaspToTHz`; `none` if the name is not defined. -/
structure LinkNames where
  /-- `PhonopyAtoms` -/
  atoms : String × String
  /-- `VaspToTHz` -/
  factor : Option (String × String)

/-- Names that are imported without alternative (phonopy_link.py:2-6). -/
def linkRequired : List (String × String) :=
  [("phonopy.api_phonopy", "Phonopy"), ("phonopy.file_IO", "parse_BORN"), ("phonopy.file_IO", "parse_FORCE_SETS"), ("phonopy.file_IO", "write_FORCE_CONSTANTS"), ("phonopy.file_IO", "parse_FORCE_CONSTANTS"),
    ("phonopy.harmonic.dynmat_to_fc", "DynmatToForceConstants"), ("phonopy.harmonic.force_constants", "set_tensor_symmetry_PJ"), ("phonopy.structure.symmetry", "Symmetry")]

/-- `import dynaphopy.interface.phonopy_link` (phonopy_link.py:1-19). In line 16 the name is spelled `VaspToTHza`; if it existed, `VaspToTHz` would stay undefined. The factor of lines 18-19 is
`get_physical_units().DefaultToTHz`. -/
def loadLink (w : Installed) : Option LinkNames := do
  let _ ← linkRequired.mapM fun n => fromImport w n.1 n.2
  let atoms ← tryImport (fromImport w "phonopy.structure.atoms" "PhonopyAtoms") (fromImport w "phonopy.structure.atoms" "Atoms")
  let factor ← tryImport ((fromImport w "phonopy.units" "VaspToTHza").map fun _ => none) ((fromImport w "phonopy.physical_units" "get_physical_units").map some)
  some ⟨atoms, factor⟩

/-- The integration rule (dynaphopy/__init__.py:16-19, thermal_properties.py:4-7). -/
def loadSimps (w : Installed) : Option (String × String) := tryImport (fromImport w "scipy.integrate" "simps") (fromImport w "scipy.integrate" "simpson")

end Verif
