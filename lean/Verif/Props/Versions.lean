import Verif.Model.Versions

/-! # C142: versions of the libraries -/

set_option autoImplicit false

namespace Verif

/-! ## Specification -/

/-- What the classes and functions of the link need of phonopy, whatever the version: the class that is extended, the readers and writers of the files of forces, force constants and Born charges, the
transformation to force constants, their symmetrization, and the symmetry operations. -/
def neededNames : List (String × String) :=
  [("phonopy.api_phonopy", "Phonopy"), ("phonopy.file_IO", "parse_BORN"), ("phonopy.file_IO", "parse_FORCE_SETS"), ("phonopy.file_IO", "write_FORCE_CONSTANTS"),
    ("phonopy.file_IO", "parse_FORCE_CONSTANTS"), ("phonopy.harmonic.dynmat_to_fc", "DynmatToForceConstants"), ("phonopy.harmonic.force_constants", "set_tensor_symmetry_PJ"),
    ("phonopy.structure.symmetry", "Symmetry")]

/-- The installed phonopy offers everything that is used, under one of the names that the module knows: the names without alternative, the class of atoms under its new or its old name, and the factor
from its eigenvalues to THz under its new or its old name. -/
def PhonopyUsable (w : Installed) : Prop :=
  (∀ n ∈ neededNames, w n.1 n.2 = true) ∧ (w "phonopy.structure.atoms" "PhonopyAtoms" = true ∨ w "phonopy.structure.atoms" "Atoms" = true) ∧
  (w "phonopy.units" "VaspToTHz" = true ∨ w "phonopy.physical_units" "get_physical_units" = true)

theorem mapM_isSome_iff {α β : Type*} (f : α → Option β) (l : List α) : (l.mapM f).isSome ↔ ∀ x ∈ l, (f x).isSome := by
  induction l with
  | nil => simp
  | cons x l ih =>
    rw [List.mapM_cons]
    cases hx : f x with
    | none => simp [hx]
    | some y =>
      cases hl : l.mapM f with
      | none => rw [hl] at ih; simp [hx] at ih ⊢; exact ih
      | some ys => rw [hl] at ih; simp [hx] at ih ⊢; exact ih

/-- **C142**: no library offers the misspelled name; then the link to phonopy can be loaded exactly with the versions that have the new module of units, and it uses the new name of the class of atoms if there is
one, else the old one, and the factor of the new module. -/
theorem C142_link_partial (w : Installed) (hno : w "phonopy.units" "VaspToTHza" = false) :
    ((loadLink w).isSome ↔ PhonopyUsable w ∧ w "phonopy.physical_units" "get_physical_units" = true) ∧
    ∀ names, loadLink w = some names → names.factor = some ("phonopy.physical_units", "get_physical_units") ∧
      names.atoms = ("phonopy.structure.atoms", if w "phonopy.structure.atoms" "PhonopyAtoms" then "PhonopyAtoms" else "Atoms") ∧ w names.atoms.1 names.atoms.2 = true := by
  have hreq : (linkRequired.mapM fun n => fromImport w n.1 n.2).isSome ↔ ∀ n ∈ linkRequired, w n.1 n.2 = true := by
    rw [mapM_isSome_iff]
    refine forall₂_congr fun n _ => ?_
    unfold fromImport
    split <;> simp_all
  have hsame : ∀ n, n ∈ neededNames ↔ n ∈ linkRequired := by
    unfold neededNames linkRequired
    exact fun n => Iff.rfl
  unfold PhonopyUsable loadLink
  simp only [hsame]
  rw [← hreq]
  cases hr : (linkRequired.mapM fun n => fromImport w n.1 n.2) <;> cases h1 : w "phonopy.structure.atoms" "PhonopyAtoms" <;> cases h2 : w "phonopy.structure.atoms" "Atoms" <;>
    cases h3 : w "phonopy.physical_units" "get_physical_units" <;> simp [tryImport, fromImport, hno, h1, h2, h3] <;> (try (rintro _ rfl; simp [h1, h2]))

/-- phonopy as it was before the module of physical units: the same names, with the factor in `phonopy.units`. -/
def earlierPhonopy : Installed := fun mod name => decide ((mod, name) ∈ neededNames) || (mod == "phonopy.structure.atoms" && name == "PhonopyAtoms") || (mod == "phonopy.units" && name == "VaspToTHz")

/-- **C142** fails: the alternative for versions that have the factor in `phonopy.units` never works, because the name in the import is misspelled: with such a version the module cannot be loaded, although
everything it needs is there. -/
theorem C142_units_violated : PhonopyUsable earlierPhonopy ∧ earlierPhonopy "phonopy.units" "VaspToTHza" = false ∧ loadLink earlierPhonopy = none := by
  refine ⟨⟨by decide, Or.inl (by decide), Or.inl (by decide)⟩, by decide, by decide⟩

/-- **C142**: the integration rule can be loaded exactly with the versions of SciPy that offer it under one of its two names, and is the old one where both exist. -/
theorem C142_simps (w : Installed) : ((loadSimps w).isSome ↔ (w "scipy.integrate" "simps" = true ∨ w "scipy.integrate" "simpson" = true)) ∧
    ∀ f, loadSimps w = some f → w f.1 f.2 = true ∧ (w "scipy.integrate" "simps" = true → f = ("scipy.integrate", "simps")) := by
  cases h1 : w "scipy.integrate" "simps" <;> cases h2 : w "scipy.integrate" "simpson" <;> simp [loadSimps, tryImport, fromImport, h1, h2]

/-- A version with the new names. -/
example : ∃ w : Installed, w "phonopy.units" "VaspToTHza" = false ∧ (loadLink w).isSome :=
  ⟨fun mod name => decide ((mod, name) ∈ neededNames) || (mod == "phonopy.structure.atoms" && name == "PhonopyAtoms") || (mod == "phonopy.physical_units" && name == "get_physical_units"), by decide, by decide⟩

end Verif
