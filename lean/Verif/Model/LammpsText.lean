import Verif.Model.CurveFile
import Verif.Model.GenerateCell
import Verif.Model.LammpsCell

/-! # The LAMMPS data file character by character: `generate_LAMMPS_structure` (dynaphopy/generate_cell.py:41-132) -/

set_option autoImplicit false

namespace Verif

section
variable {K : Type} [Field K] [LinearOrder K] [IsStrictOrderedRing K] [FloorRing K]

/-- `'{0:20.10f} {1:20.10f}'` (dynaphopy/generate_cell.py:109-111). -/
def twoFields (x y : K) : List Char := fixedField 20 10 x ++ ' ' :: fixedField 20 10 y

/-- `'{0:20.10f} {1:20.10f} {2:20.10f}'` (dynaphopy/generate_cell.py:112, 123, 127). -/
def threeFields (x y z : K) : List Char := fixedField 20 10 x ++ ' ' :: fixedField 20 10 y ++ ' ' :: fixedField 20 10 z

/-- A line of the `Masses` section (dynaphopy/generate_cell.py:116-117). -/
def massLine (id : ℕ) (m : K) : List Char := natText id ++ ' ' :: fixedField 20 10 m ++ " \n".toList

/-- A line of the `Atoms` section: with a charge (dynaphopy/generate_cell.py:121-124), `charge` being the text `str(charges[i])`, or without (125-127). -/
def atomLine (charge : Option (List Char)) (id type : ℕ) (row : Fin 3 → K) : List Char :=
  match charge with
  | some c => natText id ++ ' ' :: natText type ++ ' ' :: c ++ ' ' :: threeFields (row 0) (row 1) (row 2) ++ ['\n']
  | none => padLeft 10 (natText id) ++ ' ' :: natText type ++ ' ' :: threeFields (row 0) (row 1) (row 2) ++ ['\n']

/-- The text of `charges[i]`: `some none` without charges; `none`: an IndexError (dynaphopy/generate_cell.py:119-124). -/
def chargeText (str : K → List Char) (charges : Option (List K)) (i : ℕ) : Option (Option (List Char)) :=
  match charges with
  | none => some none
  | some l => (l[i]?).map fun c => some (str c)

/-- `generate_LAMMPS_structure` (dynaphopy/generate_cell.py:66-70, 108-129) from the elements, masses, charges, the numbers `xhi, yhi, zhi, xy, xz, yz` of the box and the positions in the
orientation of LAMMPS; `str` is Python's `str` of a float; `none`: an exception. -/
def lammpsDataText {α : Type} [LinearOrder α] (str : K → List Char) (types : List α) (masses : List K) (charges : Option (List K)) (box : K × K × K × K × K × K)
    (positions : List (Fin 3 → K)) : Option (List Char) :=
  ((lammpsMasses types masses).mapM fun (im : ℕ × Option K) => im.2.map (massLine im.1)).bind fun ms =>
  ((positions.zipIdx).mapM fun (ri : (Fin 3 → K) × ℕ) => (lammpsAtomType types ri.2).bind fun t => (chargeText str charges ri.2).map fun c => atomLine c (ri.2 + 1) t ri.1).map fun as =>
  "Generated using dynaphopy\n\n".toList
    ++ natText positions.length ++ " atoms\n\n".toList
    ++ natText (lammpsUniqueIndex types).length ++ " atom types\n\n".toList
    ++ '\n' :: twoFields 0 box.1 ++ " xlo xhi\n".toList
    ++ twoFields 0 box.2.1 ++ " ylo yhi\n".toList
    ++ twoFields 0 box.2.2.1 ++ " zlo zhi\n".toList
    ++ threeFields box.2.2.2.1 box.2.2.2.2.1 box.2.2.2.2.2 ++ " xy xz yz\n\n".toList
    ++ "Masses\n\n".toList ++ ms.flatten ++ "\nAtoms\n\n".toList ++ as.flatten

end

/-- `generate_LAMMPS_structure(structure, supercell)` (dynaphopy/generate_cell.py:41-129) from the results of `get_atomic_elements`, `get_masses`, `get_charges`, `get_cell` and `get_positions`. -/
noncomputable def lammpsFile {α : Type} [LinearOrder α] (str : ℝ → List Char) (types : List α) (masses : List ℝ) (charges : Option (List ℝ)) (cell : Matrix (Fin 3) (Fin 3) ℝ)
    (positions : List (Fin 3 → ℝ)) : Option (List Char) :=
  lammpsDataText str types masses charges (lammpsBoxNumbers cell) (positions.map (lammpsPosition cell))

end Verif
