import Mathlib.LinearAlgebra.Matrix.Notation
import Verif.Model.CurveFile
import Verif.Model.Xsf

/-! # The XSF file character by character: `write_xsf_file` (dynaphopy/interface/iofile/__init__.py:609-634) -/

set_option autoImplicit false

namespace Verif

section
variable {K : Type} [Field K] [LinearOrder K] [IsStrictOrderedRing K] [FloorRing K]

/-- `"{0:10.4f}\t{1:10.4f}\t{2:10.4f}\n"` (iofile/__init__.py:617, 621; the end of 629). -/
def xsfRow (r : Fin 3 → K) : List Char := fixedField 10 4 (r 0) ++ '\t' :: fixedField 10 4 (r 1) ++ '\t' :: fixedField 10 4 (r 2) ++ ['\n']

/-- The line of an atom (iofile/__init__.py:629-630): `get_atomic_numbers()[i]` and `get_positions()[i]`; `none`: an IndexError. -/
def xsfAtom (numbers : List ℕ) (positions : List (Fin 3 → K)) (i : ℕ) : Option (List Char) :=
  (numbers[i]?).bind fun z => (positions[i]?).map fun r => padLeft 4 (natText z) ++ '\t' :: xsfRow r

/-- `write_xsf_file` (iofile/__init__.py:609-634): the primitive cell, the cell, `count = get_number_of_primitive_atoms()`, and the atoms `out` in the order in which the `while` loop writes them
(`XsfWrites`; the loop itself is in Model/Xsf). -/
def xsfText (primitive cell : Matrix (Fin 3) (Fin 3) K) (count : ℕ) (numbers : List ℕ) (positions : List (Fin 3 → K)) (out : List ℕ) : Option (List Char) :=
  (out.mapM (xsfAtom numbers positions)).map fun rows =>
    "CRYSTAL\n".toList ++ "PRIMVEC\n".toList ++ xsfRow (primitive 0) ++ xsfRow (primitive 1) ++ xsfRow (primitive 2)
      ++ "CONVVEC\n".toList ++ xsfRow (cell 0) ++ xsfRow (cell 1) ++ xsfRow (cell 2)
      ++ "PRIMCOORD\n".toList ++ padLeft 10 (natText count) ++ ' ' :: padLeft 10 (natText 1) ++ ['\n'] ++ rows.flatten

end

/-- The file for a structure whose types are `labels` (iofile/__init__.py:609-634 with atoms.py:113-116, 256-259): the primitive cell is `(cell.T · primitive_matrix).T`, the number of atoms and of types is that of the
distinct labels; `text` is what is in the file when the function returns. -/
def XsfFile {K : Type} [Field K] [LinearOrder K] [IsStrictOrderedRing K] [FloorRing K] (cell P : Matrix (Fin 3) (Fin 3) K) (labels numbers : List ℕ) (positions : List (Fin 3 → K)) (text : List Char) : Prop :=
  ∃ out, XsfWrites labels labels.toFinset.card out ∧ xsfText (cell.transpose * P).transpose cell labels.toFinset.card numbers positions out = some text

end Verif
