import Verif.Model.CurveFile
import Verif.Model.GenerateCell

/-! # POSCAR files character by character

The writer `generate_VASP_structure` (dynaphopy/generate_cell.py:4-38) and the reader `read_from_file_structure_poscar` (dynaphopy/interface/iofile/__init__.py:268-328) on texts (lists of
characters); `GenerateCell.lean` has the same functions on words. -/

set_option autoImplicit false

namespace Verif

section
variable {K : Type} [Field K] [LinearOrder K] [IsStrictOrderedRing K] [FloorRing K]

/-- `'{0:20.10f} {1:20.10f} {2:20.10f}'.format(*row)` (dynaphopy/generate_cell.py:22, 36), without the `\n`. -/
def row10Text (r : Fin 3 → K) : List Char := fixedField 20 10 (r 0) ++ ' ' :: fixedField 20 10 (r 1) ++ ' ' :: fixedField 20 10 (r 2)

/-- `'{0:15.15f}   {1:15.15f}   {2:15.15f}'.format(*row)` (dynaphopy/generate_cell.py:30), without the `\n`. -/
def row15Text (r : Fin 3 → K) : List Char := fixedField 15 15 (r 0) ++ "   ".toList ++ fixedField 15 15 (r 1) ++ "   ".toList ++ fixedField 15 15 (r 2)

/-- `generate_VASP_structure` (dynaphopy/generate_cell.py:4-38) from the results of `get_cell(supercell)`, `get_atomic_elements(supercell)` and `get_scaled_positions(supercell)` or
`get_positions(supercell)`; `name` gives the characters of an element name. -/
def vaspText {α : Type*} [LinearOrder α] (name : α → List Char) (scaled : Bool) (cell : Matrix (Fin 3) (Fin 3) K) (types : List α) (coordinates : List (Fin 3 → K)) : List Char :=
  let ec := vaspElements types
  "Generated using dynaphopy\n".toList ++ "1.0\n".toList
    ++ row10Text (cell 0) ++ ['\n'] ++ row10Text (cell 1) ++ ['\n'] ++ row10Text (cell 2) ++ ['\n']
    ++ joinChar ' ' (ec.1.map name) ++ " \n".toList
    ++ joinChar ' ' (ec.2.map natText)
    ++ (if scaled then "\nDirect\n".toList ++ coordinates.flatMap fun r => row15Text r ++ ['\n']
        else "\nCartesian\n".toList ++ coordinates.flatMap fun r => row10Text r ++ ['\n'])

/-- Three numbers. -/
def vec3 : List K → Option (Fin 3 → K)
  | [x, y, z] => some ![x, y, z]
  | _ => none

/-- `np.array(rows, dtype=float)` (dynaphopy/interface/iofile/__init__.py:282-283, 295-300, 312-316): words that are not numbers and rows of different lengths raise a ValueError. Rows that all
have the same length, but not three numbers, are accepted here and fail later; they are an error in the model. -/
def floatTable (rows : List (List (List Char))) : Py (List (Fin 3 → K)) :=
  match rows.mapM fun (r : List (List Char)) => r.mapM (pyFloat (K := K)) with
  | none => .valueError
  | some t => if ∀ r ∈ t, r.length = (t.headD []).length then Py.orError (t.mapM vec3) else .valueError

/-- `atomic_types` (dynaphopy/interface/iofile/__init__.py:302-306, 318-322): the words, each repeated; a missing count raises an IndexError. -/
def repeatWords : List (List Char) → List ℤ → Py (List (List Char))
  | [], _ => .ok []
  | _ :: _, [] => .error
  | w :: ws, n :: ns => (repeatWords ws ns).bind fun r => .ok (List.replicate n.toNat w ++ r)

/-- One style of the format: counts in line `iCount`, kind of coordinates in line `iCount + 1`, coordinates after it, names in line `iNames`
(dynaphopy/interface/iofile/__init__.py:289-306 and 310-322). -/
def poscarBody (lines : List (List Char)) (cell : Matrix (Fin 3) (Fin 3) K) (iCount iNames : ℕ) : Py (PoscarData (List Char) K) :=
  (Py.orError lines[iCount]?).bind fun l =>
  (Py.orValueError ((pySplit l).mapM pyIntText)).bind fun counts =>
  (Py.orError lines[iCount + 1]?).bind fun t =>
  (Py.orError t.head?).bind fun c =>
  (Py.orError ((List.range counts.sum.toNat).mapM fun k => lines[iCount + 2 + k]?)).bind fun rows =>
  (floatTable (rows.map fun r => (pySplit r).take 3)).bind fun coordinates =>
  (Py.orError lines[iNames]?).bind fun names =>
  (repeatWords (pySplit names) counts).bind fun elements =>
  .ok (if c = 'D' ∨ c = 'd' then { cell := cell, scaledPositions := some coordinates, positions := none, elements := elements }
       else { cell := cell, scaledPositions := none, positions := some coordinates, elements := elements })

/-- `read_from_file_structure_poscar` (dynaphopy/interface/iofile/__init__.py:268-328) for the text of the file; `none`: an exception. -/
def poscarRead (text : List Char) : Option (PoscarData (List Char) K) :=
  let lines := splitChar '\n' text
  lines[1]?.bind fun l1 => (pyFloat l1).bind fun multiply =>
    ((List.range 3).mapM fun i => lines[2 + i]?).bind fun cellLines =>
      match floatTable (cellLines.map pySplit) with
      | .ok [a, b, c] =>
        let cell : Matrix (Fin 3) (Fin 3) K := Matrix.of fun i j => ((![a, b, c] : Fin 3 → Fin 3 → K) i j) * multiply
        match poscarBody lines cell 6 5 with
        | .ok r => some r
        | .error => none
        | .valueError => match poscarBody lines cell 5 0 with
          | .ok r => some r
          | _ => none
      | _ => none

end
end Verif
