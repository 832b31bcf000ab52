import Verif.Model.Text
import Verif.Model.Fitdata

/-! # The text files with spectra, and how scripts/fitdata reads them -/

set_option autoImplicit false

namespace Verif

/-- `s.split(sep)` with a one-character separator: the pieces between the separators (dynaphopy/interface/iofile/__init__.py:278, scripts/fitdata:67). -/
def splitChar (sep : Char) : List Char → List (List Char)
  | [] => [[]]
  | c :: cs =>
    if c = sep then [] :: splitChar sep cs
    else match splitChar sep cs with
      | [] => [[c]]
      | l :: ls => (c :: l) :: ls

/-- The lines over which `for line in input_file` and `input_file.readline()` run (scripts/fitdata:64, 71), without the `\n` at the end (which the following `split()` ignores). -/
def fileLines (s : List Char) : List (List Char) :=
  let p := splitChar '\n' s
  if p.getLast? = some [] then p.dropLast else p

/-- `sep.join(words)` with a one-character separator (dynaphopy/generate_cell.py:23-24, scripts/fitdata:67). -/
def joinChar (sep : Char) : List (List Char) → List Char
  | [] => []
  | [w] => w
  | w :: w' :: ws => w ++ sep :: joinChar sep (w' :: ws)

/-- `args.bi` (scripts/fitdata:16, 67): `[[int(j) for j in i.split()] for i in ' '.join(args.bi).split(',')]`; `none`: ValueError. -/
def fitdataIndices (args : List (List Char)) : Option (List (List ℤ)) := (splitChar ',' (joinChar ' ' args)).mapM fun i => (pySplit i).mapM pyIntText

section
variable {K : Type} [Field K] [LinearOrder K] [IsStrictOrderedRing K] [FloorRing K]

/-- One line of the file (dynaphopy/interface/iofile/__init__.py:528-531). -/
def curveLine (f : K) (row : List K) : List Char := fixedField 10 4 f ++ '\t' :: (row.flatMap fun j => expText false 10 j ++ ['\t']) ++ ['\n']

/-- `write_curve_to_file(frequency_range, curve_matrix, file_name)` (dynaphopy/interface/iofile/__init__.py:524-536): the text in the file; `none`: IndexError (fewer
frequencies than rows of the matrix). -/
def curveText (frequencies : List K) (matrix : List (List K)) : Option (List Char) :=
  (matrix.zipIdx.mapM fun p => (frequencies[p.2]?).map fun f => curveLine f p.1).map List.flatten

/-- `np.array(initial_data, dtype=float)` (scripts/fitdata:70-73): the numbers of the lines; `none`: ValueError (a word that is not a number, or lines of different lengths). -/
def numberTable (lines : List (List Char)) : Option (List (List K)) :=
  (lines.mapM fun l => (pySplit l).mapM pyFloat).bind fun rows => if ∀ r ∈ rows, r.length = (rows.headD []).length then some rows else none

/-- `row[c]` with a Python index: negative indices count from the end; `none`: IndexError. -/
def rowAt (row : List K) (c : ℤ) : Option K := if 0 ≤ c then row[c.toNat]? else if -c ≤ row.length then row[row.length - (-c).toNat]? else none

/-- The frequencies and the curves that scripts/fitdata reads from a file (scripts/fitdata:63-84), `groups` being the option `-bi`; `none`: ValueError or IndexError. -/
def fitdataRead (groups : Option (List (List ℤ))) (text : List Char) : Option (List K × List (List K)) :=
  let lines := fileLines text
  let degeneracy : List (List ℤ) := match groups with
    | none => (List.range' 1 ((pySplit (lines.headD [])).length - 1)).map fun (i : ℕ) => [(i : ℤ)]
    | some g => g
  (numberTable (match groups with | none => lines.tail | some _ => lines)).bind fun rows =>
    if rows = [] then none
    else (rows.mapM fun (r : List K) => rowAt r 0).bind fun frequencies =>
      (degeneracy.mapM fun (g : List ℤ) => rows.mapM fun (r : List K) => (g.mapM (rowAt r)).map fun vs => (vs.map fun v => v / (g.length : K)).sum).map fun curves => (frequencies, curves)

end
end Verif
