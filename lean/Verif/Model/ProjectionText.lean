import Verif.Model.CurveFile
import Verif.Model.PlotLabels

/-! # The text of the files written by `save_vc` and `save_vq`, and the curves of `plot_vq` -/

set_option autoImplicit false

namespace Verif

section
variable {K : Type} [Field K] [LinearOrder K] [FloorRing K]

/-- One field of the files: `'%+.8e%+.8ej    '` of the real and imaginary part (dynaphopy/__init__.py:688, 694). -/
def complexField (z : K × K) : List Char := expText true 8 z.1 ++ (expText true 8 z.2 ++ 'j' :: List.replicate 4 ' ')

/-- `s.replace('+-', '-')`, which `np.savetxt` applies to each line of complex numbers (called at dynaphopy/__init__.py:688, 694). -/
def replacePlusMinus : List Char → List Char
  | '+' :: '-' :: cs => '-' :: replacePlusMinus cs
  | c :: cs => c :: replacePlusMinus cs
  | [] => []

/-- `np.savetxt(file_name, rows, fmt='%+.8e%+.8ej    ' * n)` (dynaphopy/__init__.py:688, 694): the text of the file. -/
def complexFile (rows : List (List (K × K))) : List Char :=
  rows.flatMap fun row => replacePlusMinus (row.flatMap complexField ++ ['\n'])

/-- The text written by `save_vc` (dynaphopy/__init__.py:682-688); `none`: an exception. -/
def saveVcText (natoms : ℕ) (vc : List (List (List (K × K)))) (atom : ℤ) : Option (List Char) := (saveVc id natoms vc atom).map complexFile

/-- The text written by `save_vq` (dynaphopy/__init__.py:690-694). -/
def saveVqText (vq : List (List (K × K))) : List Char := complexFile (saveVq id vq)

end

/-- The curves of `plot_vq` (dynaphopy/__init__.py:648-660): label and points of the real part of each selected mode; `none`: a mode that does not exist
(negative numbers are not modelled). No selection (`None` or an empty list) means mode 0. -/
def plotVqCurves {K : Type*} [Field K] (vq : List (List (K × K))) (dt : K) (modes : List ℕ) : Option (List (ℕ × List (K × K))) :=
  (if modes = [] then [0] else modes).mapM fun m => do
    let ys ← vq.mapM fun (row : List (K × K)) => (row[m]?).map Prod.fst
    some (m, (projectionTimes vq.length dt).zip ys)

end Verif
