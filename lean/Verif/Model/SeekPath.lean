import Verif.Model.GenerateCell
import Verif.Model.Structure
import Verif.Model.Projection
import Mathlib.Data.String.Basic

/-!
# Automatic band path (dynaphopy/atoms.py:358-380)

The library seekpath is a parameter: the function `get_path` of the structure it is given, or nothing when it is not installed.
-/

set_option autoImplicit false

namespace Verif

/-- `np.unique(l, return_inverse=True)[1]` (atoms.py:364): for each entry the position of its value among the sorted values. -/
def npUniqueInverse {α : Type*} [LinearOrder α] (l : List α) : List ℕ := l.map fun a => (npUnique l).1.idxOf a

/-- What `seekpath.get_path` returns, as far as it is used: `point_coords`, a dictionary (pairs of key and value) of coordinates relative to the reciprocal vectors of `primitive_lattice` (which the program does
not use), and `path`, pairs of labels. -/
structure SeekData (L : Type*) where
  primitiveLattice : Matrix (Fin 3) (Fin 3) ℝ
  pointCoords : List (L × (Fin 3 → ℝ))
  path : List (L × L)

/-- A dictionary with entries `'ranges'` and `'labels'`. -/
structure BandPath (L : Type*) where
  ranges : List ((Fin 3 → ℝ) × (Fin 3 → ℝ))
  labels : List (L × L)

/-- The loop over the path (atoms.py:370-372); `none` is the `KeyError` of an unknown label. -/
def pathRanges {L : Type*} [DecidableEq L] (coords : List (L × (Fin 3 → ℝ))) : List (L × L) → Option (List ((Fin 3 → ℝ) × (Fin 3 → ℝ)))
  | [] => some []
  | (a, b) :: path =>
    match coords.lookup a, coords.lookup b, pathRanges coords path with
    | some x, some y, some r => some ((x, y) :: r)
    | _, _, _ => none

/-- `get_path_using_seek_path` (atoms.py:358-380) with the elements of the unit cell. `seek` is `seekpath.get_path`, or `none` when it cannot be imported; its argument is the triple (cell, positions, numbers).
The state is the structure (`get_scaled_positions` keeps its result). The message is left out. -/
noncomputable def getPathUsingSeekPath (s : Structure ℝ 3) (elements : List String) (seek : Option (Matrix (Fin 3) (Fin 3) ℝ → List (Fin 3 → ℝ) → List ℕ → SeekData String)) :
    Option (BandPath String × Structure ℝ 3) :=
  match seek with
  | none => some (⟨[(![0, 0, 0], ![1 / 2, 0, 1 / 2])], [("GAMMA", "1/2,0,1/2")]⟩, s)
  | some getPath =>
    match s.getScaledPositions none with
    | none => none
    | some (positions, s') =>
      let data := getPath s.cell positions (npUniqueInverse elements)
      (pathRanges data.pointCoords data.path).map fun r => (⟨r, data.path⟩, s')

end Verif
