import Verif.Model.Structure
import Mathlib.Analysis.SpecialFunctions.Pow.Real
import Mathlib.Analysis.Complex.Basic

/-!
# Supercell matrix, mass weighting, mean displacement matrix, average positions, displacement projections
(dynaphopy/dynamics.py, dynaphopy/analysis/coordinates.py)

A trajectory is a list of frames, a frame a function of the atom index and the direction.
-/

set_option autoImplicit false

namespace Verif

/-- `np.linalg.norm(h, axis=1)`: the norms of the rows, dynaphopy/dynamics.py:189-191. -/
noncomputable def rowNorm {n : ℕ} (h : Matrix (Fin n) (Fin n) ℝ) (i : Fin n) : ℝ := Real.sqrt (∑ j, h i j ^ 2)

/-- `get_supercell_matrix(tolerance)` on an object without cached value, dynaphopy/dynamics.py:193-205; `none` is the
`exit()` of line 201. `sum` is the Python loop over the array. -/
noncomputable def supercellMatrix {n : ℕ} (mdCell cell : Matrix (Fin n) (Fin n) ℝ) (tolerance : ℝ) :
    Option (Fin n → ℤ) :=
  let real : Fin n → ℝ := fun i => rowNorm mdCell i / rowNorm cell i
  let rounded : Fin n → ℤ := fun i => roundEven (real i)
  let total := (List.finRange n).foldl (fun acc i => acc + ((rounded i : ℝ) - real i)) 0
  if |total / Real.sqrt (∑ i, real i ^ 2)| > tolerance then none else some rounded

/-- One frame of `get_velocity_mass_average`, dynaphopy/dynamics.py:151-154 (`masses` is
`structure.get_masses(supercell)`). -/
noncomputable def massWeighted {d : ℕ} (masses : List ℝ) (v : ℕ → Fin d → ℂ) : ℕ → Fin d → ℂ :=
  fun i k => v i k * (Real.sqrt (masses.getD i 0) : ℂ)

/-- `np.unique(l, return_counts=True)[1]` for an array of non-negative integers: the number of occurrences of each
distinct value, values in increasing order (dynaphopy/dynamics.py:212). -/
def npUniqueCounts (l : List ℕ) : List ℕ :=
  ((List.range (l.foldr max 0 + 1)).filter fun v => v ∈ l).map fun v => l.count v

section MeanDisplacement
variable {d : ℕ}

/-- `np.average(displacements, axis=0)`, dynaphopy/dynamics.py:222, 263. -/
noncomputable def averageFrames {F K : Type*} [AddCommGroup F] [Field K] [Module K F] (frames : List F) : F :=
  ((frames.length : K)⁻¹) • frames.sum

/-- dynaphopy/dynamics.py:233-235: `np.dot(np.conj(d[:, i, :]).T, d[:, i, :] - position_difference[i]).real`. -/
noncomputable def displacementProduct (frames : List (ℕ → Fin d → ℂ)) (shift : ℕ → Fin d → ℂ) (i : ℕ) :
    Matrix (Fin d) (Fin d) ℝ :=
  fun a b => ((frames.map fun f => star (f i a) * (f i b - shift i b)).sum).re

/-- `get_mean_displacement_matrix(use_average_positions)` without cached value, dynaphopy/dynamics.py:211-237.
`types` is `get_atom_type_index()`; the matrices are indexed by the type. -/
noncomputable def meanDisplacementMatrix (types supercell : List ℕ) (frames : List (ℕ → Fin d → ℂ)) (nAtoms : ℕ)
    (useAverage : Bool) : ℕ → Matrix (Fin d) (Fin d) ℝ :=
  let equivalent := npUniqueCounts types
  let typeIndex := expandSupercell types supercell
  let shift : ℕ → Fin d → ℂ := if useAverage then averageFrames (K := ℂ) frames else 0
  let m := (List.range nAtoms).foldl
    (fun m i => Function.update m (typeIndex.getD i 0) (m (typeIndex.getD i 0) +
      ((equivalent.getD (typeIndex.getD i 0) 0 : ℝ)⁻¹) • displacementProduct frames shift i)) (fun _ => 0)
  fun t => ((supercell.prod * frames.length : ℕ) : ℝ)⁻¹ • m t

end MeanDisplacement

section AveragePositions
variable {K : Type*} [Field K] [LinearOrder K] [IsStrictOrderedRing K] [FloorRing K] {d : ℕ}

/-- dynaphopy/dynamics.py:288-293: bring one averaged position into the cell. -/
noncomputable def wrapIntoCell (cell : Matrix (Fin d) (Fin d) K) (p : Fin d → K) : Fin d → K :=
  let centre : Fin d → K := fun j => 1 / 2 * Matrix.vecMul (fun _ => (1 : K)) cell j
  let diff : Fin d → K := fun i => (roundEven ((Matrix.mulVec (cell.transpose)⁻¹ (p - centre)) i) : K)
  p - Matrix.vecMul diff cell

/-- `average_positions()` for atom `j`, dynaphopy/dynamics.py:249-252, 263, 286-295 (real parts; no random samples). -/
noncomputable def averagePosition (cell : Matrix (Fin d) (Fin d) K) (positions : ℕ → Fin d → K)
    (displacements : List (ℕ → Fin d → K)) (j : ℕ) : Fin d → K :=
  wrapIntoCell cell (averageFrames (K := K) displacements j + positions j)

/-- The array `averaged_unit_cell` of dynaphopy/dynamics.py:272-278. -/
noncomputable def averagedUnitCell (types supercell : List ℕ) (nAtoms : ℕ) (averaged : ℕ → Fin d → K) :
    ℕ → Fin d → K :=
  (List.range nAtoms).foldl
    (fun m i => Function.update m ((expandSupercell types supercell).getD i 0)
      (m ((expandSupercell types supercell).getD i 0) + ((supercell.prod : K)⁻¹) • averaged i)) (fun _ => 0)

/-- `average_positions(to_unit_cell=True)` for the unit-cell atom `j`, dynaphopy/dynamics.py:263-295. -/
noncomputable def averagePositionUnitCell (unitCell : Matrix (Fin d) (Fin d) K) (unitPositions : ℕ → Fin d → K)
    (types supercell : List ℕ) (nAtoms : ℕ) (displacements : List (ℕ → Fin d → K)) (j : ℕ) : Fin d → K :=
  wrapIntoCell unitCell
    (averagedUnitCell types supercell nAtoms (averageFrames (K := K) displacements) (types.getD j 0) + unitPositions j)

end AveragePositions

/-- `direction/np.linalg.norm(direction)`, dynaphopy/analysis/coordinates.py:80, 95. -/
noncomputable def normalized {d : ℕ} (v : Fin d → ℝ) : Fin d → ℝ := fun i => v i / Real.sqrt (∑ j, v j ^ 2)

/-- `trajectory_projection(dynamic, direction)`, dynaphopy/analysis/coordinates.py:78-98: entry `j` is the array of the
projections for atom type `j`. -/
noncomputable def trajectoryProjection {d : ℕ} (frames : List (ℕ → Fin d → ℂ)) (typeIndex : List ℕ) (nAtoms nTypes : ℕ)
    (direction : Fin d → ℝ) : List (List ℝ) :=
  let direction := normalized direction
  (List.range nTypes).map fun j =>
    (List.range nAtoms).foldl (fun projection i =>
      if typeIndex.getD i 0 = j then
        projection ++ frames.map fun f => ∑ k, (f i k).re * normalized direction k
      else projection) []

end Verif
