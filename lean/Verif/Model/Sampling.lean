import Verif.Model.Averages
import Mathlib.Analysis.Real.Sqrt

/-! # Averages over random samples of the trajectory (dynaphopy/dynamics.py:241-295) and the highest peak of a spectrum (dynaphopy/analysis/peaksearch.py)

The random generator is an arbitrary sequence of numbers. Real arithmetic. -/

set_option autoImplicit false

namespace Verif

/-- The frames that are averaged in `average_positions(number_of_samples)` (dynamics.py:252-261). `number_of_samples` is `None` or a number (0 is false in Python); `draw i` is the number `i` that
`np.random.random_integers(length, ...)` gives, from 1 to `length`. Indexing beyond the trajectory is zero here, an error in numpy. -/
def sampledFrames {F : Type*} [Zero F] (samples : Option ℕ) (draw : ℕ → ℕ) (frames : List F) : List F :=
  match samples with
  | none => frames
  | some 0 => frames
  | some n => (List.range (if frames.length < n then frames.length else n)).map fun i => frames.getD (draw i - 1) 0

/-- `average_positions(number_of_samples, to_unit_cell)` (dynamics.py:241-295) for one atom. -/
noncomputable def sampledAverage {K : Type*} [Field K] [LinearOrder K] [IsStrictOrderedRing K] [FloorRing K] {d : ℕ} (cell unitCell : Matrix (Fin d) (Fin d) K) (positions unitPositions : ℕ → Fin d → K)
    (types supercell : List ℕ) (nAtoms : ℕ) (samples : Option ℕ) (draw : ℕ → ℕ) (toUnitCell : Bool) (displacements : List (ℕ → Fin d → K)) (j : ℕ) : Fin d → K :=
  let used := sampledFrames samples draw displacements
  if toUnitCell then averagePositionUnitCell unitCell unitPositions types supercell nAtoms used j else averagePosition cell positions used j

/-! ## Peak search -/

/-- Ordering of numpy's complex numbers, used by `max` (peaksearch.py:16): by real part, then by imaginary part. -/
def complexLess (a b : ℝ × ℝ) : Prop := a.1 < b.1 ∨ (a.1 = b.1 ∧ a.2 < b.2)

/-- Python's `max` of a list: the first of the largest elements; fails for an empty list. -/
noncomputable def pyMaxComplex : List (ℝ × ℝ) → Option (ℝ × ℝ)
  | [] => none
  | x :: xs => some (xs.foldl (fun m y => open Classical in if complexLess m y then y else m) x)

/-- One branch of `get_frequencies_from_correlation` (peaksearch.py:8-17). `peaks` is what `find_peaks_cwt` returns for the real part of the spectrum; complex numbers are pairs. -/
noncomputable def highestPeak (peaks : List ℕ) (spectrum : ℕ → ℝ × ℝ) (frequencies : List ℝ) : Option ℝ := do
  let heights := peaks.map spectrum
  let m ← pyMaxComplex heights
  let k := open Classical in heights.findIdx (fun h => decide (h = m))
  let i ← peaks[k]?
  frequencies[i]?

/-- `get_frequencies_from_correlation(correlation_vector, test_frequencies_range)` (peaksearch.py:5-19): one frequency for each column. `findPeaks` is `find_peaks_cwt` of SciPy. -/
noncomputable def frequenciesFromCorrelation (findPeaks : List ℝ → List ℕ) (rows branches : ℕ) (spectrum : ℕ → ℕ → ℝ × ℝ) (frequencies : List ℝ) : Option (List ℝ) :=
  (List.range branches).mapM fun b => highestPeak (findPeaks ((List.range rows).map fun i => (spectrum i b).1)) (fun i => spectrum i b) frequencies

end Verif
