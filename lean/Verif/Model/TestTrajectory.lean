import Mathlib.Analysis.SpecialFunctions.Trigonometric.Basic
import Mathlib.Analysis.Complex.Exponential
import Mathlib.Analysis.Real.Sqrt
import Mathlib.Data.List.FinRange
import Verif.Model.Settings
import Verif.Model.Projection

/-! # Harmonic test trajectories (dynaphopy/interface/iofile/__init__.py:331-446) -/

set_option autoImplicit false

namespace Verif

/-- One phonon as seen by one coordinate of one atom: its frequency, the component of the eigenvector `eigenvectors_r[i_long][i_freq, atom_type]` and `np.dot(q_vector, position)` (iofile/__init__.py:403-415). -/
structure TestMode where
  freq : ℝ
  e : ℂ
  qr : ℝ

/-- `number_of_dimensions * kb_boltzmann * temperature / number_of_primitive_cells * atoms_relation` under the root of line 408; `kb_boltzmann = 0.831446` (line 348). -/
noncomputable def testEnergy (nd temperature cells relation : ℝ) : ℝ := nd * 0.831446 * temperature / cells * relation

/-- `amplitude` (line 408). -/
noncomputable def testAmplitude (energy : ℝ) (m : TestMode) : ℝ := Real.sqrt energy / (m.freq * 2 * Real.pi)

/-- What one phonon adds to the coordinate (lines 408-415). -/
noncomputable def testTerm (energy mass phase0 t : ℝ) (m : TestMode) : ℝ :=
  let normalMode : ℂ := testAmplitude energy m * Complex.exp (-Complex.I * m.freq * 2 * Real.pi * t)
  let phase : ℂ := Complex.exp (Complex.I * m.qr + phase0)
  (((1 / Real.sqrt mass : ℝ) : ℂ) * m.e * phase * normalMode).re

/-- The coordinate at time `t` (lines 403-415): phonons with `abs(frequency) > minimum_frequency` are added to the position. -/
noncomputable def testCoordinate (energy mass fmin phase0 position t : ℝ) (modes : List TestMode) : ℝ :=
  position + ((modes.filter fun m => decide (fmin < |m.freq|)).map (testTerm energy mass phase0 t)).sum

/-! ## The whole trajectory -/

section
variable {d f T : ℕ}

/-- The phonons as seen by the coordinate `c` of an atom at `r` with type `type`, in the order of the two loops (iofile/__init__.py:405-406). `q` are the wave vectors in reduced coordinates
(line 378), made cartesian with the primitive cell (line 380), `freq` and `ev` the frequencies and eigenvectors of phonopy at each of them (lines 388-393). A type without eigenvector (IndexError) counts as zero here. -/
noncomputable def testModes (prim : Matrix (Fin d) (Fin d) ℝ) (q : List (Fin d → ℝ)) (freq : Fin q.length → Fin f → ℝ) (ev : Fin q.length → Fin f → Fin T → Fin d → ℂ) (r : Fin d → ℝ) (type : ℕ) (c : Fin d) :
    List TestMode :=
  (List.finRange f).flatMap fun s => (List.finRange q.length).map fun p =>
    { freq := freq p s, e := if h : type < T then ev p s ⟨type, h⟩ c else 0, qr := ∑ k, qVector prim q[p] k * r k }

/-- One frame (lines 402-418), at time `t`: `positions`, `masses` and `types` of the supercell (lines 366-373). -/
noncomputable def testFrame (positions : List (Fin d → ℝ)) (masses : List ℝ) (types : List ℕ) (prim : Matrix (Fin d) (Fin d) ℝ) (q : List (Fin d → ℝ))
    (freq : Fin q.length → Fin f → ℝ) (ev : Fin q.length → Fin f → Fin T → Fin d → ℂ) (energy fmin phase0 t : ℝ) : List (Fin d → ℝ) :=
  (List.range positions.length).map fun i c =>
    testCoordinate energy (masses.getD i 0) fmin phase0 (positions.getD i 0 c) t (testModes prim q freq ev (positions.getD i 0) (types.getD i 0) c)

/-- What is given to `Dynamics` (lines 424-448). -/
structure TestResult (d : ℕ) where
  trajectory : List (List (Fin d → ℝ))
  energy : List ℝ
  time : List ℝ

/-- `generate_test_trajectory` (lines 335-448) from the point where the commensurate wave vectors, frequencies and eigenvectors are known. `nPrim` is the number of primitive atoms. Printing, the progress bar,
`memmap` and the conversion to complex numbers are left out; `np.arange(total_time, step=time_step)` is `arange 0 totalTime timeStep`. -/
noncomputable def generateTest (positions : List (Fin d → ℝ)) (masses : List ℝ) (types : List ℕ) (nPrim : ℕ) (prim : Matrix (Fin d) (Fin d) ℝ) (q : List (Fin d → ℝ))
    (freq : Fin q.length → Fin f → ℝ) (ev : Fin q.length → Fin f → Fin T → Fin d → ℂ) (fmin totalTime timeStep temperature phase0 : ℝ) : TestResult d :=
  let cells : ℝ := positions.length / nPrim
  let relation : ℝ := q.length * nPrim / positions.length
  let energy := testEnergy d temperature cells relation
  let trajectory := (arange 0 totalTime timeStep).map fun t => testFrame positions masses types prim q freq ev energy fmin phase0 t
  { trajectory := trajectory
    time := (List.range trajectory.length).map fun (i : ℕ) => (i : ℝ) * timeStep
    energy := (List.range trajectory.length).map fun (_ : ℕ) => positions.length * d * 0.831446 * temperature }

end

end Verif
