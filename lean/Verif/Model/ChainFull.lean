import Verif.Model.Chain

/-! # From the trajectory to the full and the wave-vector power spectrum

The calls made by `get_power_spectrum_full` (dynaphopy/__init__.py:781-831) and `get_power_spectrum_wave_vector` (dynaphopy/__init__.py:748-779, without averages over equivalent wave vectors) for all atoms,
on a new object, not silent (for the silent loop see `fullSpectrumSilent` of Model/FFTPower), for a trajectory of coordinates whose velocities are not given. -/

set_option autoImplicit false

namespace Verif

variable {d f : ℕ}

/-- `x.swapaxes(1, 2).reshape(-1, size)` (dynaphopy/__init__.py:775, 827) for the frames of `N` atoms: the columns are the first components of all atoms, then the second components, and so on. -/
def componentRows (N : ℕ) (w : List (ℕ → Fin d → ℂ)) : List (Fin (d * N) → ℂ) :=
  w.map fun v c => v (c % N) ⟨c / N, Nat.div_lt_of_lt_mul (by rw [Nat.mul_comm N d]; exact c.2)⟩

/-- The spectra of all columns and their sum at each frequency (dynaphopy/__init__.py:773-779, 826-834; `np.sum` and `np.nansum`, no nan in real arithmetic). -/
noncomputable def summedSpectra (env : SpecEnv) (alg : ℤ) (p : SpecParams) (N : ℕ) (w : List (ℕ → Fin d → ℂ)) (dt : ℝ) : Except SpecErr (Bool × List ℝ) :=
  (powerSpectra env alg p (componentRows N w) dt).map fun r => (r.1, r.2.map List.sum)

namespace AnalysisInput

/-- `get_power_spectrum_full()` (dynaphopy/__init__.py:781-831). -/
noncomputable def fullSpectrum (env : SpecEnv) (alg : ℤ) (p : SpecParams) (a : AnalysisInput d f) : Option (Except SpecErr (Bool × List ℝ)) := do
  let n ← a.multiples
  let coords := positionsSupercell a.positions a.cell n
  let vs ← a.velocities coords
  some (summedSpectra env alg p coords.length (vs.map fun v => massWeighted (expandSupercell a.masses n) v) a.dt)

/-- `get_power_spectrum_wave_vector()` (dynaphopy/__init__.py:748-779) with `get_vc` (626-640). -/
noncomputable def waveSpectrum (env : SpecEnv) (alg : ℤ) (p : SpecParams) (a : AnalysisInput d f) : Option (Except SpecErr (Bool × List ℝ)) := do
  let n ← a.multiples
  let coords := positionsSupercell a.positions a.cell n
  let vs ← a.velocities coords
  some (summedSpectra env alg p a.nPrim (vs.map fun v t k =>
    projectOntoWaveVector (massWeighted (expandSupercell a.masses n) v) (qVector a.primCellOf a.q) coords (expandSupercell a.labels n) a.nPrim (-1) t k) a.dt)

end AnalysisInput

end Verif
