import Verif.Model.Division
import Mathlib.Analysis.SpecialFunctions.Exp
import Mathlib.Analysis.SpecialFunctions.Complex.Circle
import Mathlib.Algebra.BigOperators.Group.Finset.Basic
import Mathlib.Algebra.Order.Floor.Ring

/-! # FFT power spectra and full spectrum

`_numpy_power`, `_fftw_power`, `_cuda_power`, `_cupy_power` (dynaphopy/power_spectrum/__init__.py:226-245, 276-296,
321-341, 368-399) are the same formula in four libraries; one model covers them. Exact real/complex arithmetic. -/

set_option autoImplicit false

namespace Verif

open Complex

/-- `np.correlate(a, a, mode='same')` (called in dynaphopy/power_spectrum/__init__.py:237): entry `i` is the
autocorrelation at lag `i - n/2`, `Σ_m a[m + lag] conj(a[m])` over the `m` for which both indices exist. -/
noncomputable def correlateSame (a : List ℂ) : List ℂ :=
  (List.range a.length).map fun i =>
    ∑ m ∈ (Finset.range a.length).filter (fun m => a.length / 2 ≤ m + i ∧ m + i - a.length / 2 < a.length),
      a.getD (m + i - a.length / 2) 0 * starRingEnd ℂ (a.getD m 0)

/-- `np.fft.fft` (dynaphopy/power_spectrum/__init__.py:238): `X[f] = Σ_i x[i] exp(-2πi f i / n)`. -/
noncomputable def dft (x : List ℂ) : List ℂ :=
  (List.range x.length).map fun (f : ℕ) =>
    ∑ i ∈ Finset.range x.length, x.getD i 0 * exp (-2 * Real.pi * I * f * i / x.length)

/-- Spectrum of one piece (dynaphopy/power_spectrum/__init__.py:235-238). -/
noncomputable def piecePower (dt : ℝ) (piece : List ℂ) : List ℝ :=
  (dft ((correlateSame piece).map fun c => c / (piece.length : ℂ))).map fun x => ‖x‖ * dt

/-- `data[ini:fin]` for non-negative bounds (dynaphopy/power_spectrum/__init__.py:235). -/
def slice {α : Type*} (l : List α) (p : ℤ × ℤ) : List α := (l.take p.2.toNat).drop p.1.toNat

/-- `np.average(ps, axis=0)` over spectra of `n` points (dynaphopy/power_spectrum/__init__.py:240). -/
noncomputable def averageRows (n : ℕ) (ps : List (List ℝ)) : List ℝ :=
  (List.range n).map fun k => (ps.map fun row => row.getD k 0).sum / ps.length

/-- Sorted `(frequency, spectrum)` pairs: `np.fft.fftfreq(n, dt)` and `np.argsort` of it
(dynaphopy/power_spectrum/__init__.py:242-243). For `dt > 0` the sorted frequencies are `(p - n/2)/(n dt)`,
`0 ≤ p < n`, and the one number `p` is entry `(p + (n+1)/2) mod n` of the FFT. -/
noncomputable def sortedSpectrum (dt : ℝ) (ps : List ℝ) : List (ℝ × ℝ) :=
  (List.range ps.length).map fun (p : ℕ) =>
    (((p : ℝ) - (ps.length / 2 : ℕ)) / (ps.length * dt), ps.getD ((p + (ps.length + 1) / 2) % ps.length) 0)

/-- `np.interp(x, xp, fp)` at one point: constant outside, linear between neighbours. -/
noncomputable def interp (x : ℝ) : List (ℝ × ℝ) → ℝ
  | [] => 0
  | [(_, f)] => f
  | (a, fa) :: (b, fb) :: t =>
    if x ≤ a then fa else if x < b then (fb - fa) / (b - a) * (x - a) + fa else interp x ((b, fb) :: t)

/-- The averaged spectrum before interpolation (dynaphopy/power_spectrum/__init__.py:228-240). `none`: an exception
(fewer than two frequencies, no data, or ZeroDivisionError in the division of the data). -/
noncomputable def fftAverage (freqRange : List ℝ) (data : List ℂ) (dt : ℝ) : Option (List ℝ) :=
  match freqRange with
  | f0 :: f1 :: _ =>
    if data = [] then none
    else (divisionOfData (f1 - f0) data.length dt).map fun pieces =>
      let ps := pieces.map fun p => piecePower dt (slice data p)
      averageRows (ps.getD (ps.length - 1) []).length ps
  | _ => none

/-- `_numpy_power` (dynaphopy/power_spectrum/__init__.py:226-245), times `unit_conversion` in the callers. -/
noncomputable def numpyPower (freqRange : List ℝ) (data : List ℂ) (dt : ℝ) : Option (List ℝ) :=
  (fftAverage freqRange data dt).map fun ps => freqRange.map fun f => interp f (sortedSpectrum dt ps)

/-! ## Sum over columns -/

/-- What `power_spectrum_functions[algorithm][0](matrix, ...)` does (dynaphopy/power_spectrum/__init__.py:57-75, 81-103,
248-270, 299-315, 344-360, 402-432): the spectrum of each column, `psd_vector.T[f][column]`. `alg` is the routine for one
column, at frequency number `f`. -/
def spectraOfColumns {C F R : Type*} (alg : C → F → R) (cols : List C) (f : F) : List R := cols.map fun c => alg c f

variable {C R : Type*} [AddCommMonoid R]

/-- `get_power_spectrum_full`, not silent (dynaphopy/__init__.py:811-830): `velocity.swapaxes(1, 2).reshape(-1, size)` has
column `dim * atoms + atom`; `np.sum(..., axis=1)`. `v atom dim` is the time series of an atom and direction. -/
def fullSpectrumLoud (alg : C → ℕ → R) (v : ℕ → ℕ → C) (atoms dims : ℕ) (f : ℕ) : R :=
  (spectraOfColumns alg ((List.range (atoms * dims)).map fun c => v (c % atoms) (c / atoms)) f).sum

/-- `get_power_spectrum_full`, silent ("memory efficient", dynaphopy/__init__.py:814-822, 830): accumulates the spectra of
single columns. -/
def fullSpectrumSilent (alg : C → ℕ → R) (v : ℕ → ℕ → C) (atoms dims : ℕ) (f : ℕ) : R :=
  (List.range atoms).foldl (fun acc i =>
    (List.range dims).foldl (fun acc j => acc + (spectraOfColumns alg [v i j] f).sum) acc) 0

/-- `get_power_spectrum_partials` (dynaphopy/__init__.py:838-849): entry `[f][atom]`. -/
def partialSpectrum (alg : C → ℕ → R) (v : ℕ → ℕ → C) (atoms : ℕ) (f : ℕ) : List R :=
  let s := fun dim => spectraOfColumns alg ((List.range atoms).map fun i => v i dim) f
  [1, 2].foldl (fun acc dim => List.zipWith (· + ·) acc (s dim)) (s 0)

/-- The selection of the atoms of one type and of one coordinate (dynaphopy/__init__.py:792-809): the new `v`, number of
atoms and of dimensions. `types` are the types of the supercell atoms. -/
def selectAtoms (v : ℕ → ℕ → C) (types : List ℕ) (atomType : ℤ) (coordinate : ℤ) (dims : ℕ) :
    Option ((ℕ → ℕ → C) × ℕ × ℕ) :=
  if atomType < 0 then some (v, types.length, dims)
  else
    let idx := (List.range types.length).filter fun i => (types.getD i 0 : ℤ) = atomType
    if idx = [] then none
    else if (dims : ℤ) ≤ coordinate then none
    else if -1 < coordinate then some (fun i _ => v (idx.getD i 0) coordinate.toNat, idx.length, 1)
    else some (fun i j => v (idx.getD i 0) j, idx.length, dims)

end Verif
