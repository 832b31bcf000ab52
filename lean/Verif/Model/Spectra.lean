import Verif.Model.Correlation
import Verif.Model.Mem
import Verif.Model.FFTPower

/-! # The spectrum functions for a whole matrix (dynaphopy/power_spectrum/__init__.py:57-103, 248-270, 299-315, 344-360,
402-447)

`vq` is given by its rows (one per time step), with `m` columns. Exact real arithmetic. The progress bars have no effect on
the result and are not modelled. With no column at all numpy returns an empty array of another shape; the model returns empty
rows. -/

set_option autoImplicit false

namespace Verif

open Complex

/-- How a spectrum function can end without a result: the `exit()` at dynaphopy/power_spectrum/__init__.py:84-86, a Python
exception (`KeyError` of the table at lines 439-447, or one in the FFT), or a failure of the C routine. -/
inductive SpecErr where
  | exit | exception | c (e : CErr)
  deriving DecidableEq

/-- The parameters that the functions use (dynaphopy/parameters.py:24-42): `frequency_range`,
`correlation_function_step`, `integration_method`, `number_of_coefficients_mem`, `zero_padding`. -/
structure SpecParams where
  freqs : List ℝ
  step : ℕ
  method : ℤ
  coefs : ℕ
  padding : ℕ

/-- What the C routines find in the machine: a bound on the passes of a loop, and for each column the readable elements behind
the arrays and the contents of uninitialised memory (see `corrOuter` and `mem`). -/
structure SpecEnv where
  fuel : ℕ
  slack : ℕ
  junk : ℕ → ℕ → ℕ → ℕ → ℝ

/-- `unit_conversion` (dynaphopy/power_spectrum/__init__.py:9). -/
noncomputable def unitConversion : ℝ := 0.00010585723

/-- `np.array(psd_vector).T * unit_conversion` (dynaphopy/power_spectrum/__init__.py:73-75, 101-103, 268-270, 313-315,
358-360, 430-432): row `k` has the values of the columns at frequency number `k`. -/
noncomputable def psdRows (n : ℕ) (psd : List (List ℝ)) : List (List ℝ) :=
  (List.range n).map fun k => psd.map fun col => col.getD k 0 * unitConversion

/-- `vq[:, i]` (dynaphopy/power_spectrum/__init__.py:64, 93, 261, 306, 351, 422). -/
def column {m : ℕ} (vq : List (Fin m → ℂ)) (i : Fin m) : List ℂ := vq.map fun row => row i

/-- `get_fourier_direct_power_spectra` (dynaphopy/power_spectrum/__init__.py:57-75). -/
noncomputable def fourierSpectra {m : ℕ} (env : SpecEnv) (p : SpecParams) (vq : List (Fin m → ℂ)) (dt : ℝ) :
    Except SpecErr (List (List ℝ)) := do
  let psd ← (List.finRange m).mapM fun (i : Fin m) =>
    (correlationPar env.fuel p.freqs (column vq i) dt p.step p.method).mapError SpecErr.c
  return psdRows p.freqs.length psd

/-- `get_mem_power_spectra` (dynaphopy/power_spectrum/__init__.py:81-103). `np.nan_to_num` (line 101) does nothing to real
numbers. -/
noncomputable def memSpectra {m : ℕ} (env : SpecEnv) (p : SpecParams) (vq : List (Fin m → ℂ)) (dt : ℝ) :
    Except SpecErr (List (List ℝ)) :=
  if vq.length ≤ p.coefs + 1 then .error .exit
  else do
    let psd ← (List.finRange m).mapM fun (i : Fin m) =>
      (mem env.slack (env.junk i) p.freqs (column vq i) dt p.coefs).mapError SpecErr.c
    return psdRows p.freqs.length psd

/-- `get_fft_fftw_power_spectra`, `get_fft_cuda_power_spectra` and the part of `get_fft_numpy_spectra` and
`get_fft_cupy_spectra` behind the resolution check (dynaphopy/power_spectrum/__init__.py:257-270, 299-315, 344-360,
417-432). -/
noncomputable def fftSpectra {m : ℕ} (p : SpecParams) (vq : List (Fin m → ℂ)) (dt : ℝ) : Except SpecErr (List (List ℝ)) := do
  let psd ← (List.finRange m).mapM fun (i : Fin m) =>
    match numpyPower p.freqs (column vq i) dt with
    | some l => Except.ok l
    | none => .error SpecErr.exception
  return psdRows p.freqs.length psd

/-- The resolution check of `get_fft_numpy_spectra` and `get_fft_cupy_spectra` (dynaphopy/power_spectrum/__init__.py:249-255,
403-415): whether the warning is printed. `none`: `IndexError` (fewer than two frequencies). A division by zero (no data)
warns in numpy; here the quotient is 0. -/
noncomputable def resolutionWarning (p : SpecParams) (rows : ℕ) (dt : ℝ) : Option Bool :=
  match p.freqs with
  | f0 :: f1 :: _ => some (f1 - f0 < 1 / (dt * (rows + p.padding : ℕ)))
  | _ => none

/-- `get_fft_numpy_spectra` and `get_fft_cupy_spectra` (dynaphopy/power_spectrum/__init__.py:248-270, 402-432). -/
noncomputable def fftCheckedSpectra {m : ℕ} (p : SpecParams) (vq : List (Fin m → ℂ)) (dt : ℝ) :
    Except SpecErr (Bool × List (List ℝ)) :=
  match resolutionWarning p vq.length dt with
  | none => .error .exception
  | some w => (fftSpectra p vq dt).map fun r => (w, r)

/-- `power_spectrum_functions[algorithm][0]` (dynaphopy/power_spectrum/__init__.py:439-447): whether a resolution warning was
printed, and the spectra. -/
noncomputable def powerSpectra {m : ℕ} (env : SpecEnv) (alg : ℤ) (p : SpecParams) (vq : List (Fin m → ℂ)) (dt : ℝ) :
    Except SpecErr (Bool × List (List ℝ)) :=
  if alg = 0 then (fourierSpectra env p vq dt).map fun r => (false, r)
  else if alg = 1 then (memSpectra env p vq dt).map fun r => (false, r)
  else if alg = 2 then fftCheckedSpectra p vq dt
  else if alg = 3 then (fftSpectra p vq dt).map fun r => (false, r)
  else if alg = 4 then (fftSpectra p vq dt).map fun r => (false, r)
  else if alg = 5 then fftCheckedSpectra p vq dt
  else .error .exception

end Verif
