import Verif.Model.FFTPower

/-! # The four FFT routines (dynaphopy/power_spectrum/__init__.py:226-432), each as it is written

The library functions (`np.correlate`, `np.fft.fft`, `pyfftw...fft`, `cuda_acorrelate`, `cuda_fft`, `cp.correlate`, `cp.fft.fft`,
`argsort`) are parameters; `fftfreq` and `interp` are written out. Exact arithmetic. -/

set_option autoImplicit false

namespace Verif

/-- The functions of a library that the routines use. `argsort` returns the order of its argument. -/
structure FftLib where
  correlate : List ℂ → List ℂ
  fft : List ℂ → List ℂ
  argsort : List ℝ → List ℕ

/-- `np.fft.fftfreq(n, d)`, `cp.fft.fftfreq(n, d)` (called in dynaphopy/power_spectrum/__init__.py:242, 293, 338, 392): the integers
`0 .. (n-1)//2` and then `-(n//2) .. -1`, times `1/(n d)`. -/
noncomputable def fftfreq (n : ℕ) (d : ℝ) : List ℝ :=
  ((List.range ((n - 1) / 2 + 1)).map fun (i : ℕ) => (i : ℝ) * (1 / (n * d))) ++
  (List.range (n / 2)).map fun (i : ℕ) => ((i : ℝ) - (n / 2 : ℕ)) * (1 / (n * d))

/-- `np.interp(frequency_range, freqs[idx], ps[idx])` (dynaphopy/power_spectrum/__init__.py:243-245, 294-296, 339-341, 393-399). -/
noncomputable def interpSorted (lib : FftLib) (freqRange freqs ps : List ℝ) : List ℝ :=
  let idx := lib.argsort freqs
  let table := (idx.map fun i => freqs.getD i 0).zip (idx.map fun i => ps.getD i 0)
  freqRange.map fun f => interp f table

/-- `_numpy_power` (dynaphopy/power_spectrum/__init__.py:226-245). `none`: an exception. -/
noncomputable def numpyRoutine (lib : FftLib) (freqRange : List ℝ) (data : List ℂ) (dt : ℝ) : Option (List ℝ) :=
  match freqRange with
  | f0 :: f1 :: _ =>
    if data = [] then none
    else (divisionOfData (f1 - f0) data.length dt).map fun pieces =>
      let ps := pieces.map fun p =>
        let piece := slice data p
        let corr := (lib.correlate piece).map fun c => c / (piece.length : ℂ)
        (lib.fft corr).map fun x => ‖x‖ * dt
      let n := (ps.getD (ps.length - 1) []).length
      interpSorted lib freqRange (fftfreq n dt) (averageRows n ps)
  | _ => none

/-- `_fftw_power` (dynaphopy/power_spectrum/__init__.py:276-296). -/
noncomputable def fftwRoutine (lib : FftLib) (freqRange : List ℝ) (data : List ℂ) (dt : ℝ) : Option (List ℝ) :=
  match freqRange with
  | f0 :: f1 :: _ =>
    if data = [] then none
    else (divisionOfData (f1 - f0) data.length dt).map fun pieces =>
      let ps := pieces.map fun p =>
        let piece := slice data p
        let corr := (lib.correlate piece).map fun c => c / (piece.length : ℂ)
        (lib.fft corr).map fun x => ‖x‖ * dt
      let n := (ps.getD (ps.length - 1) []).length
      interpSorted lib freqRange (fftfreq n dt) (averageRows n ps)
  | _ => none

/-- `_cuda_power` (dynaphopy/power_spectrum/__init__.py:321-341): the time step is multiplied before the absolute value. -/
noncomputable def cudaRoutine (lib : FftLib) (freqRange : List ℝ) (data : List ℂ) (dt : ℝ) : Option (List ℝ) :=
  match freqRange with
  | f0 :: f1 :: _ =>
    if data = [] then none
    else (divisionOfData (f1 - f0) data.length dt).map fun pieces =>
      let ps := pieces.map fun p =>
        let piece := slice data p
        let corr := (lib.correlate piece).map fun c => c / (piece.length : ℂ)
        (lib.fft corr).map fun x => ‖x * (dt : ℂ)‖
      let n := (ps.getD (ps.length - 1) []).length
      interpSorted lib freqRange (fftfreq n dt) (averageRows n ps)
  | _ => none

/-- `_cupy_power` (dynaphopy/power_spectrum/__init__.py:368-399). -/
noncomputable def cupyRoutine (lib : FftLib) (freqRange : List ℝ) (data : List ℂ) (dt : ℝ) : Option (List ℝ) :=
  match freqRange with
  | f0 :: f1 :: _ =>
    if data = [] then none
    else (divisionOfData (f1 - f0) data.length dt).map fun pieces =>
      let ps := pieces.map fun p =>
        let piece := slice data p
        let corr := (lib.correlate piece).map fun c => c / (piece.length : ℂ)
        (lib.fft corr).map fun x => ‖x‖ * dt
      let n := (ps.getD (ps.length - 1) []).length
      interpSorted lib freqRange (fftfreq n dt) (averageRows n ps)
  | _ => none

/-- The FFT algorithms of the menu (dynaphopy/power_spectrum/__init__.py:442-447). -/
inductive FftAlgorithm
  | numpy | fftw | cuda | cupy

/-- The routine for one column. -/
noncomputable def FftAlgorithm.routine : FftAlgorithm → FftLib → List ℝ → List ℂ → ℝ → Option (List ℝ)
  | .numpy => numpyRoutine
  | .fftw => fftwRoutine
  | .cuda => cudaRoutine
  | .cupy => cupyRoutine

/-- What `get_fft_numpy_spectra`, `get_fft_fftw_power_spectra`, `get_fft_cuda_power_spectra` and `get_fft_cupy_spectra` do
(dynaphopy/power_spectrum/__init__.py:248-270, 299-315, 344-360, 402-432): whether the warning "resolution requested unavailable" is
printed (with the largest available one), and the spectra of the columns, times `unit_conversion`. `padding` is
`parameters.zero_padding`, used in the warning only. -/
noncomputable def fftMatrix (alg : FftAlgorithm) (lib : FftLib) (freqRange : List ℝ) (steps : ℕ) (cols : List (List ℂ)) (dt padding unit : ℝ) :
    Option (Option ℝ × List (List ℝ)) :=
  let warning := match alg, freqRange with
    | .numpy, f0 :: f1 :: _ => some (if f1 - f0 < 1 / (dt * (steps + padding)) then some (1 / (dt * (steps + padding))) else none)
    | .cupy, f0 :: f1 :: _ => some (if f1 - f0 < 1 / (dt * (steps + padding)) then some (1 / (dt * (steps + padding))) else none)
    | .numpy, _ => none
    | .cupy, _ => none
    | _, _ => some none
  warning.bind fun w =>
    (cols.mapM fun c => (alg.routine lib freqRange c dt).map fun ps => ps.map fun x => x * unit).map fun m => (w, m)

end Verif
