import Verif.Model.Rounding
import Verif.Model.Division
import Verif.Model.Settings
import Mathlib.Data.Int.Log
import Mathlib.Data.Rat.Floor

/-! # Double precision

Everywhere else the numbers are exact. Here the places where a rounding error decides about a whole number (the number of frequencies, of
pieces of the data, of time steps) are modelled in binary floating point with 53 digits, rounding to nearest, ties to even (IEEE 754 double).
A float is the rational number that it stands for. Overflow, subnormal numbers and the sign of zero are left out. -/

set_option autoImplicit false

namespace Verif

/-- The exponent of the last binary digit of the float next to `x ≠ 0`. -/
def flExp (x : ℚ) : ℤ := Int.log 2 |x| - 52

/-- The float next to `x`. Every operation of Python and numpy on floats gives `fl` of the exact result. -/
def fl (x : ℚ) : ℚ := if x = 0 then 0 else (roundEven (x / 2 ^ flExp x) : ℚ) * 2 ^ flExp x

/-! ## `_division_of_data` -/

/-- `divisionPlan` (dynaphopy/power_spectrum/__init__.py:33-43) in double precision; `round` gives a Python int. -/
def divisionPlanFl (resolution : ℚ) (numberOfData : ℕ) (timeStep : ℚ) : Option (ℚ × ℕ × ℤ) :=
  if fl (timeStep * resolution) = 0 then none
  else
    let pieceSize := roundEven (fl (1 / fl (timeStep * resolution)))
    if pieceSize = 0 then none
    else
      let numberOfPieces := pyInt (fl (((numberOfData : ℚ) - 1) / (pieceSize : ℚ)))
      if 0 < numberOfPieces then
        some (fl (((numberOfData : ℚ) - pieceSize) / (numberOfPieces : ℚ)), numberOfPieces.toNat, pieceSize)
      else some (0, 1, (numberOfData : ℤ))

/-- `[ini, fin]` of piece `i` (dynaphopy/power_spectrum/__init__.py:47-48) in double precision. -/
def pieceFl (pieceSize : ℤ) (interval : ℚ) (i : ℕ) : ℤ × ℤ :=
  (pyInt (fl (fl (fl ((pieceSize : ℚ) / 2) + fl (i * interval)) - fl ((pieceSize : ℚ) / 2))),
   pyInt (fl (fl (fl ((pieceSize : ℚ) / 2) + fl (i * interval)) + fl ((pieceSize : ℚ) / 2))))

/-- `_division_of_data` (dynaphopy/power_spectrum/__init__.py:33-51) in double precision. -/
def divisionOfDataFl (resolution : ℚ) (numberOfData : ℕ) (timeStep : ℚ) : Option (List (ℤ × ℤ)) :=
  (divisionPlanFl resolution numberOfData timeStep).map fun (interval, numberOfPieces, pieceSize) =>
    (List.range (numberOfPieces + 1)).map fun (i : ℕ) => pieceFl pieceSize interval i

/-- `np.average(ps, axis=0)` (dynaphopy/power_spectrum/__init__.py:240): the arrays `ps` must all have the same length, otherwise ValueError
(`none`). Here only the lengths matter: `np.correlate(mode='same')` and `np.fft.fft` keep the length of the piece (lines 235-238). -/
def averageLength (lengths : List ℤ) : Option ℤ :=
  match lengths with
  | [] => none
  | l :: ls => if ∀ m ∈ ls, m = l then some l else none

/-! ## `np.arange` and the frequency range -/

/-- `np.arange(start, stop, step)` in double precision: `ceil((stop - start)/step)` values; numpy adds `step` to the first value and fills the rest
with `start + i*delta`, `delta` being the difference of the first two (called in dynaphopy/__init__.py:147, 151; parameters.py:41). -/
def arangeFl (start stop step : ℚ) : List ℚ :=
  (List.range ⌈fl (fl (stop - start) / step)⌉.toNat).map fun (i : ℕ) =>
    if i = 0 then start else if i = 1 then fl (start + step) else fl (start + fl (i * fl (fl (start + step) - start)))

/-- The frequencies set by `set_frequency_limits([a, b])` with resolution `r` (dynaphopy/__init__.py:149-151). -/
def limitsRangeFl (a b r : ℚ) : List ℚ := arangeFl a (fl (b + r)) r

/-- The frequencies after `set_spectra_resolution(r)` (dynaphopy/__init__.py:144-147), the current ones being `range`; `none`: IndexError. -/
def resolutionRangeFl (range : List ℚ) (r : ℚ) : Option (List ℚ) :=
  match range.head?, range.getLast? with
  | some a, some b => some (arangeFl a (fl (b + r)) r)
  | _, _ => none

/-! ## Numbers of steps -/

/-- `n_loops = int(total_time / time_step / sampling_interval)` (dynaphopy/interface/lammps_link.py:114). -/
def lammpsLoopsFl (totalTime timeStep : ℚ) (sampling : ℕ) : ℤ := pyInt (fl (fl (totalTime / timeStep) / sampling))

/-- The times of `for time in np.arange(total_time, step=time_step)` (dynaphopy/interface/iofile/__init__.py:402). -/
def testTimesFl (totalTime timeStep : ℚ) : List ℚ := arangeFl 0 totalTime timeStep

end Verif
