import Verif.Model.Rounding

/-! # Division of the data into pieces (dynaphopy/power_spectrum/__init__.py) -/

set_option autoImplicit false

namespace Verif

variable {K : Type*} [Field K] [LinearOrder K] [IsStrictOrderedRing K] [FloorRing K]

/-- The piece size after line 35 and the (interval, number of pieces, piece size) after lines 36-43 of
`_division_of_data` (dynaphopy/power_spectrum/__init__.py:33-43). `none` is the ZeroDivisionError of lines 35/36.
Simplification: exact arithmetic instead of floats (both for `1./(time_step*resolution)` and for the interval). -/
def divisionPlan (resolution : K) (numberOfData : ℕ) (timeStep : K) : Option (K × ℕ × ℤ) :=
  if timeStep * resolution = 0 then none
  else
    let pieceSize := roundEven (1 / (timeStep * resolution))
    if pieceSize = 0 then none
    else
      let numberOfPieces := pyInt (((numberOfData : K) - 1) / (pieceSize : K))
      if 0 < numberOfPieces then
        some (((numberOfData : K) - pieceSize) / (numberOfPieces : K), numberOfPieces.toNat, pieceSize)
      else some (0, 1, (numberOfData : ℤ))

/-- `_division_of_data` (dynaphopy/power_spectrum/__init__.py:33-51): the list of `[ini, fin]`. Exact arithmetic. -/
def divisionOfData (resolution : K) (numberOfData : ℕ) (timeStep : K) : Option (List (ℤ × ℤ)) :=
  (divisionPlan resolution numberOfData timeStep).map fun (interval, numberOfPieces, pieceSize) =>
    (List.range (numberOfPieces + 1)).map fun (i : ℕ) =>
      (pyInt (((pieceSize : K) / 2 + i * interval) - (pieceSize : K) / 2),
       pyInt (((pieceSize : K) / 2 + i * interval) + (pieceSize : K) / 2))

end Verif
