import Mathlib.Algebra.Order.Floor.Ring
import Mathlib.Data.List.Range

/-! # Frequency range settings (dynaphopy/__init__.py:139-154) -/

set_option autoImplicit false

namespace Verif

variable {K : Type*} [Field K] [LinearOrder K] [IsStrictOrderedRing K] [FloorRing K]

/-- `np.arange(start, stop, step)`: `ceil((stop - start)/step)` values `start + i*step`
(called in dynaphopy/__init__.py:147, 151). Exact arithmetic; `step ≠ 0`. -/
def arange (start stop step : K) : List K :=
  (List.range ⌈(stop - start) / step⌉.toNat).map fun (i : ℕ) => start + i * step

/-- `np.array_equiv(a, b)` for one-dimensional arrays (called in dynaphopy/__init__.py:140): equal, or equal after
broadcasting an array of one element (also to an empty array). -/
def arrayEquiv {α : Type*} [DecidableEq α] (a b : List α) : Bool :=
  a = b ∨ (∃ x ∈ a, a = [x] ∧ ∀ y ∈ b, y = x) ∨ (∃ x ∈ b, b = [x] ∧ ∀ y ∈ a, y = x)

/-- `spectrum_resolution` and `frequency_range` of the parameters (dynaphopy/parameters.py:39-40). -/
structure FreqSettings (K : Type*) where
  resolution : K
  range : List K
  deriving DecidableEq

/-- `_set_frequency_range` (dynaphopy/__init__.py:139-142); the flag says whether the caches are cleared. -/
def FreqSettings.setRange (s : FreqSettings K) (r : List K) : FreqSettings K × Bool :=
  if arrayEquiv r s.range then (s, false) else ({ s with range := r }, true)

/-- `set_frequency_limits` (dynaphopy/__init__.py:149-151). -/
def FreqSettings.setLimits (s : FreqSettings K) (l0 l1 : K) : FreqSettings K × Bool :=
  s.setRange (arange l0 (l1 + s.resolution) s.resolution)

/-- `set_spectra_resolution` (dynaphopy/__init__.py:144-147). `none`: IndexError on an empty range. -/
def FreqSettings.setResolution (s : FreqSettings K) (resolution : K) : Option (FreqSettings K × Bool) :=
  match s.range.head?, s.range.getLast? with
  | some l0, some l1 => some ({ s with resolution := resolution }.setRange (arange l0 (l1 + resolution) resolution))
  | _, _ => none

end Verif
