import Mathlib.Data.List.Basic

/-! # Specification: reading windows -/

set_option autoImplicit false

namespace Verif

/-- Frames number `first` to `last` (counted from 1, both included) of a file, as far as they exist. -/
def window {α : Type*} (frames : List α) (first last : ℕ) : List α := (frames.take last).drop (first - 1)

/-- The `k`-th element (from 0) of the window is frame number `first + k` of the file. -/
theorem window_getElem? {α : Type*} (frames : List α) (first last k : ℕ) (h : 1 ≤ first) :
    (window frames first last)[k]? = if first + k ≤ last then frames[first + k - 1]? else none := by
  unfold window
  rw [List.getElem?_drop, List.getElem?_take]
  have : first - 1 + k = first + k - 1 := by omega
  rw [this]
  congr 1
  apply propext; constructor <;> intro <;> omega

end Verif
