import Mathlib.Data.Nat.Notation
import Mathlib.Logic.Function.Basic

/-! # C arrays with bounds: reads and writes outside an array are an error -/

set_option autoImplicit false

namespace Verif

/-- What can go wrong in a run of a C routine (c/mem.c:102-252, c/correlation.c:101-178). -/
inductive CErr where
  | outOfBounds | diverges | noMethod
  deriving DecidableEq

/-- `a[i]` for a C array given as a list (`VQ[j]` in c/correlation.c:158-174). -/
def cRead {α : Type*} (a : List α) (i : ℕ) : Except CErr α :=
  match a[i]? with
  | some x => .ok x
  | none => .error .outOfBounds

/-- A C array (from `malloc` or from numpy): allocated size and contents. `val` beyond `size` is what lies behind it in
memory; it cannot be read (c/mem.c:142-149, 201-207). -/
structure CArr (K : Type*) where
  size : ℕ
  val : ℕ → K

variable {K : Type*}

/-- `a[i]` (all reads of arrays in c/mem.c:199-252). -/
def CArr.get (a : CArr K) (i : ℕ) : Except CErr K := if i < a.size then .ok (a.val i) else .error .outOfBounds

/-- `a[i] = x` (all writes to arrays in c/mem.c:199-252). -/
def CArr.set (a : CArr K) (i : ℕ) (x : K) : Except CErr (CArr K) :=
  if i < a.size then .ok { a with val := Function.update a.val i x } else .error .outOfBounds

end Verif
