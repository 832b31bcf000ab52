import Verif.Model.CMem
import Mathlib.Analysis.SpecialFunctions.Exp
import Mathlib.Analysis.SpecialFunctions.Complex.Circle

/-! # Direct Fourier method (c/correlation.c) -/

set_option autoImplicit false

namespace Verif

open Complex

/-- What one pass of the inner loop adds to `Correl` (c/correlation.c:158-174). `_Cbuild(x, 1)` is `x + 1.j`. The two
branches of the `switch`; other integration methods are refused before (lines 138-141). `double` is idealised as ℝ. -/
noncomputable def corrTerm (v : List ℂ) (ω dt : ℝ) (inc method i j : ℕ) : Except CErr ℂ := do
  let a ← cRead v j
  let b ← cRead v (j + i)
  let first := (starRingEnd ℂ a * b) * exp ((ω * (i * dt) : ℝ) + 1 * I)
  if method = 0 then
    let c ← cRead v (j + i + inc)
    let ci := (starRingEnd ℂ a * c) * exp ((ω * (((i + inc : ℕ) : ℝ) * dt) : ℝ) + 1 * I)
    let cj := (starRingEnd ℂ a * b) * exp ((ω * ((i + inc : ℕ) : ℝ) : ℝ) + 1 * I)
    return first + (ci + cj)
  else
    return first + (starRingEnd ℂ a * b) * exp ((ω * (i * dt) : ℝ) + 1 * I)

/-- The inner loop `for (int j = 0; j < (NumberOfData-i-Increment); j++)` (c/correlation.c:157). -/
noncomputable def corrInner (v : List ℂ) (ω dt : ℝ) (inc method i : ℕ) (acc : ℂ) : Except CErr ℂ :=
  (List.range (v.length - i - inc)).foldlM (fun acc j => do return acc + (← corrTerm v ω dt inc method i j)) acc

/-- The outer loop `for (int i = 0; i < NumberOfData; i += Increment)` (c/correlation.c:156); `fuel` bounds the number of
passes so that a loop that does not end shows as `diverges`. -/
noncomputable def corrOuter (v : List ℂ) (ω dt : ℝ) (inc method : ℕ) : ℕ → ℕ → ℂ → Except CErr ℂ
  | 0, _, _ => .error .diverges
  | fuel + 1, i, acc =>
    if i < v.length then do
      let acc ← corrInner v ω dt inc method i acc
      corrOuter v ω dt inc method fuel (i + inc) acc
    else .ok acc

/-- `EvaluateCorrelation` (c/correlation.c:153-178). `NumberOfData/Increment` is an integer division. Simplifications:
exact reals; `Increment ≥ 0`; when the integer quotient is 0 the C code divides by zero, here the quotient is 0. -/
noncomputable def evaluateCorrelation (fuel : ℕ) (ω : ℝ) (v : List ℂ) (dt : ℝ) (inc method : ℕ) : Except CErr ℝ := do
  let correl ← corrOuter v ω dt inc method fuel 0 0
  return correl.re * dt / ((v.length / inc : ℕ) : ℝ)

/-- `correlation_par` (c/correlation.c:101-150). The frequencies are evaluated independently, so the OpenMP schedule does not
matter (proved in C115, Verif.Model.Threads). -/
noncomputable def correlationPar (fuel : ℕ) (freqs : List ℝ) (v : List ℂ) (dt : ℝ) (inc : ℕ) (method : ℤ) :
    Except CErr (List ℝ) :=
  if method < 0 ∨ 1 < method then .error .noMethod
  else freqs.mapM fun f => evaluateCorrelation fuel (f * 2 * Real.pi) v dt inc method.toNat

end Verif
