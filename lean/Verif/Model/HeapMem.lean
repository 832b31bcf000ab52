import Verif.Model.Heap
import Verif.Model.Mem

/-! # Memory of the maximum entropy method (c/mem.c)

Uninitialised words hold arbitrary numbers (`junk`), which can be read; see `Verif.Model.Mem`. -/

set_option autoImplicit false

namespace Verif

/-- `malloc` of doubles with arbitrary contents (c/mem.c:138-144, 205-207). -/
def mallocJunk (size : ℕ) (junk : ℕ → ℝ) : HeapM ℝ ℕ := newArray size junk

/-- `for (j=1; j <= NumberOfData; j++) p += pow(Data[j], 2);` (c/mem.c:210). -/
def hSumSq (data N : ℕ) : HeapM ℝ ℝ := cLoop N 0 fun j p => do
  let x ← getNum data (j + 1)
  return p + x ^ 2

/-- Filling of `wk1` and `wk2` (c/mem.c:213-219). -/
def hFill (data N wk1 wk2 : ℕ) : HeapM ℝ Unit := do
  let x ← getNum data 1
  hwrite wk1 1 (.num x)
  let y ← getNum data N
  hwrite wk2 (N - 1) (.num y)
  cFor (N - 2) fun j => do
    let x ← getNum data (j + 2)
    hwrite wk1 (j + 2) (.num x)
    let y ← getNum data (j + 2)
    hwrite wk2 (j + 1) (.num y)

/-- Numerator and denominator (c/mem.c:222-227). -/
def hNumDen (wk1 wk2 n : ℕ) : HeapM ℝ (ℝ × ℝ) := cLoop n (0, 0) fun j a => do
  let x ← getNum wk1 (j + 1)
  let y ← getNum wk2 (j + 1)
  return (a.1 + x * y, a.2 + (x ^ 2 + y ^ 2))

/-- `for (i=1; i <= (k-1); i++) Coefficients[i] = wkm[i] - Coefficients[k] * wkm[k-i];` (c/mem.c:235). -/
def hLevinson (wkm coef k : ℕ) : HeapM ℝ Unit := cFor (k - 1) fun i => do
  let x ← getNum wkm (i + 1)
  let c ← getNum coef k
  let y ← getNum wkm (k - (i + 1))
  hwrite coef (i + 1) (.num (x - c * y))

/-- `for (i=1; i<=k; i++) wkm[i] = Coefficients[i];` (c/mem.c:239). -/
def hCopy (coef wkm k : ℕ) : HeapM ℝ Unit := cFor k fun i => do
  let x ← getNum coef (i + 1)
  hwrite wkm (i + 1) (.num x)

/-- Update of the forward and backward errors (c/mem.c:241-244). -/
def hErrors (wkm k n wk1 wk2 : ℕ) : HeapM ℝ Unit := cFor n fun j => do
  let a ← getNum wk1 (j + 1)
  let b ← getNum wkm k
  let c ← getNum wk2 (j + 1)
  hwrite wk1 (j + 1) (.num (a - b * c))
  let a ← getNum wk2 (j + 2)
  let b ← getNum wkm k
  let c ← getNum wk1 (j + 2)
  hwrite wk2 (j + 1) (.num (a - b * c))

/-- The loop over the coefficients (c/mem.c:221-245): mean square discrepancy, and whether the function was left at line 229. -/
noncomputable def hMemLoop (N M wk1 wk2 wkm coef : ℕ) : List ℕ → ℝ → HeapM ℝ (Bool × ℝ)
  | [], msd => pure (false, msd)
  | k :: ks, msd => do
    let nd ← hNumDen wk1 wk2 (N - k)
    if |nd.2| < 1e-6 then pure (true, 0)
    else
      hwrite coef k (.num (2 * nd.1 / nd.2))
      let c ← getNum coef k
      let msd := msd * (1 - c ^ 2)
      hLevinson wkm coef k
      if k = M then hMemLoop N M wk1 wk2 wkm coef ks msd
      else
        hCopy coef wkm k
        hErrors wkm k (N - k - 1) wk1 wk2
        hMemLoop N M wk1 wk2 wkm coef ks msd

/-- `GetCoefficients` (c/mem.c:199-252); the work arrays are freed only at the end of the function. -/
noncomputable def hGetCoefficients (junk : ℕ → ℕ → ℝ) (data N M coef : ℕ) : HeapM ℝ ℝ := do
  let wk1 ← mallocJunk N (junk 0)
  let wk2 ← mallocJunk N (junk 1)
  let wkm ← mallocJunk M (junk 2)
  let p ← hSumSq data N
  hFill data N wk1 wk2
  let r ← hMemLoop N M wk1 wk2 wkm coef ((List.range M).map (· + 1)) (p / N)
  if r.1 then return r.2
  else
    hfree wk1 0
    hfree wk2 0
    hfree wkm 0
    return r.2

open Complex in
/-- `FrequencyEvaluation` (c/mem.c:184-196). -/
noncomputable def hFrequencyEvaluation (δ : ℝ) (coef M : ℕ) (msd : ℝ) : HeapM ℝ ℝ := do
  let z := exp ((δ : ℂ) * I)
  let sum ← cLoop M (1 : ℂ) fun i s => do
    let c ← getNum coef (i + 1)
    return s - (c : ℂ) * z ^ (i + 1)
  return msd / (sum * starRingEnd ℂ sum).re

/-- The sum of one part in the result, if its discrepancy is not zero (c/mem.c:161-166). -/
noncomputable def hAddTerm (result i : ℕ) (δ : ℝ) (coef M : ℕ) (msd : ℝ) : HeapM ℝ Unit :=
  if msd ≠ 0 then do
    let a ← hFrequencyEvaluation δ coef M msd
    let x ← getNum result i
    hwrite result i (.num (x + a))
  else pure ()

/-- `MaximumEntropyMethod` (c/mem.c:102-181), frequencies one after the other (C115); `Velocity_i` is not freed. `slack` is the number of words behind the two copies of the velocity that can be read. -/
noncomputable def hMem (slack : ℕ) (junk : ℕ → ℕ → ℕ → ℝ) (freqs : List ℝ) (v : List ℂ) (dt : ℝ) (M : ℕ) : HeapM ℝ ℕ := do
  let velocity ← newArray (2 * v.length) fun w => if w % 2 = 0 then (v.getD (w / 2) 0).re else (v.getD (w / 2) 0).im
  let frequency ← newArray freqs.length fun i => freqs.getD i 0
  let result ← malloc freqs.length
  let coefR ← mallocJunk (M + 1) (junk 0 4)
  let coefI ← mallocJunk (M + 1) (junk 1 4)
  let velR ← mallocJunk (v.length + slack) (junk 0 3)
  let velI ← mallocJunk (v.length + slack) (junk 1 3)
  cFor v.length fun i => do
    let x ← getNum velocity (2 * i)
    hwrite velR i (.num x)
    let y ← getNum velocity (2 * i + 1)
    hwrite velI i (.num y)
  let msdR ← hGetCoefficients (junk 0) velR v.length M coefR
  let msdI ← hGetCoefficients (junk 1) velI v.length M coefI
  cFor freqs.length fun i => do
    let f ← getNum frequency i
    hwrite result i (.num 0)
    hAddTerm result i (f * 2 * Real.pi * dt) coefR M msdR
    hAddTerm result i (f * 2 * Real.pi * dt) coefI M msdI
    let x ← getNum result i
    hwrite result i (.num (x * dt))
  hfree velocity 0
  hfree frequency 0
  hfree velR 0
  hfree coefR 0
  hfree coefI 0
  return result

end Verif
