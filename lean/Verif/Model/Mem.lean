import Verif.Model.CMem
import Mathlib.Analysis.SpecialFunctions.Exp
import Mathlib.Analysis.SpecialFunctions.Complex.Circle

/-! # Maximum entropy method (c/mem.c)

`double` is idealised as ℝ. Memory that is never freed (c/mem.c:170-177, 229) is the subject of `Verif.Model.HeapMem`. -/

set_option autoImplicit false

namespace Verif

open Complex

/-- The loop variables of `GetCoefficients` (c/mem.c:201-207). -/
structure MemState where
  wk1 : CArr ℝ
  wk2 : CArr ℝ
  wkm : CArr ℝ
  coef : CArr ℝ
  msd : ℝ

/-- `for (j=1; j <= NumberOfData; j++) p += pow(Data[j], 2);` (c/mem.c:210). -/
def memSumSq (data : CArr ℝ) (N : ℕ) : Except CErr ℝ :=
  (List.range N).foldlM (fun p j => do return p + (← data.get (j + 1)) ^ 2) 0

/-- Filling of `wk1` and `wk2` (c/mem.c:213-219). -/
def memFill (data : CArr ℝ) (N : ℕ) (wk1 wk2 : CArr ℝ) : Except CErr (CArr ℝ × CArr ℝ) := do
  let wk1 ← wk1.set 1 (← data.get 1)
  let wk2 ← wk2.set (N - 1) (← data.get N)
  (List.range (N - 2)).foldlM (fun (w : CArr ℝ × CArr ℝ) j => do
    let w1 ← w.1.set (j + 2) (← data.get (j + 2))
    let w2 ← w.2.set (j + 1) (← data.get (j + 2))
    return (w1, w2)) (wk1, wk2)

/-- Numerator and denominator (c/mem.c:222-227). -/
def memNumDen (wk1 wk2 : CArr ℝ) (n : ℕ) : Except CErr (ℝ × ℝ) :=
  (List.range n).foldlM (fun (a : ℝ × ℝ) j => do
    let x ← wk1.get (j + 1)
    let y ← wk2.get (j + 1)
    return (a.1 + x * y, a.2 + (x ^ 2 + y ^ 2))) (0, 0)

/-- `for (i=1; i <= (k-1); i++) Coefficients[i] = wkm[i] - Coefficients[k] * wkm[k-i];` (c/mem.c:235). -/
def memLevinson (wkm coef : CArr ℝ) (k : ℕ) : Except CErr (CArr ℝ) :=
  (List.range (k - 1)).foldlM (fun (coef : CArr ℝ) i => do
    let x ← wkm.get (i + 1)
    let c ← coef.get k
    let y ← wkm.get (k - (i + 1))
    coef.set (i + 1) (x - c * y)) coef

/-- `for (i=1; i<=k; i++) wkm[i] = Coefficients[i];` (c/mem.c:239). -/
def memCopy (coef wkm : CArr ℝ) (k : ℕ) : Except CErr (CArr ℝ) :=
  (List.range k).foldlM (fun (wkm : CArr ℝ) i => do wkm.set (i + 1) (← coef.get (i + 1))) wkm

/-- Update of the forward and backward errors, in place (c/mem.c:241-244). -/
def memErrors (wkm : CArr ℝ) (k n : ℕ) (wk1 wk2 : CArr ℝ) : Except CErr (CArr ℝ × CArr ℝ) :=
  (List.range n).foldlM (fun (w : CArr ℝ × CArr ℝ) j => do
    let w1 ← w.1.set (j + 1) ((← w.1.get (j + 1)) - (← wkm.get k) * (← w.2.get (j + 1)))
    let w2 ← w.2.set (j + 1) ((← w.2.get (j + 2)) - (← wkm.get k) * (← w1.get (j + 2)))
    return (w1, w2)) (wk1, wk2)

/-- The loop `for (k=1; k <= NumberOfCoefficients; k++)` of `GetCoefficients` (c/mem.c:221-245), with its two early
exits: `return 0.0` when the denominator is small, and `continue` in the last pass. Returns the mean square discrepancy and
the coefficients. -/
noncomputable def memLoop (N M : ℕ) : List ℕ → MemState → Except CErr (ℝ × CArr ℝ)
  | [], s => .ok (s.msd, s.coef)
  | k :: ks, s => do
    let nd ← memNumDen s.wk1 s.wk2 (N - k)
    if |nd.2| < 1e-6 then .ok (0, s.coef)
    else
      let coef ← s.coef.set k (2 * nd.1 / nd.2)
      let msd := s.msd * (1 - (← coef.get k) ^ 2)
      let coef ← memLevinson s.wkm coef k
      if k = M then memLoop N M ks { s with coef := coef, msd := msd }
      else
        let wkm ← memCopy coef s.wkm k
        let w ← memErrors wkm k (N - k - 1) s.wk1 s.wk2
        memLoop N M ks { wk1 := w.1, wk2 := w.2, wkm := wkm, coef := coef, msd := msd }

/-- `GetCoefficients` (c/mem.c:199-252). `junk` are the (uninitialised) contents of the allocated work arrays. -/
noncomputable def getCoefficients (junk : ℕ → ℕ → ℝ) (data : CArr ℝ) (N M : ℕ) (coef : CArr ℝ) :
    Except CErr (ℝ × CArr ℝ) := do
  let p ← memSumSq data N
  let w ← memFill data N ⟨N, junk 0⟩ ⟨N, junk 1⟩
  memLoop N M ((List.range M).map (· + 1)) { wk1 := w.1, wk2 := w.2, wkm := ⟨M, junk 2⟩, coef := coef, msd := p / N }

/-- `FrequencyEvaluation` (c/mem.c:184-196); `cpow(z, i)` is `z^i`. -/
noncomputable def frequencyEvaluation (δ : ℝ) (coef : CArr ℝ) (M : ℕ) (msd : ℝ) : Except CErr ℝ := do
  let z := exp ((δ : ℂ) * I)
  let sum ← (List.range M).foldlM (fun (s : ℂ) i => do return s - ((← coef.get (i + 1) : ℝ) : ℂ) * z ^ (i + 1)) 1
  return msd / (sum * starRingEnd ℂ sum).re

/-- `MaximumEntropyMethod` (c/mem.c:102-181), i.e. `mem.mem`. The velocity is split in real and imaginary part, copied to
arrays of `NumberOfData` elements (lines 142-149). `slack` is the number of elements behind these arrays that the allocator
happens to make readable (0 is what C promises); `junk` is the content of uninitialised memory. -/
noncomputable def mem (slack : ℕ) (junk : ℕ → ℕ → ℕ → ℝ) (freqs : List ℝ) (v : List ℂ) (dt : ℝ) (M : ℕ) :
    Except CErr (List ℝ) := do
  let N := v.length
  let dr : CArr ℝ := ⟨N + slack, fun i => if i < N then (v.getD i 0).re else junk 0 3 i⟩
  let di : CArr ℝ := ⟨N + slack, fun i => if i < N then (v.getD i 0).im else junk 1 3 i⟩
  let r ← getCoefficients (junk 0) dr N M ⟨M + 1, junk 0 4⟩
  let i ← getCoefficients (junk 1) di N M ⟨M + 1, junk 1 4⟩
  freqs.mapM fun f => do
    let δ := f * 2 * Real.pi * dt
    let a ← if r.1 ≠ 0 then frequencyEvaluation δ r.2 M r.1 else .ok 0
    let b ← if i.1 ≠ 0 then frequencyEvaluation δ i.2 M i.1 else .ok 0
    return (0 + a + b) * dt

end Verif
