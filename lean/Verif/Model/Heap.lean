import Verif.Model.Displacements
import Verif.Model.Correlation

/-! # Memory of the C routines: blocks, pointers, `malloc` and `free`

Memory is a collection of blocks of words of eight bytes; a `double` and a pointer take one word, a `_Dcomplex` two. A pointer is a block and an offset in words. Every allocation gives a new block (`malloc` never fails). The words of a
new block hold nothing until they are written. Using a block that is not allocated (any more), a word outside a block, a word that was never written or a word of the other kind is an error, and so is `free` of anything but the
start of an allocated block. -/

set_option autoImplicit false

namespace Verif

/-- The content of a word: a number or a pointer (the types `double` and `double *` of c/displacements.c:24-33). -/
inductive Word (K : Type) where
  | num (x : K)
  | ptr (block off : ℕ)

/-- An allocated block: its size and what has been written to it (result of `malloc`, c/displacements.c:158, 208, 230). -/
structure Block (K : Type) where
  size : ℕ
  cells : ℕ → Option (Word K)

/-- The memory: the allocated blocks; the next allocation gets block `next` (`malloc`, `free` as used in c/displacements.c, c/mem.c, c/correlation.c). -/
structure Heap (K : Type) where
  next : ℕ
  live : ℕ → Option (Block K)

/-- What can go wrong with memory in c/displacements.c:95-373: a block not allocated (any more), outside of a block, never written, wrong kind of word or pointer; or a loop that does not end (c/correlation.c:156). -/
inductive HErr where
  | dead | bounds | unset | kind | diverges
  deriving DecidableEq

/-- A C routine that uses memory (c/displacements.c:95-373). -/
abbrev HeapM (K : Type) := StateT (Heap K) (Except HErr)

section Access
variable {K : Type}

/-- `malloc` of `size` words (e.g. c/displacements.c:158). -/
def malloc (size : ℕ) : HeapM K ℕ := fun h =>
  .ok (h.next, { next := h.next + 1, live := Function.update h.live h.next (some ⟨size, fun _ => none⟩) })

/-- `free` of the pointer to word `off` of a block (e.g. c/displacements.c:187). -/
def hfree (b off : ℕ) : HeapM K Unit := fun h =>
  match h.live b with
  | some _ => if off = 0 then .ok ((), { h with live := Function.update h.live b none }) else .error .kind
  | none => .error .dead

/-- Reading a word (e.g. the operands of c/displacements.c:277). -/
def hread (b i : ℕ) : HeapM K (Word K) := fun h =>
  match h.live b with
  | some B => if i < B.size then match B.cells i with
    | some w => .ok (w, h)
    | none => .error .unset else .error .bounds
  | none => .error .dead

/-- Writing a word (e.g. the assignment in c/displacements.c:237). -/
def hwrite (b i : ℕ) (w : Word K) : HeapM K Unit := fun h =>
  match h.live b with
  | some B => if i < B.size then .ok ((), { h with live := Function.update h.live b (some { B with cells := Function.update B.cells i (some w) }) }) else .error .bounds
  | none => .error .dead

/-- Reading a `double` (e.g. `Positions[k]`, c/displacements.c:164). -/
def getNum (b i : ℕ) : HeapM K K := do
  match ← hread b i with
  | .num x => return x
  | .ptr _ _ => throw .kind

/-- Reading a pointer (e.g. `a[i]` in c/displacements.c:362). -/
def getPtr (b i : ℕ) : HeapM K (ℕ × ℕ) := do
  match ← hread b i with
  | .ptr c o => return (c, o)
  | .num _ => throw .kind

/-- `p[i][j]` of a `double **` as a value (e.g. c/displacements.c:362). -/
def elem (p i j : ℕ) : HeapM K K := do
  let q ← getPtr p i
  getNum q.1 (q.2 + j)

/-- `p[i][j] = x` for a `double **` (e.g. c/displacements.c:360). -/
def setElem (p i j : ℕ) (x : K) : HeapM K Unit := do
  let q ← getPtr p i
  hwrite q.1 (q.2 + j) (.num x)

/-- `for (i = 0; i < n; i++)` with the variables `s` changed by the body (all loops of c/displacements.c). -/
def cLoop {σ : Type} : ℕ → σ → (ℕ → σ → HeapM K σ) → HeapM K σ
  | 0, s, _ => pure s
  | n + 1, s, body => cLoop n s body >>= body n

/-- `for (i = 0; i < n; i++)` with a body that only changes memory. -/
def cFor (n : ℕ) (body : ℕ → HeapM K Unit) : HeapM K Unit := cLoop n () fun i _ => body i

/-- Allocation of an `n × m` array by rows (c/displacements.c:158-159, 252-253, 283-285, 311-316, 354-356). -/
def mallocMat (n m : ℕ) : HeapM K ℕ := do
  let p ← malloc n
  cFor n fun i => do
    let q ← malloc m
    hwrite p i (.ptr q 0)
  return p

/-- `for (...) free(p[k]); free(p);` (c/displacements.c:180-181, 185-186, 296-298, 344-346). -/
def freeMat (n p : ℕ) : HeapM K Unit := do
  cFor n fun i => do
    let q ← getPtr p i
    hfree q.1 q.2
  hfree p 0

/-- A reference to a numpy array with the values `f`, as `PyArray_FROM_OTF` gives it (c/displacements.c:105-107, c/correlation.c:114-115); `Py_DECREF` (c/displacements.c:190-192) gives it back (`hfree`). If the argument
already has the right type the reference is to the argument itself; what counts is that it is held until it is given back. -/
def newArray (size : ℕ) (f : ℕ → K) : HeapM K ℕ := fun h =>
  .ok (h.next, { next := h.next + 1, live := Function.update h.live h.next (some ⟨size, fun i => some (.num (f i))⟩) })

end Access

section Field
variable {K : Type} [Field K]

/-- The copy of a row without column `skip` (c/displacements.c:287-292, 328-334): `j2` counts the copied elements. -/
def copySkip (n skip : ℕ) (a i m r : ℕ) : HeapM K ℕ :=
  cLoop n 0 fun j j2 => if j = skip then pure j2 else do
    let x ← elem a i j
    setElem m r j2 x
    return j2 + 1

/-- `Determinant(a, n)` (c/displacements.c:268-302). -/
def hDet : ℕ → ℕ → HeapM K K
  | 0, _ => pure 0
  | 1, a => elem a 0 0
  | 2, a => do
    let x ← elem a 0 0
    let y ← elem a 1 1
    let z ← elem a 1 0
    let w ← elem a 0 1
    return x * y - z * w
  | n + 3, a => cLoop (n + 3) 0 fun j1 det => do
    let m ← mallocMat (n + 2) (n + 2)
    cFor (n + 2) fun i => do
      let _ ← copySkip (n + 3) j1 a (i + 1) m i
      return ()
    let x ← elem a 0 j1
    let d ← hDet (n + 2) m
    freeMat (n + 2) m
    return det + (-1) ^ (j1 + 2) * x * d

/-- `CoFactor(a, n)` for `n ≥ 1` (c/displacements.c:305-349). -/
def hCofactor (n a : ℕ) : HeapM K ℕ := do
  let c ← mallocMat (n - 1) (n - 1)
  let b ← mallocMat n n
  cFor n fun j => cFor n fun i => do
    let _ ← cLoop n 0 fun ii i1 => if ii = i then pure i1 else do
      let _ ← copySkip n j a ii c i1
      return i1 + 1
    let det ← hDet (n - 1) c
    setElem b i j ((-1) ^ (i + j + 2) * det)
  freeMat (n - 1) c
  return b

/-- `matrix_inverse(a, n)` (c/displacements.c:250-265): the array of the cofactors is not freed. -/
def hInverse (n a : ℕ) : HeapM K ℕ := do
  let b ← mallocMat n n
  let cof ← hCofactor n a
  cFor n fun i => cFor n fun j => do
    let x ← elem cof j i
    let d ← hDet n a
    setElem b i j (x / d)
  return b

/-- `matrix_multiplication(a, b, n, l, m)` (c/displacements.c:352-368). -/
def hMul (a b n l m : ℕ) : HeapM K ℕ := do
  let c ← mallocMat n m
  cFor n fun i => cFor m fun j => do
    setElem c i j 0
    cFor l fun k => do
      let s ← elem c i j
      let x ← elem a i k
      let y ← elem b k j
      setElem c i j (s + x * y)
  return c

/-- `pymatrix_to_c_array_real` for an `n × n` array (c/displacements.c:222-248). -/
def hCellTable (n a : ℕ) : HeapM K ℕ := do
  let c ← malloc n
  cFor n fun i => do
    let b ← malloc n
    cFor n fun j => do
      let x ← getNum a (i + n * j)
      hwrite b j (.num x)
    hwrite c i (.ptr b 0)
  return c

/-- `pymatrix_to_c_array_complex` for an array of `N` rows of `n` complex numbers (c/displacements.c:199-219): a table (of twice the size needed) of pointers into the array. -/
def hRowTable (N n a : ℕ) : HeapM K ℕ := do
  let c ← malloc (2 * N)
  cFor N fun i => hwrite c i (.ptr a (2 * (i * n)))
  return c

end Field

variable {K : Type} [Field K] [LinearOrder K] [IsStrictOrderedRing K] [FloorRing K]

/-- `atomic_displacements` (c/displacements.c:95-196) for a trajectory of `N` frames of `n` complex coordinates, `n` positions and an `n × n` cell, `n ≥ 1`; returns the block of the result. The checks for failed conversions of the arguments
(lines 109-114) are left out. -/
def hDisplacements (N n : ℕ) (traj : ℕ → ℕ → K × K) (pos : ℕ → K) (cell : ℕ → ℕ → K) : HeapM K ℕ := do
  let trajectory ← newArray (2 * (N * n)) fun w => if w % 2 = 0 then (traj (w / 2 / n) (w / 2 % n)).1 else (traj (w / 2 / n) (w / 2 % n)).2
  let positions ← newArray n pos
  let cellArray ← newArray (n * n) fun q => cell (q / n) (q % n)
  let result ← malloc (2 * (N * n))
  let displacement ← hRowTable N n result
  let cellC ← hCellTable n cellArray
  let cellI ← hInverse n cellC
  let difference ← mallocMat n 1
  cFor N fun i => do
    cFor n fun k => do
      let x ← getNum trajectory (2 * (i * n + k))
      let p ← getNum positions k
      setElem difference k 0 (x - p)
    let differenceMatrix ← hMul cellI difference n n 1
    cFor n fun k => do
      let x ← elem differenceMatrix k 0
      setElem differenceMatrix k 0 (roundAway x : K)
    let periodic ← hMul cellC differenceMatrix n n 1
    cFor n fun k => do
      let x ← getNum trajectory (2 * (i * n + k))
      let d ← elem periodic k 0
      let p ← getNum positions k
      let q ← getPtr displacement i
      hwrite q.1 (q.2 + 2 * k) (.num (x - d - p))
      hwrite q.1 (q.2 + 2 * k + 1) (.num 0)
    freeMat n differenceMatrix
    freeMat n periodic
  freeMat n difference
  freeMat n cellI
  hfree cellC 0
  hfree trajectory 0
  hfree positions 0
  hfree cellArray 0
  return result

/-- The calls of `atomic_displacements` for the atoms of a trajectory (dynaphopy/dynamics.py:175-176, dynaphopy/analysis/coordinates.py:46-47): the numbers are copied to the new trajectory (not modelled), then the array is given back. -/
def hRelative (atoms N n : ℕ) (traj : ℕ → ℕ → ℕ → K × K) (pos : ℕ → ℕ → K) (cell : ℕ → ℕ → K) : HeapM K Unit :=
  cFor atoms fun a => do
    let r ← hDisplacements N n (traj a) (pos a) cell
    hfree r 0

/-! ## c/correlation.c -/

/-- `Velocity[i]` (c/correlation.c:158-169). -/
def getComplex (b i : ℕ) : HeapM ℝ ℂ := do
  let x ← getNum b (2 * i)
  let y ← getNum b (2 * i + 1)
  return ⟨x, y⟩

open Complex in
/-- One pass of the inner loop (c/correlation.c:158-174), see `corrTerm`. -/
noncomputable def hCorrTerm (V : ℕ) (ω dt : ℝ) (inc method i j : ℕ) : HeapM ℝ ℂ := do
  let a ← getComplex V j
  let b ← getComplex V (j + i)
  let first := (starRingEnd ℂ a * b) * exp ((ω * (i * dt) : ℝ) + 1 * I)
  if method = 0 then
    let c ← getComplex V (j + i + inc)
    let ci := (starRingEnd ℂ a * c) * exp ((ω * (((i + inc : ℕ) : ℝ) * dt) : ℝ) + 1 * I)
    let cj := (starRingEnd ℂ a * b) * exp ((ω * ((i + inc : ℕ) : ℝ) : ℝ) + 1 * I)
    return first + (ci + cj)
  else
    return first + (starRingEnd ℂ a * b) * exp ((ω * (i * dt) : ℝ) + 1 * I)

/-- The two loops (c/correlation.c:156-176), see `corrOuter`. -/
noncomputable def hCorrOuter (V N : ℕ) (ω dt : ℝ) (inc method : ℕ) : ℕ → ℕ → ℂ → HeapM ℝ ℂ
  | 0, _, _ => throw .diverges
  | fuel + 1, i, acc =>
    if i < N then do
      let acc ← cLoop (N - i - inc) acc fun j acc => do
        let t ← hCorrTerm V ω dt inc method i j
        return acc + t
      hCorrOuter V N ω dt inc method fuel (i + inc) acc
    else pure acc

/-- `correlation_par` (c/correlation.c:101-150), the frequencies one after the other (C115 is about the order); the result is `none` when NULL is returned (lines 138-141). No reference is given back. -/
noncomputable def hCorrelation (fuel : ℕ) (freqs : List ℝ) (v : List ℂ) (dt : ℝ) (inc : ℕ) (method : ℤ) : HeapM ℝ (Option ℕ) := do
  let velocity ← newArray (2 * v.length) fun w => if w % 2 = 0 then (v.getD (w / 2) 0).re else (v.getD (w / 2) 0).im
  let frequency ← newArray freqs.length fun i => freqs.getD i 0
  let result ← malloc freqs.length
  if method < 0 ∨ 1 < method then return none
  else
    cFor freqs.length fun i => do
      let f ← getNum frequency i
      let correl ← hCorrOuter velocity v.length (f * 2 * Real.pi) dt inc method.toNat fuel 0 0
      hwrite result i (.num (correl.re * dt / ((v.length / inc : ℕ) : ℝ)))
    return some result

end Verif
