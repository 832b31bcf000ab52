import Verif.Model.Mem
import Verif.Model.Correlation

/-! # The parallel loops over the frequencies (c/mem.c:155-168, c/correlation.c:143-147)

`# pragma omp parallel for default(shared) private(AngularFrequency)`: every thread has its own loop variable `i`, its own `AngularFrequency` and its own registers; the array `PowerSpectrum` is shared and everything else is
only read. The threads take iterations that nobody has taken yet, in any order, and their instructions are interleaved in any way. Sequential consistency is assumed (for programs without data races it is what C promises). -/

set_option autoImplicit false

namespace Verif

/-- One instruction of the body of the loop, for the thread's own `i` (c/mem.c:157-167, c/correlation.c:145-146). `x += y` and `x *= y` are a load and a store. -/
inductive Micro where
  /-- `AngularFrequency = Frequency[i]*2.0*M_PI;` (c/mem.c:157, c/correlation.c:145) -/
  | angular
  /-- `PowerSpectrum[i] = 0.0;` (c/mem.c:159) -/
  | clear
  /-- the load of `PowerSpectrum[i]` in `+=` and `*=` (c/mem.c:162, 165, 167) -/
  | load
  /-- the store of `PowerSpectrum[i] += f(AngularFrequency)` (c/mem.c:162, 165) -/
  | add (f : ℝ → ℝ)
  /-- the store of `PowerSpectrum[i] *= TimeStep` (c/mem.c:167) -/
  | scale (c : ℝ)
  /-- `PowerSpectrum[i] = f(AngularFrequency)` (c/correlation.c:146) -/
  | put (f : ℝ → ℝ)

/-- A thread: its loop variable, its `AngularFrequency`, the register of the last load, and the instructions it still has to do in this iteration (c/mem.c:155-168). -/
structure Thread where
  i : ℕ
  ang : ℝ
  tmp : ℝ
  code : List Micro

/-- All threads, the shared `PowerSpectrum` (c/mem.c:133) and the iterations no thread has taken yet. -/
structure Team (ι : Type) where
  threads : ι → Thread
  array : ℕ → ℝ
  waiting : List ℕ

/-- The effect of an instruction on the thread and on the shared array (c/mem.c:157-167, c/correlation.c:145-146). -/
noncomputable def Micro.exec (freqs : List ℝ) (op : Micro) (th : Thread) (a : ℕ → ℝ) : Thread × (ℕ → ℝ) :=
  match op with
  | .angular => ({ th with ang := freqs.getD th.i 0 * 2 * Real.pi }, a)
  | .clear => (th, Function.update a th.i 0)
  | .load => ({ th with tmp := a th.i }, a)
  | .add f => (th, Function.update a th.i (th.tmp + f th.ang))
  | .scale c => (th, Function.update a th.i (th.tmp * c))
  | .put f => (th, Function.update a th.i (f th.ang))

/-- One step of the team (the loops c/mem.c:155-168, c/correlation.c:143-147): some thread that has nothing to do takes some iteration that waits, or some thread does its next instruction. -/
inductive Team.Step {ι : Type} [DecidableEq ι] (freqs : List ℝ) (body : List Micro) : Team ι → Team ι → Prop where
  | take (s : Team ι) (t : ι) (i : ℕ) (idle : (s.threads t).code = []) (mem : i ∈ s.waiting) :
      Team.Step freqs body s { s with threads := Function.update s.threads t { s.threads t with i := i, code := body }, waiting := s.waiting.erase i }
  | run (s : Team ι) (t : ι) (op : Micro) (rest : List Micro) (next : (s.threads t).code = op :: rest) :
      Team.Step freqs body s { s with threads := Function.update s.threads t (op.exec freqs { s.threads t with code := rest } s.array).1, array := (op.exec freqs { s.threads t with code := rest } s.array).2 }

/-- At the start nothing is done: all iterations `0 ≤ i < n` wait; private variables and the array (`PyArray_SimpleNew`, c/mem.c:130) are uninitialised. -/
def Team.IsStart {ι : Type} (n : ℕ) (s : Team ι) : Prop := s.waiting = List.range n ∧ ∀ t, (s.threads t).code = []

/-- The barrier at the end of the loop: no iteration waits, no thread has anything left to do (c/mem.c:168). -/
def Team.IsDone {ι : Type} (s : Team ι) : Prop := s.waiting = [] ∧ ∀ t, (s.threads t).code = []

/-- The value of a C expression that the callers know to be defined (calls in c/mem.c:162, 165, c/correlation.c:146). -/
def valueOf (x : Except CErr ℝ) : ℝ :=
  match x with
  | .ok y => y
  | .error _ => 0

/-- The body of the loop of `MaximumEntropyMethod` (c/mem.c:157-167), after the coefficients have been calculated (lines 142-153, as in `mem`). -/
noncomputable def memBody (slack : ℕ) (junk : ℕ → ℕ → ℕ → ℝ) (v : List ℂ) (dt : ℝ) (M : ℕ) : Except CErr (List Micro) := do
  let N := v.length
  let dr : CArr ℝ := ⟨N + slack, fun i => if i < N then (v.getD i 0).re else junk 0 3 i⟩
  let di : CArr ℝ := ⟨N + slack, fun i => if i < N then (v.getD i 0).im else junk 1 3 i⟩
  let r ← getCoefficients (junk 0) dr N M ⟨M + 1, junk 0 4⟩
  let i ← getCoefficients (junk 1) di N M ⟨M + 1, junk 1 4⟩
  return [.angular, .clear]
    ++ (if r.1 ≠ 0 then [.load, .add fun w => valueOf (frequencyEvaluation (w * dt) r.2 M r.1)] else [])
    ++ (if i.1 ≠ 0 then [.load, .add fun w => valueOf (frequencyEvaluation (w * dt) i.2 M i.1)] else [])
    ++ [.load, .scale dt]

/-- The body of the loop of `correlation_par` (c/correlation.c:145-146). -/
noncomputable def correlationBody (fuel : ℕ) (v : List ℂ) (dt : ℝ) (inc method : ℕ) : List Micro :=
  [.angular, .put fun w => valueOf (evaluateCorrelation fuel w v dt inc method)]

end Verif
