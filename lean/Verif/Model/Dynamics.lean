import Verif.Model.Rounding
import Mathlib.Algebra.Module.Basic

/-!
# `Dynamics` (dynaphopy/dynamics.py): series, caches, cropping, finite differences

A *frame* (coordinates of all atoms at one step) is an element of a `K`-vector space `F`; the numerical operations on
a single frame (conversion of scaled coordinates, displacements, mass weighting) are parameters collected in `DynEnv`:
they act frame by frame in the code (`atomic_displacements` is modelled in `Model/Displacements.lean`).
A method returns `none` when the Python code raises or exits.
-/

set_option autoImplicit false

namespace Verif

/-- Python `l[-n:]` for `n > 0` (dynaphopy/dynamics.py:71, 76, 81, 86, 88, 94). -/
def lastN {α : Type*} (n : ℕ) (l : List α) : List α := l.drop (l.length - n)

/-- `np.gradient(f, h)` for a 1-d array (used at dynaphopy/dynamics.py:326): one-sided differences at the ends, central
differences inside; raises for fewer than two samples. -/
def npGradient {K F : Type*} [Field K] [AddCommGroup F] [Module K F] (f : List F) (h : K) : Option (List F) :=
  if f.length < 2 then none
  else some ((List.range f.length).map fun i =>
    if i = 0 then h⁻¹ • (f.getD 1 0 - f.getD 0 0)
    else if i = f.length - 1 then h⁻¹ • (f.getD i 0 - f.getD (i - 1) 0)
    else (2 * h)⁻¹ • (f.getD (i + 1) 0 - f.getD (i - 1) 0))

/-- The per-frame operations that depend on the crystal structure and the MD supercell. `M` is the type of mean displacement
matrices (dynaphopy/dynamics.py:143-239, 302-311). -/
structure DynEnv (F M : Type*) where
  /-- `np.dot(scaled, supercell)`, dynaphopy/dynamics.py:306 -/
  toCart : F → F
  /-- displacements of a frame, dynaphopy/dynamics.py:175-176 -/
  disp : F → F
  /-- multiplication by `sqrt(mass)`, dynaphopy/dynamics.py:152-154 -/
  massWeight : F → F
  /-- dynaphopy/dynamics.py:211-237 as a function of the displacements and `use_average_positions` -/
  meanDisp : List F → Bool → M

/-- The attributes of `Dynamics`, dynaphopy/dynamics.py:18-31 (the memory-mapped files are in `Model/Memmap.lean`; here
`memmap` only matters for the branch at lines 97-105). -/
structure Dyn (K F M : Type*) where
  time : Option (List K) := none
  trajectory : Option (List F) := none
  scaled : Option (List F) := none
  energy : Option (List K) := none
  velocity : Option (List F) := none
  memmap : Bool := false
  timeStep : Option K := none
  velocityMass : Option (List F) := none
  relative : Option (List F) := none
  meanDisp : Option M := none

variable {K F M : Type*} [Field K] [LinearOrder K] [IsStrictOrderedRing K] [FloorRing K]
  [AddCommGroup F] [Module K F]

/-- The loop of `get_time_step_average`, dynaphopy/dynamics.py:132-134. -/
def timeStepSum (t : List K) : K :=
  (List.range (t.length - 1)).foldl
    (fun acc i => acc + (t.getD (i + 1) 0 - t.getD i 0) / ((t.length - 1 : ℕ) : K)) 0

namespace Dyn

/-- `get_time_step_average`, dynaphopy/dynamics.py:129-138 (`not x` is true for `None` and for 0). -/
def getTimeStep (s : Dyn K F M) : Option (K × Dyn K F M) :=
  match s.timeStep.filter (· ≠ 0) with
  | some x => some (aroundDec 8 x, { s with timeStep := some (aroundDec 8 x) })
  | none => s.time.map fun t =>
      (aroundDec 8 (timeStepSum t), { s with timeStep := some (aroundDec 8 (timeStepSum t)) })

/-- the `trajectory` property, dynaphopy/dynamics.py:302-311. -/
def getTrajectory (env : DynEnv F M) (s : Dyn K F M) : Option (List F × Dyn K F M) :=
  match s.trajectory with
  | some t => some (t, s)
  | none => s.scaled.map fun sc => (sc.map env.toCart, { s with trajectory := some (sc.map env.toCart) })

/-- `get_relative_trajectory`, dynaphopy/dynamics.py:158-179. -/
def getRelative (env : DynEnv F M) (s : Dyn K F M) : Option (List F × Dyn K F M) :=
  match s.relative with
  | some r => some (r, s)
  | none => (s.getTrajectory env).map fun (t, s) =>
    (t.map env.disp, { s with relative := some (t.map env.disp) })

/-- the `velocity` property, dynaphopy/dynamics.py:313-329. -/
def getVelocity (env : DynEnv F M) (s : Dyn K F M) : Option (List F × Dyn K F M) :=
  match s.velocity with
  | some v => some (v, s)
  | none =>
    (s.getRelative env).bind fun (r, s) => s.getTimeStep.bind fun (h, s) =>
      (npGradient r h).map fun v => (v, { s with velocity := some v })

/-- `get_velocity_mass_average`, dynaphopy/dynamics.py:143-156. -/
def getVelocityMass (env : DynEnv F M) (s : Dyn K F M) : Option (List F × Dyn K F M) :=
  match s.velocityMass with
  | some v => some (v, s)
  | none => (s.getVelocity env).map fun (v, s) =>
    (v.map env.massWeight, { s with velocityMass := some (v.map env.massWeight) })

/-- `get_mean_displacement_matrix`, dynaphopy/dynamics.py:207-239. -/
def getMeanDisp (env : DynEnv F M) (s : Dyn K F M) (useAverage : Bool) : Option (M × Dyn K F M) :=
  match s.meanDisp with
  | some m => some (m, s)
  | none => (s.getRelative env).map fun (r, s) =>
    (env.meanDisp r useAverage, { s with meanDisp := some (env.meanDisp r useAverage) })

/-- `set_time`, dynaphopy/dynamics.py:114-115. -/
def setTime (s : Dyn K F M) (t : List K) : Dyn K F M := { s with time := some t }

/-- First block of `crop_trajectory`, dynaphopy/dynamics.py:70-73. -/
def cropA (n : ℕ) (s : Dyn K F M) : Dyn K F M :=
  match s.trajectory with
  | some t => { s with trajectory := some (lastN n t), relative := none, scaled := none }
  | none => s

/-- Second block, dynaphopy/dynamics.py:75-78. -/
def cropB (n : ℕ) (s : Dyn K F M) : Dyn K F M :=
  match s.relative with
  | some r => { s with relative := some (lastN n r), trajectory := none, scaled := none }
  | none => s

/-- Third block, dynaphopy/dynamics.py:80-83. -/
def cropC (n : ℕ) (s : Dyn K F M) : Dyn K F M :=
  match s.scaled with
  | some r => { s with scaled := some (lastN n r), trajectory := none, relative := none }
  | none => s

/-- Fourth block, dynaphopy/dynamics.py:85-88. -/
def cropD (n : ℕ) (s : Dyn K F M) : Dyn K F M :=
  { s with energy := s.energy.map (lastN n), time := s.time.map (lastN n) }

/-- `crop_trajectory`, dynaphopy/dynamics.py:65-105. The argument is `None` or an integer. Line 98 raises
`AttributeError` when the relative trajectory is `None` (it has not been computed, because the velocity was known). -/
def crop (env : DynEnv F M) (s : Dyn K F M) (lastSteps : Option ℤ) : Option (Dyn K F M) :=
  match lastSteps with
  | none => some s
  | some z =>
    if z ≤ 0 then some s
    else
      let n := z.toNat
      ((cropD n (cropC n (cropB n (cropA n s)))).getVelocity env).bind fun (v, s) =>
      let s := { s with velocity := some (lastN n v), velocityMass := none }
      if s.memmap && s.relative.isNone then none
      else some { s with relative := none }

end Dyn
end Verif
