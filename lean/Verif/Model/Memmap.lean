import Mathlib.Logic.Function.Basic
import Mathlib.Data.Nat.Notation

/-!
# Memory-mapped temporary files of `Dynamics` (dynaphopy/dynamics.py)

With `memmap=True` the relative trajectory, the velocity and the mass weighted velocity are `np.memmap` arrays of the files
`<temp dir>r_trajectory.<pid>`, `velocity.<pid>` and `velocity_mass.<pid>`. The file names depend only on the temporary directory and
the process id. `np.memmap(name, mode='w+')` opens an existing file in place (same inode, truncated) or creates it; a
mapping keeps referring to its inode.
-/

set_option autoImplicit false

namespace Verif

/-- Which of the three files (dynaphopy/dynamics.py:146, 170, 317). -/
inductive MapKind
  | relative | velocity | velocityMass
deriving DecidableEq

/-- A file name: temporary directory and process id (one number), and the kind (dynaphopy/dynamics.py:146, 170, 317). -/
abbrev MapName := ℕ × MapKind

/-- The file system: names to inodes, contents of inodes, next free inode
(behind `np.memmap`, dynaphopy/dynamics.py:146, 170, 317). -/
structure MapFS (D : Type*) where
  names : MapName → Option ℕ
  data : ℕ → D
  next : ℕ

/-- A `Dynamics` object with `memmap=True`: temporary directory/process, the coordinates and possibly the velocity it
was built with, and the mapped files (inodes) of its caches (dynaphopy/dynamics.py:18-49). -/
structure MapObj (D : Type*) where
  dir : ℕ
  source : D
  given : Option D := none
  handle : MapKind → Option ℕ := fun _ => none

/-- Several objects (dynaphopy/dynamics.py:7-62) and the file system. -/
structure MapWorld (D : Type*) where
  objs : ℕ → MapObj D
  fs : MapFS D

variable {D : Type*}

/-- `np.memmap(name, mode='w+')` followed by filling the array with `d` (dynaphopy/dynamics.py:146-154, 170-176,
317-327). -/
def MapFS.openWrite (fs : MapFS D) (n : MapName) (d : D) : MapFS D × ℕ :=
  match fs.names n with
  | some i => ({ fs with data := Function.update fs.data i d }, i)
  | none => ({ names := Function.update fs.names n (some fs.next)
               data := Function.update fs.data fs.next d
               next := fs.next + 1 }, fs.next)

/-- Map a new array for object `o` (dynaphopy/dynamics.py:146-148, 170-172, 317-319). -/
def MapWorld.store (w : MapWorld D) (o : ℕ) (k : MapKind) (d : D) : MapWorld D :=
  let r := w.fs.openWrite ((w.objs o).dir, k) d
  { objs := Function.update w.objs o
      { w.objs o with handle := Function.update (w.objs o).handle k (some r.2) }
    fs := r.1 }

/-- `get_relative_trajectory`, dynaphopy/dynamics.py:158-179; `disp` is the numerical part. -/
def MapWorld.getRelative (disp : D → D) (w : MapWorld D) (o : ℕ) : D × MapWorld D :=
  match (w.objs o).handle .relative with
  | some i => (w.fs.data i, w)
  | none => (disp (w.objs o).source, w.store o .relative (disp (w.objs o).source))

/-- the `velocity` property, dynaphopy/dynamics.py:313-329; `grad` is the numerical part. -/
def MapWorld.getVelocity (disp grad : D → D) (w : MapWorld D) (o : ℕ) : D × MapWorld D :=
  match (w.objs o).given with
  | some v => (v, w)
  | none =>
    match (w.objs o).handle .velocity with
    | some i => (w.fs.data i, w)
    | none =>
      let r := w.getRelative disp o
      (grad r.1, r.2.store o .velocity (grad r.1))

/-- `get_velocity_mass_average`, dynaphopy/dynamics.py:143-156; `weight` is the numerical part. -/
def MapWorld.getVelocityMass (disp grad weight : D → D) (w : MapWorld D) (o : ℕ) : D × MapWorld D :=
  match (w.objs o).handle .velocityMass with
  | some i => (w.fs.data i, w)
  | none =>
    let v := w.getVelocity disp grad o
    (weight v.1, v.2.store o .velocityMass (weight v.1))

/-- `__del__`, dynaphopy/dynamics.py:53-62, for the arrays the object has mapped; the slot `o` then holds an object of
the same process without caches (as if newly built). -/
def MapWorld.delete (w : MapWorld D) (o : ℕ) : MapWorld D :=
  { objs := Function.update w.objs o { w.objs o with handle := fun _ => none }
    fs := { w.fs with names := fun n =>
      if n.1 = (w.objs o).dir ∧ ((w.objs o).handle n.2).isSome then none else w.fs.names n } }

end Verif
