import Verif.Model.Averages

/-! # HDF5 files (dynaphopy/interface/iofile/__init__.py:637-719, dynaphopy/__init__.py:104-126, scripts/concath5) -/

set_option autoImplicit false

namespace Verif

/-- The datasets of a file written by `save_data_hdf5` (iofile/__init__.py:638-660). `F` is a frame, `T` a time, `V` a frame of the projected velocity,
`S` the dataset `super_cell`, `Q` a wave vector. The storage format is not modelled. -/
structure H5File (F V T S Q : Type*) where
  trajectory : Option (List F) := none
  velocity : Option (List F) := none
  vc : Option (List V) := none
  reducedQ : Option Q := none
  time : List T
  superCell : S

/-- `a[initial_cut-1:final_cut]` of Python (iofile/__init__.py:680-684, 687-691, 694-698); `initial_cut = 0` gives the index -1, the last element. -/
def cutSlice {α : Type*} (initialCut : ℕ) (finalCut : Option ℕ) (a : List α) : List α :=
  let start := if initialCut = 0 then a.length - 1 else initialCut - 1
  match finalCut with
  | some e => (a.take e).drop start
  | none => a.drop start

/-- The contents of a `Dynamics` object that matter here: its data, time stamps and supercell (vectors in rows);
iofile/__init__.py:700-711. -/
structure MdData (F T : Type*) where
  trajectory : Option (List F)
  velocity : Option (List F)
  time : List T
  supercell : Matrix (Fin 3) (Fin 3) ℝ

/-- `Quasiparticle.save_velocity_hdf5` (dynaphopy/__init__.py:104-116) with `get_supercell_matrix()` (tolerance 0.01); `none`: the program exits
there. -/
noncomputable def saveVelocity {F T V Q : Type*} (cell : Matrix (Fin 3) (Fin 3) ℝ) (d : MdData F T) (saveTrajectory : Bool) :
    Option (H5File F V T (Fin 3 → ℤ) Q) :=
  (supercellMatrix d.supercell cell 0.01).map fun m =>
    { trajectory := if saveTrajectory then d.trajectory else none, velocity := d.velocity, time := d.time, superCell := m }

/-- `initialize_from_hdf5_file` for a file without `vc` (iofile/__init__.py:663-711): the window is applied to the data, not to the time stamps;
the supercell is `np.dot(np.diagflat(supercell), structure.get_cell())`. -/
noncomputable def loadHdf5 {F T V Q : Type*} (cell : Matrix (Fin 3) (Fin 3) ℝ) (f : H5File F V T (Fin 3 → ℤ) Q) (readTrajectory : Bool) (initialCut : ℕ)
    (finalCut : Option ℕ) : MdData F T where
  trajectory := if readTrajectory then f.trajectory.map (cutSlice initialCut finalCut) else none
  velocity := f.velocity.map (cutSlice initialCut finalCut)
  time := f.time
  supercell := Matrix.diagonal (fun i => (f.superCell i : ℝ)) * cell

/-- `np.concatenate((x, new_x[first:]))` in the loop of `concath5` (scripts/concath5:108-115): `None[first:]` is a TypeError. -/
def concatNew {α : Type*} (first : ℕ) (acc : Option (List α)) (new : Option (List α)) : Option (Option (List α)) :=
  match acc with
  | none => some none
  | some a => match new with
    | none => none
    | some b => some (some (a ++ b.drop first))

/-- One pass of the loop of `concath5` (scripts/concath5:104-115). -/
def concatStep {F V T S Q : Type*} (first : ℕ) (acc : H5File F V T S Q) (new : H5File F V T S Q) : Option (H5File F V T S Q) :=
  match concatNew first acc.trajectory new.trajectory with
  | none => none
  | some t => match concatNew first acc.velocity new.velocity with
    | none => none
    | some v => match concatNew first acc.vc new.vc with
      | none => none
      | some vc => some { acc with trajectory := t, velocity := v, vc := vc }

/-- `concath5 -f first [--velocity_only] input... output` (scripts/concath5:86-127): time, supercell and wave vector are those of the first file. -/
def concath5 {F V T S Q : Type*} (first : ℕ) (velocityOnly : Bool) (file : H5File F V T S Q) (files : List (H5File F V T S Q)) :
    Option (H5File F V T S Q) :=
  let a := { file with trajectory := if velocityOnly then none else file.trajectory.map (·.drop first),
                       velocity := file.velocity.map (·.drop first),
                       vc := if velocityOnly then none else file.vc.map (·.drop first) }
  files.foldlM (concatStep first) a

end Verif
