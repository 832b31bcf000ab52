import Verif.Model.Hdf5
import Verif.Model.Quasi

/-! # Projected velocities saved and loaded (dynaphopy/__init__.py:46-55, 118-126, iofile/__init__.py:693-719, scripts/dynaphopy:288-291)

Arrays are lists of frames; the wave vector is one value. -/

set_option autoImplicit false

namespace Verif

variable {K W Q : Type*} [Field K] [LinearOrder K] [IsStrictOrderedRing K] [FloorRing K] [DecidableEq Q]

/-- `save_vc_hdf5` (dynaphopy/__init__.py:118-126): the object afterwards and the file; `none`: the program exits in `get_supercell_matrix`. -/
noncomputable def Quasi.saveVcHdf5 {F T : Type*} (env : QEnv K (List W) Q) (o : Quasi K (List W) Q) (cell : Matrix (Fin 3) (Fin 3) ℝ) (d : MdData F T) :
    Option (Quasi K (List W) Q × H5File F W T (Fin 3 → ℤ) Q) :=
  (supercellMatrix d.supercell cell 0.01).map fun m =>
    let r := o.getVc env
    (r.1, { vc := some r.2, reducedQ := some r.1.s.q, time := d.time, superCell := m })

/-- `initialize_from_hdf5_file` for a file with `vc` (iofile/__init__.py:693-706, 716-719): projected velocity, wave vector (`none` if the file has none), and the dynamics without trajectory and velocity. `none`: the file has no `vc`. -/
noncomputable def loadVcHdf5 {F T : Type*} (cell : Matrix (Fin 3) (Fin 3) ℝ) (f : H5File F W T (Fin 3 → ℤ) Q) (initialCut : ℕ) (finalCut : Option ℕ) : Option (List W × Option Q × MdData F T) :=
  f.vc.map fun vc => (cutSlice initialCut finalCut vc, f.reducedQ,
    { trajectory := none, velocity := none, time := f.time, supercell := Matrix.diagonal (fun i => (f.superCell i : ℝ)) * cell })

/-- `crop_trajectory` of an object with a given `vc` (dynaphopy/__init__.py:51-55): `self._vc[-last_steps:, :, :]`; `-0` keeps everything. -/
def cropVc (lastSteps : Option ℕ) (vc : List W) : List W :=
  match lastSteps with
  | none => vc
  | some n => if n = 0 then vc else vc.drop (vc.length - n)

/-- The calculation the program makes of a file with `vc` (scripts/dynaphopy:288-297, dynaphopy/__init__.py:23-44): the wave vector of the file and no symmetry replace the values of the other parameters `s`. -/
def startFromVc (s : QSettings K Q) (vc : List W) (q : Q) (lastSteps : Option ℕ) : Quasi K (List W) Q :=
  { s := { s with q := q, sym := false }, vc := some (cropVc lastSteps vc) }

end Verif
