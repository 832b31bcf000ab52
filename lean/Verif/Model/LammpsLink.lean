import Verif.Model.Arrangement

/-! # Trajectories computed with LAMMPS through its Python interface (dynaphopy/interface/lammps_link.py) -/

set_option autoImplicit false
set_option linter.unusedSectionVars false

namespace Verif

open Matrix

/-- The commands given to LAMMPS (lammps_link.py:28, 30, 36, 47-48, 50, 107-108, 118); their text is not modelled. -/
inductive LCommand (K : Type*)
  | file
  | timestep (t : K)
  | replicate (a b c : ℕ)
  | nvt (t mass : K)
  | velocityCreate (t : K)
  | velocityScale (t : K)
  | variableEnergy
  | run (steps : ℤ)

/-- LAMMPS, as the module sees it: a state changed by commands, and the local arrays read from it. `ids`, `x` and `v` are
`extract_atom("id")`, `extract_atom("x")`, `extract_atom("v")` (in the local order of LAMMPS, which may change from run to run), `energy` is the variable `energy`,
`box` gives `xhi-xlo, yhi-ylo, zhi-zlo, xy, xz, yz` (lammps_link.py:60-86; the three ways of asking for them are not distinguished). -/
structure LEngine (K : Type*) where
  State : Type
  start : State
  exec : LCommand K → State → State
  ids : State → List ℕ
  x : State → List (Fin 3 → K)
  v : State → List (Fin 3 → K)
  energy : State → K
  box : State → K × K × K × K × K × K

/-- The result: the arguments of `Dynamics(...)` (lammps_link.py:147-153). -/
structure LResult (K : Type*) where
  trajectory : Option (List (List (Fin 3 → K)))
  velocity : List (List (Fin 3 → K))
  time : List K
  energy : List K
  supercell : Matrix (Fin 3) (Fin 3) K

section
variable {K : Type*} [Field K] [LinearOrder K] [FloorRing K]

/-- `a[idx, :]` for a list of indices (lammps_link.py:100, 128, 133). An index out of range, an IndexError in NumPy, gives a zero row here. -/
def takeRows (rows : List (Fin 3 → K)) (idx : List ℕ) : List (Fin 3 → K) := idx.map fun i => rows.getD i 0

/-- `np.array([id[i] - 1 for i in range(na)])` (lammps_link.py:96-97, 124-125). -/
def idArray (E : LEngine K) (s : E.State) : List ℕ := (E.ids s).map (· - 1)

/-- The commands before the first frame is looked at (lammps_link.py:26-50). `none` is `exit()` for less than two atoms. -/
def lSetup (E : LEngine K) (timeStep : K) (supercell : ℕ × ℕ × ℕ) (temperature : Option K) (thermostatMass : K) : Option E.State :=
  let s := E.exec .file E.start
  let s := E.exec (.timestep timeStep) s
  let s := E.exec (.replicate supercell.1 supercell.2.1 supercell.2.2) s
  let s := temperature.elim s fun t => E.exec (.nvt t thermostatMass) s
  if (E.ids s).length < 2 then none else
  let s := if (E.v s).all fun v => v 0 = 0 ∧ v 1 = 0 ∧ v 2 = 0 then
      let t := temperature.getD 100
      E.exec (.velocityScale t) (E.exec (.velocityCreate t) s)
    else s
  some (E.exec (.run 0) s)

/-- `simulation_cell` (lammps_link.py:88-90). -/
def lCell (b : K × K × K × K × K × K) : Matrix (Fin 3) (Fin 3) K :=
  let (lx, ly, lz, xy, xz, yz) := b
  (!![lx, xy, xz; 0, ly, yz; 0, 0, lz])ᵀ

/-- `indexing` (lammps_link.py:95-105) for a structure with `nc` atoms: `arrange` is `get_correct_arrangement` (see `correctArrangement`) as a function of the reference. -/
def lIndexing (E : LEngine K) (arrange : List (Fin 3 → K) → List K) (s : E.State) : List ℕ :=
  argsort (arrange (takeRows (E.x s) (idArray E s)))

/-- One frame of velocities or positions (lammps_link.py:124-133). -/
def lFrame (E : LEngine K) (array : E.State → List (Fin 3 → K)) (indexing : List ℕ) (s : E.State) : List (Fin 3 → K) :=
  takeRows (takeRows (array s) (idArray E s)) indexing

/-- The states after each `run {sampling_interval}` (lammps_link.py:114-118). -/
def lStates (E : LEngine K) (sampling : ℤ) : ℕ → E.State → List E.State
  | 0, _ => []
  | n + 1, s => let s' := E.exec (.run sampling) s; s' :: lStates E sampling n s'

/-- `generate_lammps_trajectory` (lammps_link.py:8-153). The text of the log, the progress bar, `memmap` and the conversion to complex numbers are left out. -/
def generateLammps (E : LEngine K) (arrange : List (Fin 3 → K) → List K) (totalTime timeStep relaxationTime : K)
    (supercell : ℕ × ℕ × ℕ) (velocityOnly : Bool) (temperature : Option K) (thermostatMass : K) (sampling : ℤ) : Option (LResult K) :=
  (lSetup E timeStep supercell temperature thermostatMass).map fun s =>
  let cell := lCell (E.box s)
  let indexing := lIndexing E arrange s
  let s := E.exec .variableEnergy s
  let s := E.exec (.run (truncZero (relaxationTime / timeStep))) s
  let nLoops := (truncZero (totalTime / timeStep / sampling)).toNat
  let states := lStates E sampling nLoops s
  { trajectory := if velocityOnly then none else some (states.map (lFrame E E.x indexing))
    velocity := states.map (lFrame E E.v indexing)
    time := (List.range nLoops).map fun i : ℕ => (i : K) * timeStep * sampling
    energy := states.map E.energy
    supercell := cell }

end

end Verif
