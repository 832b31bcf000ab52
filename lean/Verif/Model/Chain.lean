import Verif.Model.Averages
import Verif.Model.Velocity
import Verif.Model.Projection
import Verif.Model.Spectra

/-! # From the trajectory to the phonon power spectrum

The calls made by `Quasiparticle.get_power_spectrum_phonon` (dynaphopy/__init__.py:721-757, without averages over equivalent wave vectors, which are C129) for a trajectory of
coordinates whose velocities are not given, on a new object: the parts are modelled in the files imported above. phonopy's eigenvectors are an argument. -/

set_option autoImplicit false

namespace Verif

variable {d f m : ℕ}

/-- A C array of `d` numbers as a function of the index (`trajectory[:, i, :]`, `position[i]`, dynaphopy/dynamics.py:175-176). -/
def natVec (v : Fin d → ℝ) : ℕ → ℝ := fun k => if h : k < d then v ⟨k, h⟩ else 0

/-- A C array of `d × d` numbers (`supercell`, dynaphopy/dynamics.py:176). -/
def natCell (c : Matrix (Fin d) (Fin d) ℝ) : ℕ → ℕ → ℝ := fun i j => if h : i < d ∧ j < d then c ⟨i, h.1⟩ ⟨j, h.2⟩ else 0

/-- What an analysis starts from: the structure (positions and masses of the atoms of the unit cell, unit cell, primitive matrix; dynaphopy/atoms.py:14-60), the trajectory
(MD cell, coordinates of the atoms in each frame, average time step; dynaphopy/dynamics.py:19-62), the wave vector in reduced coordinates (dynaphopy/parameters.py) and
the eigenvectors phonopy gives for it, one for each frequency, with a row for each atom of the primitive cell. -/
structure AnalysisInput (d f : ℕ) where
  positions : List (Fin d → ℝ)
  masses : List ℝ
  cell : Matrix (Fin d) (Fin d) ℝ
  primitive : Matrix (Fin d) (Fin d) ℝ
  mdCell : Matrix (Fin d) (Fin d) ℝ
  frames : List (ℕ → Fin d → ℝ)
  dt : ℝ
  q : Fin d → ℝ
  ev : Fin f → ℕ → Fin d → ℂ

namespace AnalysisInput

/-- `get_primitive_cell` with a primitive matrix (dynaphopy/atoms.py:113-116). -/
def primCellOf (a : AnalysisInput d f) : Matrix (Fin d) (Fin d) ℝ := (a.cell.transpose * a.primitive).transpose

/-- `get_atom_type_index()`, first call without supercell, through `get_number_of_primitive_atoms` (dynaphopy/projection.py:6, dynaphopy/atoms.py:256-259, 285-309). -/
noncomputable def labels (a : AnalysisInput d f) : List ℕ := typeLabels (sameAtoms a.primCellOf a.positions a.masses) a.positions.length

/-- `get_number_of_primitive_atoms()` (dynaphopy/atoms.py:256-259). -/
noncomputable def nPrim (a : AnalysisInput d f) : ℕ := a.labels.toFinset.card

/-- `get_supercell_matrix()` as a list (dynaphopy/dynamics.py:182-206, tolerance 0.01); a negative multiplicity cannot occur, norms being non-negative. -/
noncomputable def multiples (a : AnalysisInput d f) : Option (List ℕ) := (supercellMatrix a.mdCell a.cell 0.01).map fun n => List.ofFn fun i => (n i).toNat

/-- The velocity property (dynaphopy/dynamics.py:313-329) with the displacements of lines 168-177, frame by frame; `coords` are the positions of the atoms of the supercell.
`none`: fewer than two frames. -/
noncomputable def velocities (a : AnalysisInput d f) (coords : List (Fin d → ℝ)) : Option (List (ℕ → Fin d → ℂ)) :=
  if a.frames.length < 2 then none
  else some ((List.range a.frames.length).map fun t i k =>
    (((columnVelocity d (natCell a.mdCell) (natVec (coords.getD i 0)) (a.frames.map fun fr c => (natVec (fr i) c, 0)) a.dt k).getD []).getD t 0 : ℝ))

/-- `get_vq()` (dynaphopy/__init__.py:642-646, with get_vc, 626-640, for all atoms): mass weighting (dynaphopy/dynamics.py:143-158), projection onto the wave vector and onto the
eigenvectors. `none`: the program has stopped. -/
noncomputable def vq (a : AnalysisInput d f) : Option (List (Fin f → ℂ)) := do
  let n ← a.multiples
  let coords := positionsSupercell a.positions a.cell n
  let vs ← a.velocities coords
  some (vs.map fun v => projectOntoPhonon
    (fun (t : Fin a.nPrim) k => projectOntoWaveVector (massWeighted (expandSupercell a.masses n) v) (qVector a.primCellOf a.q) coords (expandSupercell a.labels n) a.nPrim (-1) t k)
    fun s (t : Fin a.nPrim) k => a.ev s t k)

/-- `get_power_spectrum_phonon()` (dynaphopy/__init__.py:721-757): a message, or the spectra in rows. -/
noncomputable def phononSpectrum (env : SpecEnv) (alg : ℤ) (p : SpecParams) (a : AnalysisInput d f) : Option (Except SpecErr (Bool × List (List ℝ))) :=
  a.vq.map fun v => powerSpectra env alg p v a.dt

end AnalysisInput

end Verif
