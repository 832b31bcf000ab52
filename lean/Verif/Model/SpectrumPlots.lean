import Verif.Model.Forces
import Verif.Model.PlotLabels

/-! # The curves of the plots of the spectra and of the trajectory (dynaphopy/__init__.py:875-976)

matplotlib is not modelled: a plot is the list of its curves with their names in the legend. -/

set_option autoImplicit false

namespace Verif

/-- A legend entry: the name and the curve it is attached to. -/
abbrev LegendEntry (C : Type) := String × C

/-- The curves of `plot_power_spectrum_full` in the order of the two axes (dynaphopy/__init__.py:879-906, `handles1 + handles2`, 910-913). `available` is `forces_available()`, `renormalized` is
`_renormalized_force_constants`, `dos` is `obtain_phonopy_dos` on the range and resolution of the spectrum with the given force constants (`none`: those of the structure). -/
def plotFullHandles {A C : Type} (spectrum : C) (available : Bool) (renormalized : Option A) (dos : Option A → C) : List C :=
  [spectrum] ++ (if available then [dos none] else []) ++ (match renormalized with | some a => [dos (some a)] | none => [])

/-- `plt.legend(handles, ['Power spectrum (MD)', 'DoS (Harmonic)', 'DoS (Renormalized)'])` (dynaphopy/__init__.py:914): names are given to the curves in order, superfluous names are left out. -/
def plotFullLegend {A C : Type} (spectrum : C) (available : Bool) (renormalized : Option A) (dos : Option A → C) : List (LegendEntry C) :=
  ["Power spectrum (MD)", "DoS (Harmonic)", "DoS (Renormalized)"].zip (plotFullHandles spectrum available renormalized dos)

/-- The part of a `Quasiparticle` object that decides which curves are drawn: the forces of the structure and `_renormalized_force_constants` (dynaphopy/__init__.py:38, atoms.py:36-37). -/
structure PlotState (A D : Type) where
  forces : ForceState A D
  renormalized : Option A := none

/-- What a user can do before plotting: give forces, calculate something from the forces, ask for the renormalized force constants, change a setting that clears them. -/
inductive PlotOp (A D : Type) where
  | force (op : ForceOp A D)
  | renormalize
  | clear

/-- One operation; `none`: the program ended (`exit()`). `get_renormalized_force_constants` (dynaphopy/__init__.py:1197-1211) starts with the eigenvectors of the commensurate points, that is with `get_phonon`
(phonopy_link.py:130-169); `renorm` is the result, calculated only if there is none. `force_constants_clear` (dynaphopy/__init__.py:73-76). -/
def PlotState.step {A D : Type} (produce : D → SMat → A) (renorm : ForceState A D → A) (s : PlotState A D) : PlotOp A D → Option (PlotState A D)
  | .force op => some { s with forces := s.forces.step produce op }
  | .renormalize => (s.forces.phononFor produce none).map fun r => { forces := r.2, renormalized := some (s.renormalized.getD (renorm r.2)) }
  | .clear => some { s with renormalized := none }

/-- A history of operations from a new object with `natoms` atoms. -/
def PlotState.run {A D : Type} (produce : D → SMat → A) (renorm : ForceState A D → A) (natoms : ℤ) (h : List (PlotOp A D)) : Option (PlotState A D) :=
  h.foldlM (fun s op => s.step produce renorm op) { forces := { natoms := natoms } }

/-- `plot_power_spectrum_full` (dynaphopy/__init__.py:875-916): the legend; `none`: `exit()` in `forces_available`. -/
def PlotState.plotFull {A D C : Type} (s : PlotState A D) (spectrum : C) (dos : Option A → C) : Option (List (LegendEntry C)) :=
  s.forces.available.map fun b => plotFullLegend spectrum b s.renormalized dos

/-- `plot_power_spectrum_phonon` (dynaphopy/__init__.py:931-940): figure number, number in the title, points. `spectra` has one row for each frequency; `nModes` is its second dimension. -/
def plotPhononFigures {K : Type} (range : List K) (spectra : List (List K)) (nModes : ℕ) : List (ℕ × ℕ × List (K × Option K)) :=
  (List.range nModes).map fun i => (i, i + 1, range.zip (spectra.map fun (row : List K) => row[i]?))

/-- The curves of `plot_trajectory` (dynaphopy/__init__.py:943-958): `None` means `[0]`, an empty list no curve. `trajectory[t][atom][coordinate]`, real parts. -/
def plotTrajectoryCurves {K : Type*} [Field K] (trajectory : List (List (List K))) (dt : K) (atoms coordinates : Option (List ℕ)) : Option (List ((ℕ × ℕ) × List (K × K))) :=
  ((atoms.getD [0]).flatMap fun a => (coordinates.getD [0]).map fun c => (a, c)).mapM fun ac => do
    let ys ← trajectory.mapM fun (frame : List (List K)) => (frame[ac.1]?).bind fun row => row[ac.2]?
    some (ac, (projectionTimes trajectory.length dt).zip ys)

/-- The curves of `plot_velocity` (dynaphopy/__init__.py:960-976): `not atoms` is true of `None` and of an empty list; the loops are those of `plot_vc` (662-680). -/
def plotVelocityCurves {K : Type*} [Field K] (velocity : List (List (List K))) (dt : K) (atoms coordinates : Option (List ℕ)) : Option (List ((ℕ × ℕ) × List (K × K))) :=
  plotVcCurves velocity dt (atoms.getD []) (coordinates.getD [])

end Verif
