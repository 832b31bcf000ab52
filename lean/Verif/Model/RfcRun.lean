import Verif.Model.Forces
import Verif.Model.Outputs

/-! # The script rfc_calc

scripts/rfc_calc. phonopy and the plotting library are not modelled: the commensurate points of a supercell, the eigenvectors of a phonopy object
at a wave vector, the force constants of given frequencies and eigenvectors, the force constants produced from force sets and the automatic path are
arguments (`RfcWorld`). What the script prints, writes and draws is the result. -/

set_option autoImplicit false

namespace Verif

/-- What phonopy and seekpath give (phonopy_link.py:330-340, 172-198, 366-400, 130-169, atoms.py:353-364). `renorm` may fail (shapes that do not fit). -/
structure RfcWorld (K A D E : Type) where
  points : SMat → List (List K)
  eig : PhononObj A → List K → E
  renorm : List (List K) → List E → SMat → Bool → Option A
  produce : D → SMat → A
  seek : List (List K × List K)

/-- What the input file gives (iofile/__init__.py:480-620): the structure (number of atoms), `SUPERCELL MATRIX PHONON`, the contents of the force sets
and force constants files, `BANDS` (the ranges, and whether there are labels). -/
structure RfcInput (K A D : Type) where
  atoms : Option ℤ
  supercell : Option SMat := none
  forceSets : Option (ℤ × D) := none
  forceConstants : Option A := none
  bands : Option (List (List K × List K) × Bool) := none

/-- The arguments (scripts/rfc_calc:11-33). `cp` excludes the file of frequencies, whose contents are `doc`. -/
structure RfcArgs (K : Type) where
  cp : Bool := false
  doc : YamlDoc K
  save : Option String := none
  plot : Bool := false
  symmetrize : Bool := false
  dim : Option (Fin 3 → ℤ) := none

/-- What the script does: it prints commensurate points, writes force constants into a file, draws the bands of two phonopy objects along ranges. -/
inductive RfcOut (K A : Type) where
  | points (l : List (List K))
  | file (name : String) (array : A)
  | bands (ranges : List (List K × List K)) (harmonic renormalized : PhononObj A)

/-- The outputs in their order, and whether the script ended with an error or a message (`exit()` for lack of data). -/
structure RfcResult (K A : Type) where
  out : List (RfcOut K A)
  failed : Bool

variable {K A D E : Type}

/-- `np.diag(args.dim)` (scripts/rfc_calc:138). -/
def dimMatrix (d : Fin 3 → ℤ) : SMat := fun i j => if i = j then d i else 0

/-- `-cp` (scripts/rfc_calc:127-142). The unit cell is used as supercell if there is no supercell matrix in the input file. -/
def rfcPoints (w : RfcWorld K A D E) (inp : RfcInput K A D) (dim : Option (Fin 3 → ℤ)) : List (List K) :=
  match dim with
  | some d => w.points (dimMatrix d)
  | none => match inp.supercell with
    | some s => w.points s
    | none => w.points 1

/-- scripts/rfc_calc:38-41: the force sets, then the force constants of the input file, with the supercell of the input file. `none`: KeyError. -/
def rfcForces (inp : RfcInput K A D) (s : ForceState A D) : Option (ForceState A D) := do
  let s ← match inp.forceSets with
    | none => some s
    | some f => inp.supercell.map fun sc => s.setFS ⟨f.1, f.2, sc⟩
  match inp.forceConstants with
  | none => some s
  | some a => inp.supercell.map fun sc => s.setFC ⟨a, sc⟩

/-- The supercell of the renormalized force constants (scripts/rfc_calc:45-51). `none`: the program ends. -/
def rfcSupercell (inp : RfcInput K A D) (dim : Option (Fin 3 → ℤ)) (s : ForceState A D) : Option SMat := do
  let sc ← s.supercellPhonon
  match dim with
  | some _ => some sc
  | none => inp.supercell

/-- The eigenvectors at the commensurate points (scripts/rfc_calc:71, phonopy_link.py:172-198): each call makes a phonopy object from the structure, in
which it leaves the force constants it produced. -/
def rfcEigenvectors (w : RfcWorld K A D E) : List (List K) → ForceState A D → Option (List E × ForceState A D)
  | [], s => some ([], s)
  | q :: qs, s => do
    let (ph, s) ← s.getPhonon w.produce true none
    let (es, s) ← rfcEigenvectors w qs s
    some (w.eig ph q :: es, s)

/-- `get_renormalized_constants` (scripts/rfc_calc:36-79). -/
def rfcConstants [DecidableEq K] (w : RfcWorld K A D E) (inp : RfcInput K A D) (a : RfcArgs K) (s : ForceState A D) :
    Option (FConst A × ForceState A D) := do
  let s ← rfcForces inp s
  let sc ← rfcSupercell inp a.dim s
  let fr ← rfcFrequencies (w.points sc) a.doc
  let (es, s) ← rfcEigenvectors w (w.points sc) s
  let arr ← w.renorm fr es sc a.symmetrize
  some (⟨arr, sc⟩, s)

/-- What `plot_renormalized_phonon_bands` passes as ranges (scripts/rfc_calc:84-87): the dictionary of the input file (iofile/__init__.py:597-601) or the list of the automatic path. -/
inductive RangesArg (K : Type) where
  | list (l : List (List K × List K))
  | dict (l : List (List K × List K)) (hasLabels : Bool)

/-- `for q_start, q_end in bands_ranges` (phonopy_link.py:315-318). A dictionary is iterated over its keys; should a key have two characters, these would
be subtracted from each other (TypeError). `none`: exception. -/
def RangesArg.segments : RangesArg K → Option (List (List K × List K))
  | .list l => some l
  | .dict _ hasLabels => (unpackKeys (if hasLabels then ["ranges", "labels"] else ["ranges"])).bind fun _ => none

/-- `plot_renormalized_phonon_bands` (scripts/rfc_calc:82-111). -/
def rfcPlot (w : RfcWorld K A D E) (inp : RfcInput K A D) (fc : FConst A) (s : ForceState A D) : Option (RfcOut K A) := do
  let arg : RangesArg K := match inp.bands with
    | some b => .dict b.1 b.2
    | none => .list w.seek
  let (harmonic, s) ← s.phononFor w.produce none
  let ranges ← arg.segments
  let (renormalized, _) ← s.phononFor w.produce (some fc)
  some (.bands ranges harmonic renormalized)

/-- The script (scripts/rfc_calc:114-150). -/
def rfcRun [DecidableEq K] (w : RfcWorld K A D E) (inp : RfcInput K A D) (a : RfcArgs K) : RfcResult K A :=
  match inp.atoms with
  | none => ⟨[], true⟩
  | some n =>
    if a.cp then ⟨[.points (rfcPoints w inp a.dim)], false⟩
    else
      match rfcConstants w inp a { natoms := n } with
      | none => ⟨[], true⟩
      | some (fc, s) =>
        let saved := match a.save with
          | some name => [RfcOut.file name fc.array]
          | none => []
        if a.plot then
          match rfcPlot w inp fc s with
          | some p => ⟨saved ++ [p], false⟩
          | none => ⟨saved, true⟩
        else ⟨saved, false⟩

end Verif
