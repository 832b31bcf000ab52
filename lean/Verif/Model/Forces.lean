import Mathlib.Data.Matrix.Basic
import Mathlib.Data.Rat.Defs
import Mathlib.Algebra.Order.Field.Rat
import Mathlib.Data.Rat.Floor
import Mathlib.Algebra.BigOperators.Fin
import Mathlib.Data.Fin.VecNotation

/-! # Forces of a structure and phonopy objects made from them

dynaphopy/atoms.py:95-103, 170-196, dynaphopy/interface/phonopy_link.py:57-83, 130-169, 201-267 and
dynaphopy/__init__.py:1446-1460. phonopy is not modelled: the force constants it produces from a data set are given by
`produce`, and its densities of states / thermal properties are arguments. -/

set_option autoImplicit false

namespace Verif

/-- 3×3 integer supercell matrix (the `supercell` of phonopy_link.py:57-83). -/
abbrev SMat := Matrix (Fin 3) (Fin 3) ℤ

/-- `ForceConstants` (phonopy_link.py:57-69). -/
structure FConst (A : Type) where
  array : A
  supercell : SMat

/-- `ForceSets` (phonopy_link.py:72-83); `natom` is the entry of the dictionary that atoms.py:189 reads, `data` the
rest of it. -/
structure FSets (D : Type) where
  natom : ℤ
  data : D
  supercell : SMat

/-- The part of `Structure` that concerns forces: `_force_constants`, `_force_sets` and the number of atoms
(atoms.py:36-37, 170-196). -/
structure ForceState (A D : Type) where
  natoms : ℤ
  fc : Option (FConst A) := none
  fs : Option (FSets D) := none

/-- What `get_phonon` gives to phonopy (phonopy_link.py:146-160): the supercell matrix and the force constants. -/
structure PhononObj (A : Type) where
  supercell : SMat
  forces : Option A

variable {A D : Type}

/-- `set_force_constants` (atoms.py:177-178). -/
def ForceState.setFC (s : ForceState A D) (x : FConst A) : ForceState A D := { s with fc := some x }

/-- `set_force_set` (atoms.py:183-184). -/
def ForceState.setFS (s : ForceState A D) (x : FSets D) : ForceState A D := { s with fs := some x }

/-- `get_force_sets` (atoms.py:186-196); the outer `none` is `exit()`. -/
def ForceState.getFS (s : ForceState A D) : Option (Option (FSets D)) :=
  match s.fs with
  | none => some none
  | some x =>
    if x.natom ≠ (x.supercell 0 0 * x.supercell 1 1 * x.supercell 2 2) * s.natoms then none else some (some x)

/-- `forces_available` (atoms.py:171-175). -/
def ForceState.available (s : ForceState A D) : Option Bool :=
  match s.fc with
  | some _ => some true
  | none => s.getFS.map Option.isSome

/-- `get_supercell_phonon` (atoms.py:95-103). -/
def ForceState.supercellPhonon (s : ForceState A D) : Option SMat :=
  match s.fc with
  | some x => some x.supercell
  | none => s.getFS.map fun o => match o with
    | some x => x.supercell
    | none => 1

/-- `get_phonon` (phonopy_link.py:130-169) without the non-analytical correction. `none` is `exit()`. The state is the
structure afterwards: force constants produced from force sets are stored in it (lines 157-158). -/
def ForceState.getPhonon (produce : D → SMat → A) (s : ForceState A D) (setup : Bool) (custom : Option SMat) :
    Option (PhononObj A × ForceState A D) := do
  let sc ← match custom with
    | none => s.supercellPhonon
    | some c => some c
  if setup then
    match s.fc with
    | some x => some (⟨sc, some x.array⟩, s)
    | none =>
      match ← s.getFS with
      | some x =>
        let a := produce x.data sc
        some (⟨sc, some a⟩, s.setFC ⟨a, x.supercell⟩)
      | none => none
  else some (⟨sc, none⟩, s)

/-- The first lines of `obtain_phonopy_dos`, `obtain_phonopy_thermal_properties`, `obtain_phonopy_group_velocity`,
`obtain_phonon_dispersion_bands` (phonopy_link.py:204-214, 241-251, 272-282, 304-312): with force constants as argument these are used, else those of the structure. -/
def ForceState.phononFor (produce : D → SMat → A) (s : ForceState A D) (fc : Option (FConst A)) :
    Option (PhononObj A × ForceState A D) :=
  match fc with
  | none => s.getPhonon produce true none
  | some x => (s.getPhonon produce false (some x.supercell)).map fun r => ({ r.1 with forces := some x.array }, r.2)

/-- What a user can do with the forces of a structure. -/
inductive ForceOp (A D : Type) where
  | setFC (x : FConst A)
  | setFS (x : FSets D)
  | phonon (fc : Option (FConst A))

/-- One operation (atoms.py:177-184, phonopy_link.py:130-169); a call that ends in `exit()` leaves the structure as it is. -/
def ForceState.step (produce : D → SMat → A) (s : ForceState A D) : ForceOp A D → ForceState A D
  | .setFC x => s.setFC x
  | .setFS x => s.setFS x
  | .phonon fc => match s.phononFor produce fc with
    | some r => r.2
    | none => s

/-- A history of operations on a new structure (`Structure.__init__`, atoms.py:36-37: no forces). -/
def ForceState.run (produce : D → SMat → A) (natoms : ℤ) (h : List (ForceOp A D)) : ForceState A D :=
  h.foldl (ForceState.step produce) { natoms := natoms }

/-- `get_qha_shift` (dynaphopy/__init__.py:1450-1460). `copy.copy` is shallow, but only the attribute `_force_constants`
of the copy is replaced. `freq` is phonopy's `get_frequencies_with_eigenvectors`, `own` the frequencies of
`self.get_frequencies()`. The result also has the (unchanged) structure. -/
def qhaShift {K Q : Type} [Sub K] (produce : D → SMat → A) (freq : PhononObj A → Q → List K) (s : ForceState A D)
    (qha : Option (FConst A)) (own : List K) (q : Q) : Option (Option (List K) × ForceState A D) :=
  match qha with
  | none => some (none, s)
  | some x => do
    let r ← (s.setFC x).getPhonon produce true none
    some (some (List.zipWith (· - ·) (freq r.1 q) own), s)

/-! ## Densities of states and thermal properties from phonopy -/

/-- `obtain_phonopy_dos` after phonopy's calculation (phonopy_link.py:216-237): `freqs`, `total` and the rows of
`projected` are phonopy's results. `none` is `exit()`. -/
def phonopyDos {K : Type*} [Field K] (natoms nprim : ℕ) (freqs total : List K) (freqsP : List K) (projected : List (List K))
    (onAtom : ℤ) : Option (List K × List K) :=
  let factor : K := (natoms : K) / (nprim : K)
  if onAtom < 0 then some (freqs, total.map fun x => x * factor)
  else if onAtom.toNat ≥ projected.length then none
  else some (freqsP, (projected.getD onAtom.toNat []).map fun x => x * factor)

/-- The temperatures of `run_thermal_properties(t_step, t_min, t_max)` (called in phonopy_link.py:254;
phonopy: `np.arange(t_min, t_max + t_step / 2.0, t_step)`). -/
def phonopyTemps {K : Type*} [Field K] [LinearOrder K] [FloorRing K] (step lo hi : K) : List K :=
  (List.range (⌈(hi + step / 2 - lo) / step⌉.toNat)).map fun (i : ℕ) => lo + (i : K) * step

/-- `obtain_phonopy_thermal_properties` (phonopy_link.py:253-267): `props T` are phonopy's free energy, entropy and heat
capacity at one temperature. -/
def phonopyThermal {K : Type*} [Field K] [LinearOrder K] [FloorRing K] (natoms nprim : ℕ) (props : K → K × K × K) (T : K) : K × K × K :=
  let temps := phonopyTemps 1 T T
  let relation : K := (natoms : K) / (nprim : K)
  (((temps.map fun t => (props t).1).sum) * relation, ((temps.map fun t => (props t).2.1).sum) * relation,
    ((temps.map fun t => (props t).2.2).sum) * relation)

end Verif
