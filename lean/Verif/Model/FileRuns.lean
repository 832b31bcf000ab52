import Verif.Model.Commands
import Mathlib.Logic.Relation
import Mathlib.Logic.Function.Basic

/-! # The files that a run of the command line program reads and writes (scripts/dynaphopy:193-411)

A disk is a map from names to contents. A program reads whole files and writes whole files; writing is not atomic: between the opening
of the file (which truncates it) and its closing the content on the disk is arbitrary, because the text is buffered and the process may
be killed. A killed process (or one ended by an exception, Ctrl-C, ...) simply makes no further steps.

Left out: `--run_lammps` (LAMMPS writes its own files), `--interactive`, the memory mapped temporary files of `--memmap`
(Model/Memmap), the screen. -/

set_option autoImplicit false

namespace Verif

/-- The files of a directory. -/
abbrev Disk (C : Type) := String → Option C

/-- A file gets a new content. -/
def Disk.put {C : Type} (d : Disk C) (n : String) (c : C) : Disk C := fun m => if m = n then some c else d m

/-- A process, as far as files are concerned: ends, reads a file (`none`: it does not exist), or opens a file for writing, writes it and
closes it (`open(name, 'w')`, `h5py.File(name, 'w')`, `np.savetxt`: dynaphopy/interface/iofile/__init__.py:525-534, 641-662, 747-788). -/
inductive FileProg (C : Type)
  | done
  | read (n : String) (k : Option C → FileProg C)
  | write (n : String) (c : C) (k : FileProg C)

/-- A process (`busy`: it has a file open for writing) and the disk. -/
structure FState (C : Type) where
  prog : FileProg C
  busy : Bool
  disk : Disk C

/-- One step. While a file is open for writing its content is anything (`g`). -/
inductive FStep {C : Type} : FState C → FState C → Prop
  | read (n k d) : FStep ⟨.read n k, false, d⟩ ⟨k (d n), false, d⟩
  | opens (n c k d g) : FStep ⟨.write n c k, false, d⟩ ⟨.write n c k, true, d.put n g⟩
  | more (n c k d g) : FStep ⟨.write n c k, true, d⟩ ⟨.write n c k, true, d.put n g⟩
  | closes (n c k d) : FStep ⟨.write n c k, true, d⟩ ⟨k, false, d.put n c⟩

/-- Several processes that share a disk; one of them makes a step (any scheduling; a process that makes no further step has ended or has
been killed). -/
inductive MStep {C ι : Type} [DecidableEq ι] : (ι → FileProg C × Bool) × Disk C → (ι → FileProg C × Bool) × Disk C → Prop
  | step (ps d i s') : FStep ⟨(ps i).1, (ps i).2, d⟩ s' → MStep (ps, d) (Function.update ps i (s'.prog, s'.busy), s'.disk)

/-- Files read one after the other; the program ends if one does not exist (dynaphopy/interface/iofile/__init__.py:150-152, 270-273,
542-544, 674-676; trajectory_parsers.py:21-23: a message and `exit()`). -/
def readAll {C : Type} : List String → (List C → FileProg C) → FileProg C
  | [], k => k []
  | n :: ns, k => .read n fun
    | none => .done
    | some c => readAll ns fun cs => k (c :: cs)

/-- Files written one after the other. -/
def writeAll {C : Type} : List (String × C) → FileProg C
  | [] => .done
  | w :: ws => .write w.1 w.2 (writeAll ws)

/-- Where the trajectory comes from, or the other uses of the program (scripts/dynaphopy:18-24, 142-152: a group of exclusive options). -/
inductive CliSource
  /-- `trajectory` or `-lv file` -/
  | file (n : String)
  /-- `--generate_trajectory` -/
  | generated
  /-- `-c_poscar file`, `-c_lammps file`: only writes a structure -/
  | create (n : String)

/-- The file names of the command line (scripts/dynaphopy:12-186); those of `CliOptions` are used if the option is given. -/
structure CliFiles where
  input : String
  source : CliSource
  vcHdf5 : String := ""
  vq : String := ""
  vc : String := ""
  forceConstants : String := ""
  bands : String := ""
  full : String := ""
  wave : String := ""
  phonon : String := ""
  partials : String := ""
  /-- `-sv` -/
  data : Option String := none
  /-- the file of `-sad` -/
  displacements : Option String := none
  /-- `--save_renormalized_frequencies` -/
  frequencies : Bool := false
  /-- `--qha_force_constants` -/
  qha : Option String := none

/-- What has been loaded from the files, and the texts of the results: `render` for the results of `CliTask`, `freqText` for the table of
renormalized frequencies (dynaphopy/__init__.py:1183), `dataText` for `-sv` (lines 104-116), `displacementText` for `-sad`
(lines 1078-1080), `createText` for `-c_poscar` and `-c_lammps` (dynaphopy/generate_cell.py). -/
structure CliLoaded (K V Q C : Type) where
  env : QEnv K V Q
  types : ℕ
  settings : QSettings K Q
  render : CliTask → CliResult K V Q → C
  freqText : List (ComEntry K V Q) → C
  dataText : C
  displacementText : C
  createText : C

/-- The readers: the names of the structure file and of the force constants or force sets in the input file
(scripts/dynaphopy:196-218), and what the contents of the files mean (`none`: the program ends). -/
structure CliLoader (K V Q C : Type) where
  structureFile : C → String
  forceFile : C → Option String
  load : List C → Option (CliLoaded K V Q C)

variable {K V Q C : Type}

/-- The files that are read after the input file (scripts/dynaphopy:196-219, 236-262, 311-312; `BORN`:
dynaphopy/interface/phonopy_link.py:163-167). Simplification: the QHA force constants and `BORN` are read with the others, before the
first file is written; `BORN` is read in fact in each phonopy calculation. -/
def CliFiles.names (f : CliFiles) (nac : Bool) (L : CliLoader K V Q C) (c : C) : List String :=
  [L.structureFile c] ++ (L.forceFile c).toList ++
  match f.source with
  | .create _ => []
  | .generated => f.qha.toList ++ (if nac then ["BORN"] else [])
  | .file n => [n] ++ f.qha.toList ++ (if nac then ["BORN"] else [])

/-- The file of a result (scripts/dynaphopy:334-404; the names of the quasiparticle and mesh data are the defaults of
dynaphopy/__init__.py:1243, 1249). -/
def CliFiles.ofTask (f : CliFiles) : CliTask → Option String
  | .saveVcHdf5 => some f.vcHdf5
  | .saveVq => some f.vq
  | .saveVc _ => some f.vc
  | .saveForceConstants => some f.forceConstants
  | .saveBands => some f.bands
  | .saveFull => some f.full
  | .saveWave => some f.wave
  | .savePhonon => some f.phonon
  | .saveQuasiparticles => some "quasiparticles_data.yaml"
  | .saveMesh => some "mesh_data.yaml"
  | .partials => some f.partials
  | .plotFull | .plotWave | .plotPhonon | .scan | .peaks | .thermal _ | .thermalFull _ => none

/-- The files written by calls one after the other: `get_commensurate_points_data` writes the table of renormalized frequencies when it
calculates the data (dynaphopy/__init__.py:1102-1183), and each call writes its own file after the calculation
(lines 118-126, 566-568, 683-694, 851-852, 1035-1052, 1239-1251). -/
def taskWrites [Field K] [LinearOrder K] [IsStrictOrderedRing K] [FloorRing K] [DecidableEq Q] (f : CliFiles) (x : CliLoaded K V Q C) :
    Quasi K V Q → List CliTask → List (String × C)
  | _, [] => []
  | o, t :: ts =>
    let r := runTask x.env o t
    (match o.com, r.1.com with
      | none, some c => if f.frequencies then [("renormalized_frequencies", x.freqText c)] else []
      | _, _ => []) ++
    (match f.ofTask t with
      | some n => [(n, x.render t r.2)]
      | none => []) ++ taskWrites f x r.1 ts

/-- The calls before and after `-sad` (scripts/dynaphopy:351-375 and 381-404). -/
def CliOptions.lateTasks1 (a : CliOptions K Q) : List CliTask :=
  (if a.saveForceConstants then [.saveForceConstants] else []) ++ (if a.saveBands then [.saveBands] else []) ++
  (if a.saveFull then [.saveFull] else []) ++ (if a.saveWave then [.saveWave] else []) ++ (if a.savePhonon then [.savePhonon] else []) ++
  (if a.plotFull then [.plotFull] else []) ++ (if a.plotWave then [.plotWave] else []) ++ (if a.plotPhonon then [.plotPhonon] else [])

/-- See `lateTasks1` (scripts/dynaphopy:381-404). -/
def CliOptions.lateTasks2 (a : CliOptions K Q) : List CliTask :=
  (if a.saveQuasiparticles then [.saveQuasiparticles] else []) ++ (if a.saveMesh then [.saveMesh] else []) ++
  (if a.scan then [.scan] else []) ++ (if a.peaks then [.peaks] else []) ++
  (if a.thermal then [.thermal a.thermalReference] else []) ++ (if a.thermalFull then [.thermalFull a.thermalReference] else []) ++
  (if a.partials then [.partials] else [])

/-- The files written by the program once everything is loaded (scripts/dynaphopy:224-234, 297-404), in their order. -/
def cliWrites [Field K] [LinearOrder K] [IsStrictOrderedRing K] [FloorRing K] [DecidableEq Q] (f : CliFiles) (a : CliOptions K Q)
    (x : CliLoaded K V Q C) : List (String × C) :=
  match f.source with
  | .create n => [(n, x.createText)]
  | _ => match (cliSetup x.types a x.settings : Option (Quasi K V Q)) with
    | none => []
    | some o =>
      let r := runTasks x.env o a.earlyTasks
      let o1 := match a.limits with
        | none => r.1
        | some (u, v) => r.1.setLimits u v
      let r1 := runTasks x.env o1 a.lateTasks1
      taskWrites f x o a.earlyTasks ++ (f.data.toList.map fun n => (n, x.dataText)) ++ taskWrites f x o1 a.lateTasks1 ++
      (f.displacements.toList.map fun n => (n, x.displacementText)) ++ taskWrites f x r1.1 a.lateTasks2

/-- The program (scripts/dynaphopy:193-411). -/
def cliProgram [Field K] [LinearOrder K] [IsStrictOrderedRing K] [FloorRing K] [DecidableEq Q] (L : CliLoader K V Q C) (f : CliFiles)
    (a : CliOptions K Q) : FileProg C :=
  .read f.input fun
  | none => .done
  | some c => readAll (f.names a.nac L c) fun cs =>
    match L.load (c :: cs) with
    | none => .done
    | some x => writeAll (cliWrites f a x)

end Verif
