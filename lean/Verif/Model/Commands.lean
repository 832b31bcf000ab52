import Verif.Model.Quasi

/-! # The command line program (scripts/dynaphopy:297-410) on a trajectory that has been read

The options that set parameters, the order in which they are applied, and the results that are written, printed or drawn. The options
that only use the trajectory (`-sv`, `-pad`, `-sad`, `-adp`, `-average`) are left out; so are the temperature, the QHA force constants,
the progress bars and the interactive mode (Model/Interactive). The numerical routines are those of `QEnv`. -/

set_option autoImplicit false

namespace Verif

/-- The options (scripts/dynaphopy:12-186). `none`/`false`: not given. -/
structure CliOptions (K Q : Type*) where
  nac : Bool := false
  fit : ℕ := 0
  project : Option ℤ := none
  noSymmetry : Bool := false
  resolution : Option K := none
  q : Option Q := none
  algorithm : Option ℕ := none
  mem : Option ℕ := none
  saveVcHdf5 : Bool := false
  saveVq : Bool := false
  saveVc : Option ℕ := none
  limits : Option (K × K) := none
  saveForceConstants : Bool := false
  saveBands : Bool := false
  saveFull : Bool := false
  saveWave : Bool := false
  savePhonon : Bool := false
  plotFull : Bool := false
  plotWave : Bool := false
  plotPhonon : Bool := false
  saveQuasiparticles : Bool := false
  saveMesh : Bool := false
  scan : Bool := false
  peaks : Bool := false
  thermal : Bool := false
  thermalFull : Bool := false
  thermalReference : Bool := false
  partials : Bool := false

/-- The calls that make results (scripts/dynaphopy:334-404). -/
inductive CliTask
  | saveVcHdf5 | saveVq | saveVc (atom : ℕ)
  | saveForceConstants | saveBands | saveFull | saveWave | savePhonon | plotFull | plotWave | plotPhonon
  | saveQuasiparticles | saveMesh | scan | peaks | thermal (reference : Bool) | thermalFull (reference : Bool) | partials
  deriving DecidableEq

/-- What a result consists of: the arguments of the routines that write, print or draw it, as far as they depend on the calculation. -/
inductive CliResult (K V Q : Type*)
  /-- projected velocity and its wave vector (`save_vc_hdf5`, dynaphopy/__init__.py:118-126) -/
  | vcHdf5 (v : V) (q : Q)
  /-- `save_vq` (lines 690-694) -/
  | vq (v : V)
  /-- `save_vc` (lines 683-688) -/
  | vc (v : V) (atom : ℕ)
  /-- force constants, mesh and quasiparticle data: functions of the commensurate-point data (lines 1197-1251) -/
  | renormalized (c : List (ComEntry K V Q))
  /-- renormalized bands: commensurate-point data, path, NAC (lines 396-531) -/
  | bands (c : List (ComEntry K V Q)) (path : List (Q × Q)) (nac : Bool)
  /-- a curve: frequencies and power spectrum (lines 875-941, 1035-1052) -/
  | curve (range : List K) (p : V)
  /-- the plot of the full power spectrum: also limits of the density of states, and whether there is a renormalized one (lines 875-919) -/
  | fullPlot (range : List K) (p : V) (renormalized : Option (List (ComEntry K V Q)))
  /-- projected velocity and frequencies (lines 856-859) -/
  | scan (v : V) (range : List K)
  /-- the arguments of `phonon_fitting_analysis` (lines 861-873) -/
  | peaks (p : V) (range : List K) (harmonic : List K) (q : Q) (fit : ℕ) (sym : Bool)
  /-- thermal properties: highest frequency of the harmonic density of states, commensurate-point data, frequencies of the rest,
  and the full power spectrum (lines 1302-1382) -/
  | thermal (harmonicTop : Option K) (c : List (ComEntry K V Q)) (range : List K) (p : Option V)
  /-- power spectrum partials (lines 833-854) -/
  | partials (range : List K) (p : V)

/-- The calls before the frequency limits are set (scripts/dynaphopy:334-341), in their order. -/
def CliOptions.earlyTasks {K Q : Type*} (a : CliOptions K Q) : List CliTask :=
  (if a.saveVcHdf5 then [.saveVcHdf5] else []) ++ (if a.saveVq then [.saveVq] else []) ++
  (match a.saveVc with | some n => [.saveVc n] | none => [])

/-- The calls after that (scripts/dynaphopy:351-404), in their order. -/
def CliOptions.lateTasks {K Q : Type*} (a : CliOptions K Q) : List CliTask :=
  (if a.saveForceConstants then [.saveForceConstants] else []) ++ (if a.saveBands then [.saveBands] else []) ++
  (if a.saveFull then [.saveFull] else []) ++ (if a.saveWave then [.saveWave] else []) ++ (if a.savePhonon then [.savePhonon] else []) ++
  (if a.plotFull then [.plotFull] else []) ++ (if a.plotWave then [.plotWave] else []) ++ (if a.plotPhonon then [.plotPhonon] else []) ++
  (if a.saveQuasiparticles then [.saveQuasiparticles] else []) ++ (if a.saveMesh then [.saveMesh] else []) ++
  (if a.scan then [.scan] else []) ++ (if a.peaks then [.peaks] else []) ++
  (if a.thermal then [.thermal a.thermalReference] else []) ++ (if a.thermalFull then [.thermalFull a.thermalReference] else []) ++
  (if a.partials then [.partials] else [])

variable {K V Q : Type*} [Field K] [LinearOrder K] [IsStrictOrderedRing K] [FloorRing K]

/-- `--project_atom` (scripts/dynaphopy:314-315; dynaphopy/__init__.py:132-137: an atom type that does not exist ends the program). -/
def cliProject (types : ℕ) (a : CliOptions K Q) (o : Quasi K V Q) : Option (Quasi K V Q) :=
  match a.project with
  | none => some o
  | some t => if 0 ≤ t ∧ t < types then some (o.setProj t.toNat) else none

/-- `--resolution` (scripts/dynaphopy:321-322). -/
def cliResolution (a : CliOptions K Q) (o : Quasi K V Q) : Option (Quasi K V Q) :=
  match a.resolution with
  | none => some o
  | some r => o.setResolution r

/-- `-q` (scripts/dynaphopy:324-325). -/
def cliWaveVector [DecidableEq Q] (a : CliOptions K Q) (o : Quasi K V Q) : Quasi K V Q :=
  match a.q with
  | none => o
  | some q => o.setQ q

/-- `-psm` (scripts/dynaphopy:327-328). -/
def cliAlgorithm (a : CliOptions K Q) (o : Quasi K V Q) : Option (Quasi K V Q) :=
  match a.algorithm with
  | none => some o
  | some n => o.setAlg n

/-- The options that set parameters, up to the frequency limits (scripts/dynaphopy:300-331); `none`: the program ends. `types` is the
number of atoms of the primitive cell. `use_NAC`, `use_symmetry` and the number of MEM coefficients are set directly, without
clearing caches. -/
def cliSetup [DecidableEq Q] (types : ℕ) (a : CliOptions K Q) (s : QSettings K Q) : Option (Quasi K V Q) :=
  ((Quasi.fresh { s with nac := a.nac } : Quasi K V Q).setFit a.fit).bind fun o =>
  (cliProject types a o).bind fun o =>
  (cliResolution a (if a.noSymmetry then { o with s := { o.s with sym := false } } else o)).bind fun o =>
  (cliAlgorithm a (cliWaveVector a o)).map fun o =>
  match a.mem with
    | none => o
    | some n => { o with s := { o.s with memCoef := n } }

/-- One of the calls (scripts/dynaphopy:334-404; dynaphopy/__init__.py as in `CliResult`). In `display_thermal_properties` the harmonic
density of states comes before the renormalized force constants, unless the phonopy reference is asked for (lines 1308-1333). -/
def runTask [DecidableEq Q] (env : QEnv K V Q) (o : Quasi K V Q) : CliTask → Quasi K V Q × CliResult K V Q
  | .saveVcHdf5 => let r := o.getVc env; (r.1, .vcHdf5 r.2 r.1.s.q)
  | .saveVq => let r := o.getVq env; (r.1, .vq r.2)
  | .saveVc n => let r := o.getVc env; (r.1, .vc r.2 n)
  | .saveForceConstants => let r := o.getCom env; (r.1, .renormalized r.2)
  | .saveBands =>
    let r := o.getCom env
    let path := r.1.s.bandRanges.getD env.seekPath
    ({ r.1 with s := { r.1.s with bandRanges := some path } }, .bands r.2 path r.1.s.nac)
  | .saveFull => let range := o.s.freq.range; let r := o.getFull env (-1); (r.1, .curve range r.2)
  | .saveWave => let range := o.s.freq.range; let r := o.getWave env; (r.1, .curve range r.2)
  | .savePhonon => let range := o.s.freq.range; let r := o.getPhonon env; (r.1, .curve range r.2)
  | .plotFull => let range := o.s.freq.range; let r := o.getFull env (-1); (r.1, .fullPlot range r.2 r.1.com)
  | .plotWave => let range := o.s.freq.range; let r := o.getWave env; (r.1, .curve range r.2)
  | .plotPhonon => let range := o.s.freq.range; let r := o.getPhonon env; (r.1, .curve range r.2)
  | .saveQuasiparticles => let r := o.getCom env; (r.1, .renormalized r.2)
  | .saveMesh => let r := o.getCom env; (r.1, .renormalized r.2)
  | .scan => let r := o.getVq env; (r.1, .scan r.2 r.1.s.freq.range)
  | .peaks =>
    let r := o.getPhonon env
    let r2 := r.1.getFrq env
    (r2.1, .peaks r.2 r.1.s.freq.range r2.2 r2.1.s.q r2.1.s.fitFn r2.1.s.sym)
  | .thermal reference =>
    let r := o.getCom env
    let top := if reference then r.1.s.freq.range.getLast? else o.s.freq.range.getLast?
    (r.1, .thermal top r.2 r.1.s.freq.range none)
  | .thermalFull reference =>
    let r := o.getCom env
    let top := if reference then r.1.s.freq.range.getLast? else o.s.freq.range.getLast?
    let r2 := r.1.getFull env (-1)
    (r2.1, .thermal top r.2 r.1.s.freq.range (some r2.2))
  | .partials => let r := o.getPartials env; (r.1, .partials r.1.s.freq.range r.2)

/-- Calls one after the other (scripts/dynaphopy:334-404). -/
def runTasks [DecidableEq Q] (env : QEnv K V Q) : Quasi K V Q → List CliTask → Quasi K V Q × List (CliTask × CliResult K V Q)
  | o, [] => (o, [])
  | o, t :: ts =>
    let r := runTask env o t
    let rest := runTasks env r.1 ts
    (rest.1, (t, r.2) :: rest.2)

/-- The program from the settings of the input file to the results (scripts/dynaphopy:297-404). -/
def cliRun [DecidableEq Q] (env : QEnv K V Q) (types : ℕ) (a : CliOptions K Q) (s : QSettings K Q) : Option (List (CliTask × CliResult K V Q)) :=
  (cliSetup (V := V) types a s).map fun o =>
    let r := runTasks env o a.earlyTasks
    let o := match a.limits with
      | none => r.1
      | some (x, y) => r.1.setLimits x y
    r.2 ++ (runTasks env o a.lateTasks).2

end Verif
