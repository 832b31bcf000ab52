import Verif.Model.Settings

/-! # The Quasiparticle object: settings, caches, getters (dynaphopy/__init__.py:22-187, 626-854, 1100-1211)

The numerical routines are parameters (`QEnv`); the model is about which of them are called with which settings, and about
what is kept in the caches. The trajectory and the structure do not change. Simplifications: the wave vectors all have the
same number of components; the constructor argument `vc` is None; printing and plotting are left out. -/

set_option autoImplicit false

namespace Verif

/-- The numerical routines. `K` numbers, `V` arrays, `Q` wave vectors (dynaphopy/__init__.py:172-1211). -/
structure QEnv (K V Q : Type*) where
  /-- `obtain_eigenvectors_and_frequencies(structure, q)` (dynaphopy/__init__.py:175-177). -/
  eig : Q → V
  frq : Q → List K
  /-- `project_onto_wave_vector(dynamic, q, project_on_atom)` (line 637). -/
  proj : Q → ℤ → V
  /-- `project_onto_phonon(vc, eigenvectors)` (line 645). -/
  phon : V → V → V
  /-- `power_spectrum_functions[algorithm][0](data, dynamic, parameters)`: algorithm, coefficients, frequency range, data. -/
  spec : ℕ → ℕ → List K → V → V
  /-- `vc.swapaxes(1, 2).reshape(-1, size)` (line 764). -/
  flat : V → V
  /-- `np.average(..., axis=0)` (lines 739, 770). -/
  avg : List V → V
  /-- `np.nansum(..., axis=1)` and `np.sum(..., axis=1)` (lines 779, 830). -/
  sumCols : V → V
  /-- mass weighted velocity of the selected atom type and coordinate (lines 790-811), and all of it (line 838). -/
  vel : ℤ → ℤ → V
  /-- spectra of the three directions added (lines 840-849). -/
  partials : (V → V) → V
  /-- `get_equivalent_q_points_by_symmetry(q, structure)` (line 728). -/
  equiv : Q → List Q
  /-- `phonon_fitting_analysis(power spectra, frequency range, harmonic frequencies, shift at q, function, degeneracy)`:
  positions and widths (lines 1153-1162). -/
  fit : V → List K → List K → Q → ℕ → Bool → List K × List K
  /-- the Gamma point (line 1163). -/
  gamma : Q → Bool
  /-- `np.max(phonopy_dos[0][-1]) * 1.2` (line 1109). -/
  dosLimit : K
  /-- `get_commensurate_points(structure, fc_supercell)` (lines 1119-1120). -/
  points : List Q
  /-- `structure.get_path_using_seek_path()` (line 200). -/
  seekPath : List (Q × Q)
  /-- `obtain_phonon_dispersion_bands(structure, band_ranges, NAC)` (line 210). -/
  bands : List (Q × Q) → Bool → V

/-- The settings of `Parameters` that the getters below read (dynaphopy/parameters.py). -/
structure QSettings (K Q : Type*) where
  q : Q
  alg : ℕ
  memCoef : ℕ
  freq : FreqSettings K
  fitFn : ℕ
  projAtom : ℤ
  sym : Bool
  nac : Bool
  bandRanges : Option (List (Q × Q))

/-- One entry of the commensurate-point data (dynaphopy/__init__.py:1124-1174): q-point, eigenvectors, positions, widths,
frequency shifts. -/
structure ComEntry (K V Q : Type*) where
  q : Q
  eig : V
  freqs : List K
  widths : List K
  shifts : List K

/-- The object (dynaphopy/__init__.py:28-43): settings and caches. -/
structure Quasi (K V Q : Type*) where
  s : QSettings K Q
  eig : Option V := none
  frq : Option (List K) := none
  vc : Option V := none
  vq : Option V := none
  psPhonon : Option V := none
  psWave : Option V := none
  psFull : Option V := none
  psPartials : Option V := none
  com : Option (List (ComEntry K V Q)) := none
  bands : Option V := none

variable {K V Q : Type*}

/-- `full_clear` (dynaphopy/__init__.py:58-65). -/
def Quasi.fullClear (o : Quasi K V Q) : Quasi K V Q :=
  { o with eig := none, frq := none, vc := none, vq := none, psFull := none, psWave := none, psPhonon := none }

/-- `bands_clear` (dynaphopy/__init__.py:78-80). -/
def Quasi.bandsClear (o : Quasi K V Q) : Quasi K V Q := { o with bands := none }

/-- `force_constants_clear` (dynaphopy/__init__.py:73-76); the renormalized force constants are a function of the
commensurate-point data and are cleared with them. -/
def Quasi.forceConstantsClear (o : Quasi K V Q) : Quasi K V Q := ({ o with com := none }).bandsClear

/-- `set_NAC` (dynaphopy/__init__.py:91-99). -/
def Quasi.setNAC (o : Quasi K V Q) (b : Bool) : Quasi K V Q :=
  let o := { o with bands := none }
  { o with s := { o.s with nac := b } }

/-- `set_band_ranges` (dynaphopy/__init__.py:188-195); the labels are not modelled. -/
def Quasi.setBandRanges (o : Quasi K V Q) (r : List (Q × Q)) : Quasi K V Q :=
  let o := o.bandsClear
  { o with s := { o.s with bandRanges := some r } }

/-- The bands of `plot_phonon_dispersion_bands` (dynaphopy/__init__.py:197-212): missing band ranges are filled in. -/
def Quasi.getBands (env : QEnv K V Q) (o : Quasi K V Q) : Quasi K V Q × V :=
  let ranges := o.s.bandRanges.getD env.seekPath
  let o := { o with s := { o.s with bandRanges := some ranges } }
  match o.bands with
  | some v => (o, v)
  | none => let v := env.bands ranges o.s.nac; ({ o with bands := some v }, v)

/-- `power_spectra_clear` (dynaphopy/__init__.py:67-71). -/
def Quasi.powerSpectraClear (o : Quasi K V Q) : Quasi K V Q :=
  ({ o with psPhonon := none, psWave := none, psFull := none }).forceConstantsClear

/-- `set_reduced_q_vector` (dynaphopy/__init__.py:157-162). -/
def Quasi.setQ [DecidableEq Q] (o : Quasi K V Q) (q : Q) : Quasi K V Q :=
  let o := if q ≠ o.s.q then o.fullClear else o
  { o with s := { o.s with q := q } }

/-- `select_power_spectra_algorithm` (dynaphopy/__init__.py:697-707), for one of the six algorithms; other numbers exit. -/
def Quasi.setAlg (o : Quasi K V Q) (n : ℕ) : Option (Quasi K V Q) :=
  if n < 6 then
    if n ≠ o.s.alg then some { o.powerSpectraClear with s := { o.s with alg := n } } else some o
  else none

/-- `set_number_of_mem_coefficients` (dynaphopy/__init__.py:128-130). -/
def Quasi.setMem (o : Quasi K V Q) (n : ℕ) : Quasi K V Q :=
  { o.powerSpectraClear with s := { o.s with memCoef := n } }

/-- `select_fitting_function` (dynaphopy/__init__.py:709-719), one of the three functions; other numbers exit. -/
def Quasi.setFit (o : Quasi K V Q) (n : ℕ) : Option (Quasi K V Q) :=
  if n < 3 then
    if n ≠ o.s.fitFn then some { o.forceConstantsClear with s := { o.s with fitFn := n } } else some o
  else none

/-- `set_projection_onto_atom_type` (dynaphopy/__init__.py:132-137) with an existing type: no cache is cleared. -/
def Quasi.setProj (o : Quasi K V Q) (t : ℕ) : Quasi K V Q := { o with s := { o.s with projAtom := t } }

/-- Storing the outcome of a change of the frequency range (dynaphopy/__init__.py:140-142). -/
def Quasi.withFreq (o : Quasi K V Q) (f : FreqSettings K × Bool) : Quasi K V Q :=
  let o := if f.2 then o.powerSpectraClear else o
  { o with s := { o.s with freq := f.1 } }

variable [Field K] [LinearOrder K] [IsStrictOrderedRing K] [FloorRing K]

/-- `set_frequency_limits` (dynaphopy/__init__.py:149-151). -/
def Quasi.setLimits (o : Quasi K V Q) (a b : K) : Quasi K V Q := o.withFreq (o.s.freq.setLimits a b)

/-- `set_spectra_resolution` (dynaphopy/__init__.py:144-147). -/
def Quasi.setResolution (o : Quasi K V Q) (r : K) : Option (Quasi K V Q) := (o.s.freq.setResolution r).map o.withFreq

/-- `get_eigenvectors` (dynaphopy/__init__.py:172-178). -/
def Quasi.getEig (env : QEnv K V Q) (o : Quasi K V Q) : Quasi K V Q × V :=
  match o.eig with
  | some e => (o, e)
  | none => ({ o with eig := some (env.eig o.s.q), frq := some (env.frq o.s.q) }, env.eig o.s.q)

/-- `get_frequencies` (dynaphopy/__init__.py:180-186). -/
def Quasi.getFrq (env : QEnv K V Q) (o : Quasi K V Q) : Quasi K V Q × List K :=
  match o.frq with
  | some f => (o, f)
  | none => ({ o with eig := some (env.eig o.s.q), frq := some (env.frq o.s.q) }, env.frq o.s.q)

/-- `get_vc` (dynaphopy/__init__.py:626-640). -/
def Quasi.getVc (env : QEnv K V Q) (o : Quasi K V Q) : Quasi K V Q × V :=
  match o.vc with
  | some v => (o, v)
  | none => let v := env.proj o.s.q o.s.projAtom; ({ o with vc := some v }, v)

/-- `get_vq` (dynaphopy/__init__.py:642-646). -/
def Quasi.getVq (env : QEnv K V Q) (o : Quasi K V Q) : Quasi K V Q × V :=
  match o.vq with
  | some v => (o, v)
  | none =>
    let r1 := o.getVc env
    let r2 := r1.1.getEig env
    let v := env.phon r1.2 r2.2
    ({ r2.1 with vq := some v }, v)

/-- `power_spectrum_functions[algorithm][0](data, self.dynamic, self.parameters)`
(dynaphopy/__init__.py:734, 742, 762, 774, 819, 825, 840). -/
def Quasi.spectrum (env : QEnv K V Q) (o : Quasi K V Q) (data : V) : V :=
  env.spec o.s.alg o.s.memCoef o.s.freq.range data

/-- One pass of the loop over the equivalent q-points in `get_power_spectrum_phonon` (dynaphopy/__init__.py:731-736). -/
def Quasi.phononStep [DecidableEq Q] (env : QEnv K V Q) (r : Quasi K V Q × List V) (q : Q) : Quasi K V Q × List V :=
  let r1 := (r.1.setQ q).getVq env
  (r1.1, r.2 ++ [r1.1.spectrum env r1.2])

/-- `get_power_spectrum_phonon` (dynaphopy/__init__.py:721-746). -/
def Quasi.getPhonon [DecidableEq Q] (env : QEnv K V Q) (o : Quasi K V Q) : Quasi K V Q × V :=
  match o.psPhonon with
  | some p => (o, p)
  | none =>
    if o.s.sym then
      let q0 := o.s.q
      let r := (env.equiv q0).foldl (Quasi.phononStep env) (o, [])
      let p := env.avg r.2
      ({ r.1.setQ q0 with psPhonon := some p }, p)
    else
      let r := o.getVq env
      let p := r.1.spectrum env r.2
      ({ r.1 with psPhonon := some p }, p)

/-- One pass of the loop in `get_power_spectrum_wave_vector` (dynaphopy/__init__.py:759-766). -/
def Quasi.waveStep [DecidableEq Q] (env : QEnv K V Q) (r : Quasi K V Q × List V) (q : Q) : Quasi K V Q × List V :=
  let r1 := (r.1.setQ q).getVc env
  (r1.1, r.2 ++ [r1.1.spectrum env (env.flat r1.2)])

/-- `get_power_spectrum_wave_vector` (dynaphopy/__init__.py:748-779). -/
def Quasi.getWave [DecidableEq Q] (env : QEnv K V Q) (o : Quasi K V Q) : Quasi K V Q × V :=
  match o.psWave with
  | some p => (o, env.sumCols p)
  | none =>
    let r0 := o.getVc env
    if o.s.sym then
      let q0 := r0.1.s.q
      let r := (env.equiv q0).foldl (Quasi.waveStep env) (r0.1, [])
      let p := env.avg r.2
      ({ r.1.setQ q0 with psWave := some p }, env.sumCols p)
    else
      let r := r0.1.getVc env
      let p := r.1.spectrum env (env.flat r.2)
      ({ r.1 with psWave := some p }, env.sumCols p)

/-- `get_power_spectrum_full` (dynaphopy/__init__.py:781-831); silent and non-silent mode give the same, see C32. -/
def Quasi.getFull (env : QEnv K V Q) (o : Quasi K V Q) (coordinate : ℤ) : Quasi K V Q × V :=
  match o.psFull with
  | some p => (o, p)
  | none =>
    let p := env.sumCols (o.spectrum env (env.vel o.s.projAtom coordinate))
    ({ o with psFull := some p }, p)

/-- `get_power_spectrum_partials` (dynaphopy/__init__.py:833-854). -/
def Quasi.getPartials (env : QEnv K V Q) (o : Quasi K V Q) : Quasi K V Q × V :=
  match o.psPartials with
  | some p => (o, p)
  | none =>
    let p := env.partials (o.spectrum env)
    ({ o with psPartials := some p }, p)

/-- `_vector_in_list` (dynaphopy/__init__.py:1464-1469): 0 also when there is none. -/
def vectorInList [DecidableEq Q] (test full : List Q) : ℕ :=
  match test with
  | [] => 0
  | t :: ts => if t ∈ full then full.idxOf t else vectorInList ts full

/-- `positions[0] = positions[1] = positions[2] = 0.` (dynaphopy/__init__.py:1165-1170). -/
def zeroAcoustic (l : List K) : List K := ((l.set 0 0).set 1 0).set 2 0

/-- One pass of the loop over the commensurate points (dynaphopy/__init__.py:1130-1174). -/
def Quasi.comStep [DecidableEq Q] (env : QEnv K V Q) (r : Quasi K V Q × List (ComEntry K V Q)) (q : Q) :
    Quasi K V Q × List (ComEntry K V Q) :=
  let o1 := r.1.setQ q
  let r2 := o1.getEig env
  let qIndex := vectorInList (env.equiv q) (r.2.map (·.q))
  if h : qIndex ≠ 0 ∧ r2.1.s.sym = true ∧ qIndex < r.2.length then
    let old := r.2[qIndex]
    (r2.1, r.2 ++ [{ q := q, eig := r2.2, freqs := old.freqs, widths := old.widths, shifts := old.shifts }])
  else
    let o3 := r2.1.setQ q
    let r4 := o3.getPhonon env
    let r5 := r4.1.getFrq env
    let d := env.fit r4.2 r5.1.s.freq.range r5.2 q r5.1.s.fitFn r5.1.s.sym
    let pos := if env.gamma q then zeroAcoustic d.1 else d.1
    let wid := if env.gamma q then zeroAcoustic d.2 else d.2
    let r6 := r5.1.getFrq env
    (r6.1, r.2 ++ [{ q := q, eig := r2.2, freqs := pos, widths := wid, shifts := List.zipWith (· - ·) pos r6.2 }])

/-- `get_commensurate_points_data()` with `auto_range=True` (dynaphopy/__init__.py:1100-1195). -/
def Quasi.getCom [DecidableEq Q] (env : QEnv K V Q) (o : Quasi K V Q) : Quasi K V Q × List (ComEntry K V Q) :=
  match o.com with
  | some c => (o, c)
  | none =>
    let o1 := o.setLimits 0 env.dosLimit
    let q0 := o1.s.q
    let r := env.points.foldl (Quasi.comStep env) (o1, [])
    (({ r.1 with com := some r.2 }).setQ q0, r.2)

/-- A new object with given settings (dynaphopy/__init__.py:23-44). -/
def Quasi.fresh (s : QSettings K Q) : Quasi K V Q := { s := s }

end Verif
