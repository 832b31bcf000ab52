import Verif.Model.Qha
import Verif.Model.FFTPower

/-! # scripts/qha_quasiparticle.py: the objects

`ForceConstantsFitting` with its caches, and what `QuasiparticlesQHA` gives to phonopy. phonopy's thermal properties and `PhonopyQHA` are parameters. -/

set_option autoImplicit false
set_option linter.unusedSectionVars false

namespace Verif

/-- A `ForceConstantsFitting` object (scripts/qha_quasiparticle.py:41-77): the arguments of the constructor and the attributes that are filled later. `eig` stands for `_h_frequencies` (and `_eigenvectors`, set together with it); `matT`, `matV`
for `_shift_matrix_temperature`, `_shift_matrix_volume`; `polyT`, `polyV` for `_shift_temperature`, `_shift_volume`. The yaml files do not change during the run. -/
structure QhaObj (Q : Type*) (nt nv nq nb : ℕ) where
  data : QhaFit ℝ Q nt nv nq nb
  tmin : Option ℝ
  tmax : Option ℝ
  eig : Option (Fin nq → Fin nb → ℝ)
  matT : Option (Fin nb → Fin nq → Fin (nt + 1) → ℝ)
  matV : Option (Fin nb → Fin nq → Fin (nv + 1) → ℝ)
  polyT : Option (Fin nb → Fin nq → Polynomial ℝ)
  polyV : Option (Fin nb → Fin nq → Polynomial ℝ)

/-- The entries of an array, or the exception if one of them raises. -/
def allEntries {nq nb : ℕ} (f : Fin nq → Fin nb → Option ℝ) : Option (Fin nq → Fin nb → ℝ) :=
  if h : ∀ q b, (f q b).isSome then some fun q b => (f q b).get (h q b) else none

namespace QhaObj
variable {Q : Type*} {nt nv nq nb : ℕ} (tools : QhaTools ℝ)

/-- `ForceConstantsFitting(...)` (scripts/qha_quasiparticle.py:42-77). -/
def new (data : QhaFit ℝ Q nt nv nq nb) (tmin tmax : Option ℝ) : QhaObj Q nt nv nq nb := ⟨data, tmin, tmax, none, none, none, none, none⟩

/-- `get_temperature_range(step)` (scripts/qha_quasiparticle.py:95-100), which keeps the ends. -/
noncomputable def getRange (s : QhaObj Q nt nv nq nb) (step : ℝ) : List ℝ × QhaObj Q nt nv nq nb :=
  let s := if s.tmin = none then { s with tmin := some (s.data.temperatures 0) } else s
  let s := if s.tmax = none then { s with tmax := some (s.data.temperatures (Fin.last nt)) } else s
  (arange (s.tmin.getD 0) (s.tmax.getD 0) step, s)

/-- `get_harmonic_frequencies_and_eigenvectors` (scripts/qha_quasiparticle.py:217-232). -/
def getHarmonic (s : QhaObj Q nt nv nq nb) : (Fin nq → Fin nb → ℝ) × QhaObj Q nt nv nq nb :=
  match s.eig with
  | some h => (h, s)
  | none =>
    let h := fun q => s.data.phonons (s.data.filesT 0 q).1
    (h, { s with eig := some h })

/-- `get_shift_matrix_temperature` (scripts/qha_quasiparticle.py:103-122). -/
def getShiftMatrixT (s : QhaObj Q nt nv nq nb) : (Fin nb → Fin nq → Fin (nt + 1) → ℝ) × QhaObj Q nt nv nq nb :=
  match s.matT with
  | some m => (m, s)
  | none =>
    let (h, s) := s.getHarmonic
    let m := fun b q i => (s.data.filesT i q).2 b - h q b
    (m, { s with matT := some m })

/-- `get_fitted_shifts_temperature(temperature)` (scripts/qha_quasiparticle.py:157-180); `None` as temperature raises TypeError in `np.poly1d`, after the polynomials are kept. -/
noncomputable def getFittedT (temperature : Option ℝ) (s : QhaObj Q nt nv nq nb) : Option (Fin nq → Fin nb → ℝ) × QhaObj Q nt nv nq nb :=
  let (m, s) := s.getShiftMatrixT
  let (p, s) := match s.polyT with
    | some p => (p, s)
    | none =>
      let p := fun b q => tools.polyfit (List.ofFn fun i => (s.data.temperatures i, m b q i)) s.data.order
      (p, { s with polyT := some p })
  (temperature.map fun t q b => (p b q).eval t, s)

/-- `get_interpolated_shifts_temperature(temperature)` (scripts/qha_quasiparticle.py:148-155). -/
def getInterpolatedT (temperature : ℝ) (s : QhaObj Q nt nv nq nb) : Option (Fin nq → Fin nb → ℝ) × QhaObj Q nt nv nq nb :=
  let (m, s) := s.getShiftMatrixT
  (allEntries fun q b => tools.interp (List.ofFn fun i => (s.data.temperatures i, m b q i)) temperature, s)

/-- `get_shift_matrix_volume` (scripts/qha_quasiparticle.py:124-146). -/
noncomputable def getShiftMatrixV (s : QhaObj Q nt nv nq nb) : Option (Fin nb → Fin nq → Fin (nv + 1) → ℝ) × QhaObj Q nt nv nq nb :=
  match s.matV with
  | some m => (some m, s)
  | none =>
    let (h, s) := s.getHarmonic
    match s.getFittedT tools s.data.refTemperature with
    | (none, s) => (none, s)
    | (some f, s) =>
      let m := fun b q i => (s.data.filesV i q).2 b - (f q b + h q b)
      (some m, { s with matV := some m })

/-- `get_fitted_shifts_volume(volume)` (scripts/qha_quasiparticle.py:192-215). -/
noncomputable def getFittedV (volume : ℝ) (s : QhaObj Q nt nv nq nb) : Option (Fin nq → Fin nb → ℝ) × QhaObj Q nt nv nq nb :=
  match s.getShiftMatrixV tools with
  | (none, s) => (none, s)
  | (some m, s) =>
    let (p, s) := match s.polyV with
      | some p => (p, s)
      | none =>
        let p := fun b q => tools.polyfit (List.ofFn fun i => (s.data.volumes i, m b q i)) s.data.order
        (p, { s with polyV := some p })
    (some fun q b => (p b q).eval volume, s)

/-- `get_interpolated_shifts_volume(volume)` (scripts/qha_quasiparticle.py:182-190). -/
noncomputable def getInterpolatedV (volume : ℝ) (s : QhaObj Q nt nv nq nb) : Option (Fin nq → Fin nb → ℝ) × QhaObj Q nt nv nq nb :=
  match s.getShiftMatrixV tools with
  | (none, s) => (none, s)
  | (some m, s) => (allEntries fun q b => tools.interp (List.ofFn fun i => (s.data.volumes i, m b q i)) volume, s)

/-- `get_total_shifts` (scripts/qha_quasiparticle.py:253-268). -/
noncomputable def getTotalShifts (volume : Option ℝ) (temperature : ℝ) (interpolateTemperature interpolateVolume : Bool) (s : QhaObj Q nt nv nq nb) : Option (Fin nq → Fin nb → ℝ) × QhaObj Q nt nv nq nb :=
  let v := volume.getD (s.data.volumes 0)
  match if interpolateTemperature then s.getInterpolatedT tools temperature else s.getFittedT tools (some temperature) with
  | (none, s) => (none, s)
  | (some t, s) =>
    match if interpolateVolume then s.getFittedV tools v else s.getInterpolatedV tools v with
    | (none, s) => (none, s)
    | (some w, s) => (some fun q b => t q b + w q b, s)

/-- The frequencies that `get_total_force_constants` renormalizes (scripts/qha_quasiparticle.py:270-277). -/
noncomputable def getTotalFrequencies (temperature : ℝ) (volume : Option ℝ) (s : QhaObj Q nt nv nq nb) : Option (Fin nq → Fin nb → ℝ) × QhaObj Q nt nv nq nb :=
  match s.getTotalShifts tools volume temperature false false with
  | (none, s) => (none, s)
  | (some w, s) =>
    let (h, s) := s.getHarmonic
    (some fun q b => h q b + w q b, s)

/-- phonopy: the force constants with the given frequencies (`_get_renormalized_force_constants`, scripts/qha_quasiparticle.py:244-251) and their free energy, entropy and heat capacity at a temperature (`obtain_phonopy_thermal_properties`). -/
abbrev Thermo (nq nb : ℕ) := (Fin nq → Fin nb → ℝ) → ℝ → ℝ × ℝ × ℝ

/-- The loop of `get_thermal_properties` (scripts/qha_quasiparticle.py:290-300) over the temperatures left: one triple per temperature, `none` if a step raises. -/
noncomputable def thermalLoop (thermo : Thermo nq nb) (volume : ℝ) : List ℝ → QhaObj Q nt nv nq nb → Option (List (ℝ × ℝ × ℝ)) × QhaObj Q nt nv nq nb
  | [], s => (some [], s)
  | t :: ts, s =>
    match s.getTotalFrequencies tools t (some volume) with
    | (none, s) => (none, s)
    | (some f, s) =>
      match thermalLoop thermo volume ts s with
      | (none, s) => (none, s)
      | (some rest, s) => (some (thermo f t :: rest), s)

/-- `get_thermal_properties(volume)` (scripts/qha_quasiparticle.py:279-302): the lists of free energies, entropies and heat capacities. -/
noncomputable def getThermalProperties (thermo : Thermo nq nb) (volume : Option ℝ) (s : QhaObj Q nt nv nq nb) : Option (List ℝ × List ℝ × List ℝ) × QhaObj Q nt nv nq nb :=
  let v := volume.getD (s.data.volumes 0)
  let (range, s) := s.getRange 10
  match thermalLoop tools thermo v range s with
  | (none, s) => (none, s)
  | (some l, s) => (some (l.map (·.1), l.map (·.2.1), l.map (·.2.2)), s)

/-- The methods of the object that calculate something (scripts/qha_quasiparticle.py:95-302). -/
inductive Call
  | range (step : ℝ)
  | harmonic
  | matrixT
  | fittedT (t : ℝ)
  | interpolatedT (t : ℝ)
  | matrixV
  | fittedV (v : ℝ)
  | interpolatedV (v : ℝ)
  | totalShifts (v : Option ℝ) (t : ℝ) (interpolateT interpolateV : Bool)
  | totalFrequencies (t : ℝ) (v : Option ℝ)
  | thermal (v : Option ℝ)

/-- What they return (`none`: an exception). -/
inductive Reply (nt nv nq nb : ℕ)
  | numbers (l : List ℝ)
  | harmonic (f : Fin nq → Fin nb → ℝ)
  | matrixT (m : Fin nb → Fin nq → Fin (nt + 1) → ℝ)
  | matrixV (m : Option (Fin nb → Fin nq → Fin (nv + 1) → ℝ))
  | array (a : Option (Fin nq → Fin nb → ℝ))
  | thermal (l : Option (List ℝ × List ℝ × List ℝ))

/-- One call of a method (scripts/qha_quasiparticle.py:95-302). -/
noncomputable def call (thermo : Thermo nq nb) (s : QhaObj Q nt nv nq nb) : Call → Reply nt nv nq nb × QhaObj Q nt nv nq nb
  | .range step => ((.numbers (s.getRange step).1), (s.getRange step).2)
  | .harmonic => (.harmonic s.getHarmonic.1, s.getHarmonic.2)
  | .matrixT => (.matrixT s.getShiftMatrixT.1, s.getShiftMatrixT.2)
  | .fittedT t => (.array (s.getFittedT tools (some t)).1, (s.getFittedT tools (some t)).2)
  | .interpolatedT t => (.array (s.getInterpolatedT tools t).1, (s.getInterpolatedT tools t).2)
  | .matrixV => (.matrixV (s.getShiftMatrixV tools).1, (s.getShiftMatrixV tools).2)
  | .fittedV v => (.array (s.getFittedV tools v).1, (s.getFittedV tools v).2)
  | .interpolatedV v => (.array (s.getInterpolatedV tools v).1, (s.getInterpolatedV tools v).2)
  | .totalShifts v t i j => (.array (s.getTotalShifts tools v t i j).1, (s.getTotalShifts tools v t i j).2)
  | .totalFrequencies t v => (.array (s.getTotalFrequencies tools t v).1, (s.getTotalFrequencies tools t v).2)
  | .thermal v => (.thermal (s.getThermalProperties tools thermo v).1, (s.getThermalProperties tools thermo v).2)

/-- The object after a sequence of calls (exceptions caught by the caller). -/
noncomputable def after (thermo : Thermo nq nb) (calls : List Call) (s : QhaObj Q nt nv nq nb) : QhaObj Q nt nv nq nb := calls.foldl (fun s c => (s.call tools thermo c).2) s

end QhaObj

/-- What is given to `PhonopyQHA` (scripts/qha_quasiparticle.py:573-581); the thermal properties have one row per temperature. -/
structure QhaInput where
  volumes : List ℝ
  energies : List ℝ
  temperatures : List ℝ
  freeEnergy : List (List ℝ)
  cv : List (List ℝ)
  entropy : List (List ℝ)
  tMax : Option ℝ

/-- The four files in the working directory (scripts/qha_quasiparticle.py:562-570), `none`: not there. -/
structure QhaDisk where
  freeEnergy : Option (List (List ℝ))
  temperatures : Option (List ℝ)
  cv : Option (List (List ℝ))
  entropy : Option (List (List ℝ))

/-- The options of the script that give data (scripts/qha_quasiparticle.py:18-36) after reading the files: `-cv_data`, `-ct_data`, `-temperatures`, `--ref_temperature`, `--order`, and `-ev` (volumes and energies). As many `ct_data` files as
temperatures and as many `cv_data` files as rows of `-ev`. -/
structure QhaArgs (Q : Type*) (nt nv nq nb : ℕ) where
  cvData : Fin (nv + 1) → Fin nq → Q × (Fin nb → ℝ)
  ctData : Fin (nt + 1) → Fin nq → Q × (Fin nb → ℝ)
  temperatures : Fin (nt + 1) → ℝ
  refTemperature : Option ℝ
  order : ℕ
  volumes : Fin (nv + 1) → ℝ
  energies : Fin (nv + 1) → ℝ

section script
variable {Q : Type} {nt nv nq nb : ℕ} (tools : QhaTools ℝ)

/-- The `ForceConstantsFitting` object of the script (scripts/qha_quasiparticle.py:531-542). -/
def QhaArgs.fit (args : QhaArgs Q nt nv nq nb) (phonons : Q → Fin nb → ℝ) (tmin : Option ℝ) : QhaObj Q nt nv nq nb :=
  QhaObj.new ⟨args.temperatures, args.volumes, args.ctData, args.cvData, phonons, args.refTemperature, args.order⟩ tmin none

/-- The loop over volumes (scripts/qha_quasiparticle.py:550-555): the three lists of lists, one entry per volume. -/
noncomputable def qhaVolumeLoop (thermo : QhaObj.Thermo nq nb) : List (ℝ × ℝ) → QhaObj Q nt nv nq nb → Option (List (List ℝ) × List (List ℝ) × List (List ℝ)) × QhaObj Q nt nv nq nb
  | [], s => (some ([], [], []), s)
  | (v, _) :: rest, s =>
    match s.getThermalProperties tools thermo (some v) with
    | (none, s) => (none, s)
    | (some (f, e, c), s) =>
      match qhaVolumeLoop thermo rest s with
      | (none, s) => (none, s)
      | (some (fs, es, cs), s) => (some (f :: fs, e :: es, c :: cs), s)

/-- `np.array(l).T` of a list of rows of equal length (scripts/qha_quasiparticle.py:557-559, 809, 814). -/
def npTranspose (l : List (List ℝ)) : List (List ℝ) := (List.range (l.headD []).length).map fun j => l.map fun row => row.getD j 0

/-- `QuasiparticlesQHA.__init__` (scripts/qha_quasiparticle.py:531-581) from the data read: what `PhonopyQHA` gets, the files afterwards, and `self._fc_fit`; `none`: an exception. -/
noncomputable def qhaScript (thermo : QhaObj.Thermo nq nb) (args : QhaArgs Q nt nv nq nb) (phonons : Q → Fin nb → ℝ) (tmin : Option ℝ) (loadData : Bool) (disk : QhaDisk) : Option (QhaInput × QhaDisk × QhaObj Q nt nv nq nb) :=
  let volumes := List.ofFn args.volumes
  let energies := List.ofFn args.energies
  let s := args.fit phonons tmin
  if loadData then do
    let free ← disk.freeEnergy
    let temperatures ← disk.temperatures
    let cv ← disk.cv
    let entropy ← disk.entropy
    let (range, s) := s.getRange 10
    let tMax ← range.getLast?
    return (⟨volumes, energies, temperatures, free, cv, entropy, some tMax⟩, disk, s)
  else
    let (temperatures, s) := s.getRange 10
    match qhaVolumeLoop tools thermo (volumes.zip energies) s with
    | (none, _) => none
    | (some (f, e, c), s) => do
      let free := npTranspose f
      let entropy := npTranspose e
      let cv := npTranspose c
      let (range, s) := s.getRange 10
      let tMax ← range.getLast?
      return (⟨volumes, energies, temperatures, free, cv, entropy, some tMax⟩, ⟨some free, some temperatures, some cv, some entropy⟩, s)

/-- `get_volume_at_temperature` (scripts/qha_quasiparticle.py:729-735) from the temperatures and equilibrium volumes of `PhonopyQHA`. -/
noncomputable def qhaVolumeAt (temperatures volumes : List ℝ) (t : ℝ) : ℝ := interp t (temperatures.zip volumes)

/-- The loop of `get_total_shift_constant_pressure` (scripts/qha_quasiparticle.py:807-810). -/
noncomputable def qhaShiftLoop : List (ℝ × ℝ) → QhaObj Q nt nv nq nb → Option (List (Fin nq → Fin nb → ℝ)) × QhaObj Q nt nv nq nb
  | [], s => (some [], s)
  | (v, t) :: rest, s =>
    match s.getTotalShifts tools (some v) t false false with
    | (none, s) => (none, s)
    | (some w, s) =>
      match qhaShiftLoop rest s with
      | (none, s) => (none, s)
      | (some ws, s) => (some (w :: ws), s)

/-- `get_total_shift_constant_pressure(qpoint)` (scripts/qha_quasiparticle.py:799-814): `np.array(list).T[:, qindex]`, branch and temperature; `close` is `np.allclose`, `none`: an exception or `exit()`. -/
noncomputable def qhaShiftConstantPressure (close : Q → Q → Bool) (temperatures volumes : List ℝ) (q : Q) (s : QhaObj Q nt nv nq nb) : Option (Fin nb → List ℝ) × QhaObj Q nt nv nq nb :=
  match qpointToIndex close (List.ofFn fun i => (s.data.filesT 0 i).1) q with
  | none => (none, s)
  | some i =>
    let (_, s) := s.getHarmonic
    match qhaShiftLoop tools (volumes.zip temperatures) s with
    | (none, s) => (none, s)
    | (some ws, s) => if h : i < nq then (some fun b => ws.map fun w => w ⟨i, h⟩ b, s) else (none, s)

end script

end Verif
