import Verif.Model.Settings
import Verif.Model.Inputs
import Verif.Model.Arrangement
import Mathlib.Algebra.Polynomial.Eval.Degree

/-! # Quasi-harmonic scripts: scripts/qha_quasiparticle.py and scripts/qha_extract -/

set_option autoImplicit false
set_option linter.unusedSectionVars false

namespace Verif

section fitting
variable {K : Type*} [Field K] [LinearOrder K] [IsStrictOrderedRing K]

/-- The numerical libraries called by the script, on lists of points `(x, y)`: `np.polyfit` followed by `np.poly1d` (scripts/qha_quasiparticle.py:166, 175; 201, 210) and `scipy.interpolate.interp1d(..., kind='quadratic')`
(lines 152-153, 186-188), `none` being its ValueError. -/
structure QhaTools (K : Type*) [Field K] where
  polyfit : List (K × K) → ℕ → Polynomial K
  interp : List (K × K) → K → Option K

/-- The data of `ForceConstantsFitting` (scripts/qha_quasiparticle.py:41-77): `nt + 1` files at the volume of the structure and one temperature each, `nv + 1` files at the reference temperature and one volume each. A file is the list of its
wave vectors (all files have `nq`; another number is a NumPy error) with `nb` frequencies each. `phonons` is phonopy's `obtain_eigenvectors_and_frequencies` (frequencies only). Simplification: as many files as temperatures or
volumes (further files are not read, fewer raise IndexError). -/
structure QhaFit (K Q : Type*) (nt nv nq nb : ℕ) where
  temperatures : Fin (nt + 1) → K
  volumes : Fin (nv + 1) → K
  filesT : Fin (nt + 1) → Fin nq → Q × (Fin nb → K)
  filesV : Fin (nv + 1) → Fin nq → Q × (Fin nb → K)
  phonons : Q → Fin nb → K
  refTemperature : Option K
  order : ℕ

namespace QhaFit
variable {Q : Type*} {nt nv nq nb : ℕ} (tools : QhaTools K) (d : QhaFit K Q nt nv nq nb)

/-- `get_harmonic_frequencies_and_eigenvectors` (scripts/qha_quasiparticle.py:217-232): at the wave vectors of the first temperature file. -/
def harmonic (q : Fin nq) (b : Fin nb) : K := d.phonons (d.filesT 0 q).1 b

/-- `get_shift_matrix_temperature` (scripts/qha_quasiparticle.py:103-122), after `swapaxes(0, 2)`: branch, wave vector, temperature. -/
def shiftT (b : Fin nb) (q : Fin nq) (i : Fin (nt + 1)) : K := (d.filesT i q).2 b - d.harmonic q b

/-- `get_fitted_shifts_temperature` (scripts/qha_quasiparticle.py:157-180), transposed to wave vector, branch. The cache of the polynomials is a cache of a function of the data and is not modelled. -/
noncomputable def fittedT (t : K) (q : Fin nq) (b : Fin nb) : K := (tools.polyfit (List.ofFn fun i => (d.temperatures i, d.shiftT b q i)) d.order).eval t

/-- `get_interpolated_shifts_temperature` (scripts/qha_quasiparticle.py:148-155). -/
def interpolatedT (t : K) (q : Fin nq) (b : Fin nb) : Option K := tools.interp (List.ofFn fun i => (d.temperatures i, d.shiftT b q i)) t

/-- `get_shift_matrix_volume` (scripts/qha_quasiparticle.py:124-146): relative to the frequencies fitted at the reference temperature. `none`: evaluating a `np.poly1d` at `None` raises TypeError. -/
noncomputable def shiftV (b : Fin nb) (q : Fin nq) : Option (Fin (nv + 1) → K) := d.refTemperature.map fun r i => (d.filesV i q).2 b - (d.fittedT tools r q b + d.harmonic q b)

/-- `get_fitted_shifts_volume` (scripts/qha_quasiparticle.py:192-215). -/
noncomputable def fittedV (v : K) (q : Fin nq) (b : Fin nb) : Option K := (d.shiftV tools b q).map fun s => (tools.polyfit (List.ofFn fun i => (d.volumes i, s i)) d.order).eval v

/-- `get_interpolated_shifts_volume` (scripts/qha_quasiparticle.py:182-190). -/
noncomputable def interpolatedV (v : K) (q : Fin nq) (b : Fin nb) : Option K := (d.shiftV tools b q).bind fun s => tools.interp (List.ofFn fun i => (d.volumes i, s i)) v

/-- `get_total_shifts(volume, temperature, interpolate_temperature=False, interpolate_volume=False)` (scripts/qha_quasiparticle.py:253-268), one entry; an exception (`none`) in one entry is an exception of the call. -/
noncomputable def totalShift (volume : Option K) (temperature : K) (interpolateTemperature interpolateVolume : Bool) (q : Fin nq) (b : Fin nb) : Option K :=
  let v := volume.getD (d.volumes 0)
  (if interpolateTemperature then d.interpolatedT tools temperature q b else some (d.fittedT tools temperature q b)).bind fun t =>
  (if interpolateVolume then d.fittedV tools v q b else d.interpolatedV tools v q b).map fun s => t + s

/-- `total_frequency` of `get_total_force_constants` (scripts/qha_quasiparticle.py:270-277), from which the force constants are built (`get_renormalized_force_constants`, modelled in `Renormalize`). -/
noncomputable def totalFrequency (temperature : K) (volume : Option K) (q : Fin nq) (b : Fin nb) : Option K :=
  (d.totalShift tools volume temperature false false q b).map fun s => d.harmonic q b + s

end QhaFit

/-- `get_temperature_range(step=10)` (scripts/qha_quasiparticle.py:95-100); `none`: IndexError. -/
def qhaTemperatureRange [FloorRing K] (tmin tmax : Option K) (temperatures : List K) (step : K) : Option (List K) :=
  (tmin.or temperatures[0]?).bind fun a => (tmax.or temperatures.getLast?).map fun b => arange a b step

/-- `l[::k]` (scripts/qha_quasiparticle.py:648, 795), `k ≠ 0`. -/
def pyStride {α : Type*} (k : ℕ) (l : List α) : List α := (List.range ((l.length + k - 1) / k)).filterMap fun i => l[i * k]?

/-- The temperature and volume of each curve of `plot_dos_gradient` (scripts/qha_quasiparticle.py:644-650). -/
def qhaDosPairs {α β : Type*} (temperatures : List α) (volumes : List β) : List (α × β) := (pyStride 40 temperatures).zip (pyStride 20 volumes)

/-- The temperature and volume of each file of `get_FC_constant_pressure` (scripts/qha_quasiparticle.py:791-797). -/
def qhaFcPairs {α β : Type*} (temperatures : List α) (volumes : List β) : List (α × β) := (pyStride 20 temperatures).zip (pyStride 20 volumes)

/-- The band path of the script (scripts/qha_quasiparticle.py:526-529): `'bands' in input_parameters is None` is `('bands' in input_parameters) and (input_parameters is None)`, where the dictionary is never `None`; `none`: KeyError.
`seekPath` is the path of `get_path_using_seek_path`. -/
def qhaBands {β : Type*} (bandsKey : Bool) (seekPath : β) (bandRanges : Option β) : Option β :=
  if bandsKey && (some ()).isNone then some seekPath else bandRanges

/-- `qpoint_to_index` (scripts/qha_quasiparticle.py:323-331) for a decidable closeness (`np.allclose`). -/
def qpointToIndex {Q : Type*} (close : Q → Q → Bool) (data : List Q) (q : Q) : Option ℕ := data.findIdx? fun p => close p q

end fitting

section extract
variable {K : Type*} [Field K] [LinearOrder K]

/-- One entry of a `thermal_properties.yaml` file read by scripts/qha_extract:64-71. -/
structure ThermalEntry (K : Type*) where
  temperature : K
  entropy : K
  freeEnergy : K
  heatCapacity : K

/-- `a[sort_index]`. -/
def takeAt {α : Type*} (a : List α) (idx : List ℕ) : List α := idx.filterMap fun i => a[i]?

/-- What is passed to `PhonopyQHA` (scripts/qha_extract:87-95); the thermal properties are kept as one list per volume (a column of the transposed arrays). -/
structure QhaExtract (K : Type*) where
  volumes : List K
  energies : List K
  temperatures : List K
  freeEnergy : List (List K)
  entropy : List (List K)
  cv : List (List K)

/-- scripts/qha_extract:40-84: the rows of the volume-energy file and the contents of the thermal properties files. As many files as rows, all with the same number of temperatures (otherwise NumPy raises). -/
def qhaExtract (ev : List (K × K)) (tp : List (List (ThermalEntry K))) : QhaExtract K :=
  let sort := argsort (ev.map (·.1))
  { volumes := takeAt (ev.map (·.1)) sort
    energies := takeAt (ev.map (·.2)) sort
    temperatures := (tp.getLast?.getD []).map (·.temperature)
    freeEnergy := takeAt (tp.map fun f => f.map (·.freeEnergy)) sort
    entropy := takeAt (tp.map fun f => f.map (·.entropy)) sort
    cv := takeAt (tp.map fun f => f.map (·.heatCapacity)) sort }

/-- The interpolated force constants, one element of the array (scripts/qha_extract:126-136): `fc` is that element in each of the force constants files, in the order of the files. -/
def qhaExtractFC (interp : List (K × K) → K → Option K) (ev : List (K × K)) (tp : List (List (ThermalEntry K))) (fc : List K) (volume : K) : Option K :=
  interp ((qhaExtract ev tp).volumes.zip fc) volume

end extract

end Verif
