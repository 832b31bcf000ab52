import Verif.Model.QhaPlots
import Verif.Model.Settings

/-! # scripts/qha_quasiparticle.py: band structures, densities of states and thermal properties drawn

phonopy (bands and densities of states of force constants) is a parameter. Titles, axes and colours are left out. -/

set_option autoImplicit false
set_option linter.unusedSectionVars false

namespace Verif
namespace QhaObj

variable {Q : Type} {nt nv nq nb : ℕ} (tools : QhaTools ℝ)

/-- `get_band_structure(temperature, volume, band_ranges)`, `get_dos(temperature, volume)` and `plot_dos` (scripts/qha_quasiparticle.py:478-497): what phonopy
(`of`) gives for the force constants with the frequencies at this temperature and volume; the default ranges are a parameter of `of`. -/
noncomputable def atState {B : Type} (of : (Fin nq → Fin nb → ℝ) → B) (temperature volume : ℝ) (s : QhaObj Q nt nv nq nb) : Option B × QhaObj Q nt nv nq nb :=
  match s.getTotalFrequencies tools temperature (some volume) with
  | (none, s) => (none, s)
  | (some f, s) => (some (of f), s)

/-- `self.volumes[volume_index]` (scripts/qha_quasiparticle.py:307, 314; lines 88-93); `none`: IndexError. -/
def volumeNumber (i : ℤ) (s : QhaObj Q nt nv nq nb) : Option ℝ :=
  let j := if i < 0 then i + (nv + 1) else i
  if h : 0 ≤ j ∧ j < nv + 1 then some (s.data.volumes ⟨j.toNat, by omega⟩) else none

/-- `plot_density_of_states(volume_index, temperature)` (scripts/qha_quasiparticle.py:304-310). -/
noncomputable def plotDensity {B : Type} (dosOf : (Fin nq → Fin nb → ℝ) → B) (i : ℤ) (temperature : ℝ) (s : QhaObj Q nt nv nq nb) : Option B × QhaObj Q nt nv nq nb :=
  match s.volumeNumber i with
  | none => (none, s)
  | some v => s.atState tools dosOf temperature v

/-- `plot_thermal_properties(volume_index)` (scripts/qha_quasiparticle.py:312-321): three curves over `get_temperature_range()`. -/
noncomputable def plotThermal (thermo : Thermo nq nb) (i : ℤ) (s : QhaObj Q nt nv nq nb) : Option (List (List (ℝ × ℝ))) × QhaObj Q nt nv nq nb :=
  match s.volumeNumber i with
  | none => (none, s)
  | some v =>
    match s.getThermalProperties tools thermo (some v) with
    | (none, s) => (none, s)
    | (some (f, e, c), s) =>
      let (ts, s) := s.getRange 10
      (some [ts.zip f, ts.zip e, ts.zip c], s)

end QhaObj

/-- What a band plot of the script needs besides the shifts: the temperatures and equilibrium volumes of `PhonopyQHA`, the ranges and the labels of the path (`self._bands`). -/
structure QhaPath (R : Type) where
  temperatures : List ℝ
  volumes : List ℝ
  ranges : R
  labels : Option (List (List Char × List Char))

/-- The local `replace_list` of the script (scripts/qha_quasiparticle.py:671-677, 741-747): a `dict` has no `iteritems` in Python 3 (AttributeError for every text). -/
def scriptReplaceList (_ : List Char) : Option (List Char) := none

/-- The axis of a band plot (scripts/qha_quasiparticle.py:699, 703-719, 760, 764-780): `band_data[1][-1][-1]`, then, if there are labels, the texts of the ticks. `none`: exception. -/
def scriptBandAxis (distances : List (List ℝ)) (labels : Option (List (List Char × List Char))) : Option (ℝ × Option (List (List Char))) := do
  let last ← distances.getLast?.bind fun l => l.getLast?
  match labels with
  | none => some (last, none)
  | some labels =>
    let texts ← (List.range distances.length).mapM fun (i : ℕ) => do
      let a ← labels[i]?
      let b ← if i = 0 then labels.getLast? else labels[i - 1]?
      if a.1 = b.2 then scriptReplaceList a.1
      else do
        let x ← scriptReplaceList b.2
        let y ← scriptReplaceList a.1
        some (x ++ ['/'] ++ y)
    let l ← labels.getLast?
    let l ← scriptReplaceList l.2
    let f ← labels.head?
    let f ← scriptReplaceList f.1
    some (last, some ((texts ++ [l]).set 0 f))

variable {Q R B : Type} {nt nv nq nb : ℕ}

/-- `plot_band_structure_gradient(tmin, tmax, tstep)` (scripts/qha_quasiparticle.py:665-727): for each temperature the bands drawn. `band_data` after the loop are
those of the last temperature. `none`: an exception, and nothing is shown. -/
noncomputable def plotBandGradient (tools : QhaTools ℝ) (bandsOf : R → (Fin nq → Fin nb → ℝ) → B) (distances : B → List (List ℝ)) (p : QhaPath R) (tmin tmax tstep : ℝ)
    (s : QhaObj Q nt nv nq nb) : Option (List (ℝ × B)) :=
  let ts := arange tmin tmax tstep
  (QhaObj.mapCalls (fun t s => s.atState tools (bandsOf p.ranges) t (qhaVolumeAt p.temperatures p.volumes t)) ts s).1.bind fun bands =>
  bands.getLast?.bind fun b =>
  (scriptBandAxis (distances b) p.labels).map fun _ => ts.zip bands

/-- `plot_band_structure_constant_pressure(temperature, external_data)` (scripts/qha_quasiparticle.py:737-783): the bands and the dots. `None[:, 0]` is a TypeError. -/
noncomputable def plotBandPressure (tools : QhaTools ℝ) (bandsOf : R → (Fin nq → Fin nb → ℝ) → B) (distances : B → List (List ℝ)) (p : QhaPath R) (temperature : ℝ)
    (external : Option (List (ℝ × ℝ))) (s : QhaObj Q nt nv nq nb) : Option (B × List (ℝ × ℝ)) :=
  (s.atState tools (bandsOf p.ranges) temperature (qhaVolumeAt p.temperatures p.volumes temperature)).1.bind fun b =>
  (scriptBandAxis (distances b) p.labels).bind fun _ =>
  external.map fun dots => (b, dots)

end Verif
