import Verif.Model.Spectra
import Verif.Props.Fitting
import Verif.Props.Analysis
import Verif.Props.FFTPower
import Verif.Model.Thermal
import Verif.Model.TestTrajectory
import Mathlib.Analysis.SpecialFunctions.Arsinh
import Mathlib.Analysis.SpecialFunctions.Log.Deriv
import Mathlib.Data.List.GetD

/-! # C122: one system of units

The Boltzmann constant appears in the code in three units: `u Å² / (ps² K)` (velocities, test trajectories), `eV / K` (peaks) and
`J / K` (thermal properties). -/

set_option autoImplicit false

namespace Verif

open Real

/-! ## Specification -/

/-- One `u Å² / ps²` in eV: the ratio of the Boltzmann constants in the two units. -/
noncomputable def evPerUnit : ℝ := kbFit / kbEnergy

/-- The temperature of a degree of freedom with the mean square `p` of its mass weighted velocity (`u Å² / ps²`): `p = k_B T`, which is
what the analysis of the velocities uses (C86). -/
noncomputable def kineticTemperature (p : ℝ) : ℝ := p / kbEnergy

/-! ## Constants that agree -/

/-- C122: the occupation numbers of the thermal properties (J) are those of the constants used for the peaks (eV), with a relative
difference of the exponent below one millionth. -/
theorem C122_bose (temp freq : ℝ) : ∃ δ : ℝ, |δ| ≤ 1e-6 ∧ bose temp freq = (exp (freq * hPlanck / (kbFit * temp) * (1 + δ)) - 1)⁻¹ := by
  refine ⟨hBar / kB * (kbFit / hPlanck) - 1, ?_, ?_⟩
  · unfold hBar kB kbFit hPlanck
    rw [abs_le]; constructor <;> norm_num
  · unfold bose
    congr 3
    have h1 : kbFit ≠ 0 := by unfold kbFit; norm_num
    have h2 : hPlanck ≠ 0 := by unfold hPlanck; norm_num
    have h3 : kB ≠ 0 := by unfold kB; norm_num
    rw [add_sub_cancel]
    by_cases ht : temp = 0
    · simp [ht]
    · field_simp

/-- C122: the Boltzmann constant of the velocities is the gas constant of the thermal properties (in units of 10 J/(K mol)), to a relative
difference below one millionth; and it is the one of the test trajectories. -/
theorem C122_gas : |NA * kB / (10 * kbEnergy) - 1| ≤ 1e-6 ∧ ∀ nd T cells r, testEnergy nd T cells r = nd * kbEnergy * T / cells * r := by
  refine ⟨?_, fun nd T cells r => rfl⟩
  unfold NA kB kbEnergy
  rw [abs_le]; constructor <;> norm_num

/-! ## The unit of the spectra -/

theorem unit_ratio : 1.0213 * evPerUnit ≤ unitConversion ∧ unitConversion ≤ 1.0214 * evPerUnit := by
  unfold evPerUnit kbFit kbEnergy unitConversion
  constructor <;> norm_num

/-- C122 violated: a degree of freedom with mean square mass weighted velocity `p` has the kinetic energy `p/2`; its spectrum, in the units
of the code, has the area `unit_conversion * p/2`, which is more than 2.1 % above the kinetic energy in eV, for every `p`. -/
theorem C122_energy_violated (p : ℝ) (hp : 0 < p) :
    1.0213 * (evPerUnit * (p / 2)) ≤ unitConversion * (p / 2) ∧ unitConversion * (p / 2) ≤ 1.0214 * (evPerUnit * (p / 2)) := by
  have h := unit_ratio
  constructor
  · have := mul_le_mul_of_nonneg_right h.1 (by positivity : 0 ≤ p / 2)
    linarith
  · have := mul_le_mul_of_nonneg_right h.2 (by positivity : 0 ≤ p / 2)
    linarith

/-- C122 violated, for the FFT: for every non-zero piece of data, half of the area of its spectrum (over all the frequencies of the FFT,
negative and positive) is more than 2.1 % above the mean kinetic energy of the data in eV. -/
theorem C122_fft_violated (dt : ℝ) (hdt : 0 < dt) (piece : List ℂ) (hne : ∃ x ∈ piece, x ≠ 0) :
    1.0213 * (evPerUnit * ((∑ m ∈ Finset.range piece.length, ‖piece.getD m 0‖ ^ 2 / 2) / piece.length)) ≤
      (∑ k ∈ Finset.range piece.length, (piecePower dt piece).getD k 0 * unitConversion) * (1 / (piece.length * dt)) / 2 ∧
    0 < evPerUnit * ((∑ m ∈ Finset.range piece.length, ‖piece.getD m 0‖ ^ 2 / 2) / piece.length) := by
  obtain ⟨x, hx, hx0⟩ := hne
  have hl : piece ≠ [] := List.ne_nil_of_mem hx
  have htot := C31_total dt hdt piece hl
  have hn : (0 : ℝ) < piece.length := by exact_mod_cast List.length_pos_iff.2 hl
  have hu := unit_ratio
  have hev : 0 < evPerUnit := by unfold evPerUnit kbFit kbEnergy; norm_num
  have hS : 0 < ∑ m ∈ Finset.range piece.length, ‖piece.getD m 0‖ ^ 2 := by
    obtain ⟨i, hi, rfl⟩ := List.mem_iff_getElem.1 hx
    refine Finset.sum_pos' (fun k _ => by positivity) ⟨i, Finset.mem_range.2 hi, ?_⟩
    rw [List.getD_eq_getElem _ _ hi]
    have := norm_pos_iff.2 hx0
    positivity
  rw [← Finset.sum_div, ← Finset.sum_mul]
  set S := ∑ m ∈ Finset.range piece.length, ‖piece.getD m 0‖ ^ 2
  set P := ∑ k ∈ Finset.range piece.length, (piecePower dt piece).getD k 0
  constructor
  · have h1 : 1.0213 * (evPerUnit * (S / 2 / piece.length)) ≤ unitConversion * (S / piece.length / 2) := by
      have : S / 2 / (piece.length : ℝ) = S / piece.length / 2 := by ring
      rw [this]
      have := mul_le_mul_of_nonneg_right hu.1 (by positivity : 0 ≤ S / piece.length / 2)
      linarith
    have h2 : unitConversion * (S / piece.length / 2) ≤ unitConversion * (P * (1 / (piece.length * dt)) / 2) := by
      apply mul_le_mul_of_nonneg_left _ (by unfold unitConversion; norm_num)
      linarith
    calc _ ≤ _ := h1
      _ ≤ _ := h2
      _ = _ := by ring
  · positivity

/-! ## The temperature of a peak -/

/-- C122: the temperature of a peak is at most the classical one, and close to it for oscillators that are far above the ground state: with
`x` quanta of energy in twice the area, the relative difference is at most `1/(4 x²)`. -/
theorem C122_classical (area position : ℝ) (hp : 0 < position) (ha : hPlanckBar * position / 2 < 2 * area) :
    2 * area / kbFit * (1 - 1 / (4 * (2 * area / (hPlanckBar * position)) ^ 2)) ≤ fitTemperature area position ∧
      fitTemperature area position ≤ 2 * area / kbFit := by
  have hk : 0 < kbFit := by unfold kbFit; norm_num
  have hh : 0 < hPlanckBar := by unfold hPlanckBar hPlanck; have := pi_pos; positivity
  have hq : 0 < hPlanckBar * position := mul_pos hh hp
  set x := 2 * area / (hPlanckBar * position) with hx
  have hx2 : 1 / 2 < x := by rw [hx, lt_div_iff₀ hq]; linarith
  have harea : 2 * area = x * (hPlanckBar * position) := by rw [hx]; field_simp
  have hocc : occupancy area position = x - 1 / 2 := by
    unfold occupancy; rw [hx, mul_comm position]; norm_num
  have ht : 1 / occupancy area position + 1 = (x + 1 / 2) / (x - 1 / 2) := by
    rw [hocc]
    have : x - 1 / 2 ≠ 0 := by linarith
    rw [div_add_one this]; congr 1; ring
  have hT : fitTemperature area position = hPlanckBar * position / kbFit * (1 / log ((x + 1 / 2) / (x - 1 / 2))) := by
    unfold fitTemperature
    rw [ht, mul_one_div, div_div]
  have hpos : 0 < x - 1 / 2 := by linarith
  have hone : 1 < (x + 1 / 2) / (x - 1 / 2) := by rw [lt_div_iff₀ hpos]; linarith
  have hlog : 0 < log ((x + 1 / 2) / (x - 1 / 2)) := log_pos hone
  set L := log ((x + 1 / 2) / (x - 1 / 2)) with hL
  have hquot : 0 < (x + 1 / 2) / (x - 1 / 2) := by linarith
  -- `L ≤ sinh L = x / (x² - 1/4)`
  have hup : L ≤ x / (x ^ 2 - 1 / 4) := by
    have h := self_le_sinh_iff.2 hlog.le
    rw [sinh_eq, hL, exp_log hquot, exp_neg, exp_log hquot] at h
    refine h.trans (le_of_eq ?_)
    have h1 : x + 1 / 2 ≠ 0 := by linarith
    have h2 : x - 1 / 2 ≠ 0 := by linarith
    have h3 : x ^ 2 - 1 / 4 = (x + 1 / 2) * (x - 1 / 2) := by ring
    rw [h3, inv_div]
    field_simp
    ring
  have hx0 : x ≠ 0 := by linarith
  have hlow : 1 / x ≤ L := by
    have h := le_log_one_add_of_nonneg (x := 1 / (x - 1 / 2)) (by positivity)
    have h1 : 1 + 1 / (x - 1 / 2) = (x + 1 / 2) / (x - 1 / 2) := by
      rw [add_comm, div_add_one hpos.ne']; congr 1; ring
    rw [h1, ← hL] at h
    refine le_trans (le_of_eq ?_) h
    have h2 : 1 / (x - 1 / 2) + 2 = 2 * x / (x - 1 / 2) := by
      rw [eq_div_iff hpos.ne', add_mul, one_div_mul_cancel hpos.ne']; ring
    rw [h2, mul_one_div, div_div_div_cancel_right₀ hpos.ne']
    field_simp
  have hqk : 0 < hPlanckBar * position / kbFit := by positivity
  rw [hT, harea]
  constructor
  · have h1 : x * (hPlanckBar * position) / kbFit * (1 - 1 / (4 * x ^ 2)) = hPlanckBar * position / kbFit * ((x ^ 2 - 1 / 4) / x) := by
      field_simp
    rw [h1]
    apply mul_le_mul_of_nonneg_left _ hqk.le
    have h2 : 0 < x ^ 2 - 1 / 4 := by nlinarith
    rw [le_div_iff₀ hlog]
    calc (x ^ 2 - 1 / 4) / x * L ≤ (x ^ 2 - 1 / 4) / x * (x / (x ^ 2 - 1 / 4)) := by
          apply mul_le_mul_of_nonneg_left hup; positivity
      _ = 1 := by rw [div_mul_div_comm, mul_comm, div_self (mul_ne_zero hx0 h2.ne')]
  · have h1 : x * (hPlanckBar * position) / kbFit = hPlanckBar * position / kbFit * x := by ring
    rw [h1]
    apply mul_le_mul_of_nonneg_left _ hqk.le
    rw [div_le_iff₀ hlog]
    rw [div_le_iff₀ (by linarith)] at hlow
    linarith

/-- C122 violated: an oscillator with mean square mass weighted velocity `p`, whose peak has the area `unit_conversion * p/2` that belongs
to it, and with at least ten quanta of energy, is reported with a temperature more than 1.8 % above the temperature of its velocities; never
with more than 2.14 % above. -/
theorem C122_temperature_violated (p position : ℝ) (hp : 0 < p) (hpos : 0 < position) (hx : 10 * (hPlanckBar * position) ≤ unitConversion * p) :
    1.018 * kineticTemperature p ≤ fitTemperature (unitConversion * (p / 2)) position ∧
      fitTemperature (unitConversion * (p / 2)) position ≤ 1.0214 * kineticTemperature p := by
  have hk : 0 < kbFit := by unfold kbFit; norm_num
  have hke : 0 < kbEnergy := by unfold kbEnergy; norm_num
  have hh : 0 < hPlanckBar := by unfold hPlanckBar hPlanck; have := pi_pos; positivity
  have hq : 0 < hPlanckBar * position := mul_pos hh hpos
  have h2 : 2 * (unitConversion * (p / 2)) = unitConversion * p := by ring
  have hc := C122_classical (unitConversion * (p / 2)) position hpos (by rw [h2]; linarith)
  rw [h2] at hc
  have hu := unit_ratio
  have hev : evPerUnit * kbEnergy = kbFit := by unfold evPerUnit; field_simp
  have hkin : kineticTemperature p = evPerUnit * p / kbFit := by
    unfold kineticTemperature; rw [← hev]
    have : evPerUnit ≠ 0 := by unfold evPerUnit; positivity
    field_simp
  have hkin0 : 0 < p / kbFit := by positivity
  have e1 : unitConversion * p / kbFit = unitConversion * (p / kbFit) := by ring
  have e2 : evPerUnit * p / kbFit = evPerUnit * (p / kbFit) := by ring
  rw [hkin, e2]
  rw [e1] at hc
  constructor
  · refine le_trans ?_ hc.1
    have h10 : 10 ≤ unitConversion * p / (hPlanckBar * position) := by rw [le_div_iff₀ hq]; linarith
    have hinv : 1 / (4 * (unitConversion * p / (hPlanckBar * position)) ^ 2) ≤ 1 / 400 := by
      apply one_div_le_one_div_of_le (by norm_num)
      nlinarith
    have h3 : unitConversion * (p / kbFit) * (1 - 1 / 400) ≤ unitConversion * (p / kbFit) * (1 - 1 / (4 * (unitConversion * p / (hPlanckBar * position)) ^ 2)) := by
      apply mul_le_mul_of_nonneg_left (by linarith)
      have : 0 < unitConversion := by unfold unitConversion; norm_num
      positivity
    refine le_trans ?_ h3
    have h4 := mul_le_mul_of_nonneg_right hu.1 hkin0.le
    have h5 : 0 < evPerUnit * (p / kbFit) := by have : 0 < evPerUnit := by unfold evPerUnit; positivity
                                                positivity
    nlinarith
  · refine le_trans hc.2 ?_
    have h4 := mul_le_mul_of_nonneg_right hu.2 hkin0.le
    linarith

/-- Non-vacuity: a vibration of 5 THz at high temperature. -/
example : 10 * (hPlanckBar * 5) ≤ unitConversion * 3200 := by
  have h : hPlanckBar ≤ 4.135667662e-3 / 6 := by
    unfold hPlanckBar hPlanck
    apply div_le_div_of_nonneg_left (by norm_num) (by norm_num)
    linarith [pi_gt_three]
  unfold unitConversion
  norm_num at h ⊢
  linarith

end Verif
