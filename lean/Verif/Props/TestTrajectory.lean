import Verif.Model.TestTrajectory
import Mathlib.Analysis.SpecialFunctions.Trigonometric.Deriv
import Mathlib.Analysis.SpecialFunctions.Complex.Arg
import Mathlib.Analysis.SpecialFunctions.Integrals.Basic
import Mathlib.Tactic.FieldSimp
import Mathlib.Tactic.Ring
import Mathlib.Tactic.Linarith

/-! # C70: harmonic test trajectories -/

set_option autoImplicit false
set_option linter.unusedSectionVars false

namespace Verif

/-- The term with the eigenvector component in polar form: `|e| / sqrt(m) * A * exp(phase0) * cos(q.r + arg e - 2 pi f t)`. -/
theorem testTerm_eq (energy mass phase0 t : ℝ) (m : TestMode) :
    testTerm energy mass phase0 t m = 1 / Real.sqrt mass * testAmplitude energy m * Real.exp phase0 * (‖m.e‖ * Real.cos (m.qr + Complex.arg m.e - 2 * Real.pi * m.freq * t)) := by
  unfold testTerm
  simp only
  have h1 : Complex.exp (Complex.I * m.qr + phase0) = (Real.exp phase0 : ℂ) * Complex.exp ((m.qr : ℝ) * Complex.I) := by
    rw [Complex.exp_add, Complex.ofReal_exp, mul_comm, mul_comm Complex.I]
  have h2 : Complex.exp (-Complex.I * m.freq * 2 * Real.pi * t) = Complex.exp (((-(2 * Real.pi * m.freq * t) : ℝ) : ℂ) * Complex.I) := by
    congr 1; push_cast; ring
  have h3 := Complex.norm_mul_exp_arg_mul_I m.e
  have h4 : ((1 / Real.sqrt mass : ℝ) : ℂ) * m.e * Complex.exp (Complex.I * m.qr + phase0) * (testAmplitude energy m * Complex.exp (-Complex.I * m.freq * 2 * Real.pi * t)) =
      ((1 / Real.sqrt mass * testAmplitude energy m * Real.exp phase0 * ‖m.e‖ : ℝ) : ℂ) * Complex.exp (((m.qr + Complex.arg m.e - 2 * Real.pi * m.freq * t : ℝ) : ℂ) * Complex.I) := by
    conv_lhs => rw [← h3]
    rw [h1, h2]
    have : (((m.qr + Complex.arg m.e - 2 * Real.pi * m.freq * t : ℝ) : ℂ) * Complex.I) = ((m.qr : ℝ) : ℂ) * Complex.I + (Complex.arg m.e : ℂ) * Complex.I + ((-(2 * Real.pi * m.freq * t) : ℝ) : ℂ) * Complex.I := by
      push_cast; ring
    rw [this, Complex.exp_add, Complex.exp_add]
    push_cast
    ring
  rw [h4, Complex.re_ofReal_mul, Complex.exp_ofReal_mul_I_re]
  ring

/-- C70 is violated: the phase does not shift the oscillations but scales them: for every phase, mode set, atom and time the displacement is `exp(phase_0)` times the one for phase zero. -/
theorem C70_scaled_violated (energy mass fmin phase0 position t : ℝ) (modes : List TestMode) :
    testCoordinate energy mass fmin phase0 position t modes - position = Real.exp phase0 * (testCoordinate energy mass fmin 0 position t modes - position) := by
  unfold testCoordinate
  rw [add_sub_cancel_left, add_sub_cancel_left]
  generalize modes.filter (fun m => decide (fmin < |m.freq|)) = l
  induction l with
  | nil => simp
  | cons m l ih =>
    rw [List.map_cons, List.sum_cons, ih, List.map_cons, List.sum_cons, mul_add, testTerm_eq, testTerm_eq, Real.exp_zero]
    ring

/-- C70 is violated in amplitude: with a positive phase a moving coordinate of a single phonon is, at some time, further from its position than the amplitude `|e| A / sqrt(m)` of the phonon allows. -/
theorem C70_amplitude_violated (energy mass fmin phase0 position : ℝ) (m : TestMode) (he : 0 < energy) (hm : 0 < mass) (hf : fmin < m.freq) (hf0 : 0 < m.freq) (hz : m.e ≠ 0) (hp : 0 < phase0) :
    ∃ t, 1 / Real.sqrt mass * testAmplitude energy m * ‖m.e‖ < testCoordinate energy mass fmin phase0 position t [m] - position := by
  refine ⟨(m.qr + Complex.arg m.e) / (2 * Real.pi * m.freq), ?_⟩
  have hpi := Real.pi_pos
  unfold testCoordinate
  rw [List.filter_cons_of_pos (by rw [abs_of_pos hf0]; simpa using hf)]
  simp only [List.filter_nil, List.map_cons, List.map_nil, List.sum_cons, List.sum_nil, add_zero, add_sub_cancel_left]
  rw [testTerm_eq]
  have : m.qr + Complex.arg m.e - 2 * Real.pi * m.freq * ((m.qr + Complex.arg m.e) / (2 * Real.pi * m.freq)) = 0 := by field_simp; ring
  rw [this, Real.cos_zero]
  have h1 : 0 < 1 / Real.sqrt mass * testAmplitude energy m * ‖m.e‖ := by
    unfold testAmplitude
    have := Real.sqrt_pos.2 hm
    have := Real.sqrt_pos.2 he
    have := norm_pos_iff.2 hz
    positivity
  have h2 : 1 < Real.exp phase0 := Real.one_lt_exp_iff.2 hp
  nlinarith

/-- **C70**, the part that holds, with phase zero (the default): each phonon contributes an oscillation `|e| A / sqrt(m) cos(q.r + arg e - 2 pi f t)`; all phonons have the same energy: `(2 pi f A)^2` is the
same number for all; and the contribution satisfies the equation of motion `u'' = -(2 pi f)^2 u`. -/
theorem C70_harmonic_partial (energy mass : ℝ) (he : 0 ≤ energy) (m : TestMode) (hf : m.freq ≠ 0) :
    (2 * Real.pi * m.freq * testAmplitude energy m) ^ 2 = energy ∧
    ∃ v : ℝ → ℝ, ∀ t, HasDerivAt (fun t => testTerm energy mass 0 t m) (v t) t ∧ HasDerivAt v (-(2 * Real.pi * m.freq) ^ 2 * testTerm energy mass 0 t m) t := by
  have hpi := Real.pi_pos
  constructor
  · unfold testAmplitude
    have : 2 * Real.pi * m.freq * (Real.sqrt energy / (m.freq * 2 * Real.pi)) = Real.sqrt energy := by field_simp
    rw [this, Real.sq_sqrt he]
  · have hlin : ∀ t, HasDerivAt (fun t : ℝ => m.qr + Complex.arg m.e - 2 * Real.pi * m.freq * t) (-(2 * Real.pi * m.freq)) t := by
      intro t
      have := ((hasDerivAt_id t).const_mul (2 * Real.pi * m.freq)).const_sub (m.qr + Complex.arg m.e)
      simpa using this
    simp only [testTerm_eq, Real.exp_zero, mul_one]
    set C := 1 / Real.sqrt mass * testAmplitude energy m with hC
    refine ⟨fun t => C * (‖m.e‖ * (2 * Real.pi * m.freq * Real.sin (m.qr + Complex.arg m.e - 2 * Real.pi * m.freq * t))), fun t => ⟨?_, ?_⟩⟩
    · refine ((((hlin t).cos).const_mul ‖m.e‖).const_mul C).congr_deriv ?_
      ring
    · refine (((((hlin t).sin).const_mul (2 * Real.pi * m.freq)).const_mul ‖m.e‖).const_mul C).congr_deriv ?_
      ring

/-- **C70**, periodicity of the supercell: atoms whose positions differ by a vector `R` with `q.R` a multiple of `2 pi` for all wave vectors are displaced equally (the wave vectors are commensurate with the supercell, C26). -/
theorem C70_periodic_partial (energy mass phase0 t : ℝ) (m : TestMode) (k : ℤ) :
    testTerm energy mass phase0 t { m with qr := m.qr + k * (2 * Real.pi) } = testTerm energy mass phase0 t m := by
  rw [testTerm_eq, testTerm_eq]
  have : testAmplitude energy { m with qr := m.qr + k * (2 * Real.pi) } = testAmplitude energy m := rfl
  rw [this]
  simp only
  congr 2
  rw [show m.qr + (k : ℝ) * (2 * Real.pi) + m.e.arg - 2 * Real.pi * m.freq * t = m.qr + m.e.arg - 2 * Real.pi * m.freq * t + k * (2 * Real.pi) by ring]
  exact Real.cos_add_int_mul_two_pi _ k

/-- The mean of `sin²` over one period. -/
theorem mean_sin_sq (a f : ℝ) (hf : 0 < f) : f * ∫ t in (0 : ℝ)..(1 / f), Real.sin (a - 2 * Real.pi * f * t) ^ 2 = 1 / 2 := by
  have hpi := Real.pi_pos
  have hc : 2 * Real.pi * f ≠ 0 := by positivity
  rw [intervalIntegral.integral_comp_sub_mul (fun x => Real.sin x ^ 2) hc a, integral_sin_sq]
  have e : a - 2 * Real.pi * f * (1 / f) = a - 2 * Real.pi := by field_simp
  rw [e, mul_zero, sub_zero, Real.sin_sub_two_pi, Real.cos_sub_two_pi, smul_eq_mul]
  field_simp
  ring

/-- C70 is violated (temperature): one phonon of frequency `f` written on all coordinates of the supercell (eigenvector components `(modes i).e` with `Σ |e|² = cells`, which is a normalised eigenvector of the
primitive cell repeated in every primitive cell). The mean over one period of its kinetic energy `Σ m v²/2` is `nd/4 k_B T` (times `atoms_relation`, which is 1 when all the commensurate points are used): for three
dimensions `3/4 k_B T`, and not the `1/2 k_B T` of the requested temperature. -/
theorem C70_equipartition_violated {ι : Type} [Fintype ι] (nd temperature cells relation f : ℝ) (mass : ι → ℝ) (modes : ι → TestMode) (hfreq : ∀ i, (modes i).freq = f) (hf : 0 < f)
    (hmass : ∀ i, 0 < mass i) (hnorm : ∑ i, ‖(modes i).e‖ ^ 2 = cells) (hcells : 0 < cells) (hnd : 0 ≤ nd) (hT : 0 ≤ temperature) (hr : 0 ≤ relation) :
    f * ∫ t in (0 : ℝ)..(1 / f), ∑ i, mass i / 2 * deriv (fun t => testTerm (testEnergy nd temperature cells relation) (mass i) 0 t (modes i)) t ^ 2 =
      relation * (nd / 4 * (0.831446 * temperature)) := by
  have hpi := Real.pi_pos
  set E := testEnergy nd temperature cells relation with hE
  have hE0 : 0 ≤ E := by rw [hE]; unfold testEnergy; positivity
  have hd : ∀ i t, mass i / 2 * deriv (fun t => testTerm E (mass i) 0 t (modes i)) t ^ 2 =
      E / 2 * ‖(modes i).e‖ ^ 2 * Real.sin ((modes i).qr + Complex.arg (modes i).e - 2 * Real.pi * f * t) ^ 2 := by
    intro i t
    have hlin : HasDerivAt (fun t : ℝ => (modes i).qr + Complex.arg (modes i).e - 2 * Real.pi * f * t) (-(2 * Real.pi * f)) t := by
      have := ((hasDerivAt_id t).const_mul (2 * Real.pi * f)).const_sub ((modes i).qr + Complex.arg (modes i).e)
      simpa using this
    have h1 : (fun t => testTerm E (mass i) 0 t (modes i)) =
        fun t => 1 / Real.sqrt (mass i) * testAmplitude E (modes i) * Real.exp 0 * (‖(modes i).e‖ * Real.cos ((modes i).qr + Complex.arg (modes i).e - 2 * Real.pi * f * t)) := by
      funext t; rw [testTerm_eq, hfreq]
    have h2 := (hlin.cos.const_mul ‖(modes i).e‖).const_mul (1 / Real.sqrt (mass i) * testAmplitude E (modes i) * Real.exp 0)
    rw [h1, h2.deriv, Real.exp_zero]
    unfold testAmplitude
    rw [hfreq]
    have hs : 0 < Real.sqrt (mass i) := Real.sqrt_pos.2 (hmass i)
    have e1 : Real.sqrt (mass i) ^ 2 = mass i := Real.sq_sqrt (hmass i).le
    have e2 : Real.sqrt E ^ 2 = E := Real.sq_sqrt hE0
    have e3 : 1 / Real.sqrt (mass i) * (Real.sqrt E / (f * 2 * Real.pi)) * 1 *
        (‖(modes i).e‖ * (-Real.sin ((modes i).qr + Complex.arg (modes i).e - 2 * Real.pi * f * t) * -(2 * Real.pi * f))) =
        Real.sqrt E * ‖(modes i).e‖ * Real.sin ((modes i).qr + Complex.arg (modes i).e - 2 * Real.pi * f * t) / Real.sqrt (mass i) := by
      field_simp
    rw [e3, div_pow, mul_pow, mul_pow, e1, e2]
    have := (hmass i).ne'
    field_simp
  simp only [hd]
  rw [intervalIntegral.integral_finsetSum]
  · simp only [intervalIntegral.integral_const_mul]
    rw [Finset.mul_sum]
    have h3 : ∀ i, f * (E / 2 * ‖(modes i).e‖ ^ 2 * ∫ t in (0 : ℝ)..(1 / f), Real.sin ((modes i).qr + Complex.arg (modes i).e - 2 * Real.pi * f * t) ^ 2) = E / 4 * ‖(modes i).e‖ ^ 2 := by
      intro i
      have := mean_sin_sq ((modes i).qr + Complex.arg (modes i).e) f hf
      linear_combination (E / 2 * ‖(modes i).e‖ ^ 2) * this
    rw [Finset.sum_congr rfl fun i _ => h3 i, ← Finset.mul_sum, hnorm, hE]
    unfold testEnergy
    field_simp
  · intro i _
    apply Continuous.intervalIntegrable
    fun_prop

/-- The hypotheses of `C70_equipartition_violated`: three atoms in a line with the eigenvector (1, 1, 1). -/
example : ∑ i : Fin 3, ‖(⟨2, 1, i.val⟩ : TestMode).e‖ ^ 2 = (3 : ℝ) ∧ (3 : ℝ) / 4 * (0.831446 * 300) ≠ 1 / 2 * (0.831446 * 300) := by
  constructor
  · simp
  · norm_num

/-- A phonon for the hypotheses above. -/
example : ∃ m : TestMode, (0.1 : ℝ) < m.freq ∧ m.e ≠ 0 := ⟨⟨5, 1, 0⟩, by norm_num, one_ne_zero⟩

end Verif
