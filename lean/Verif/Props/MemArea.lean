import Verif.Model.ChainFull
import Verif.Props.Spectra
import Verif.Props.ChainFull
import Mathlib.Analysis.Complex.MeanValue
import Mathlib.MeasureTheory.Integral.IntervalIntegral.FundThmCalculus

/-! # C149: the area of the maximum entropy spectrum -/

set_option autoImplicit false

namespace Verif

open Complex

/-- The prediction polynomial read backwards. -/
noncomputable def backPoly (a : ℕ → ℝ) (n : ℕ) (z : ℂ) : ℂ := z ^ n - ∑ i ∈ Finset.range n, (a (i + 1) : ℂ) * z ^ (n - (i + 1))

/-- The reflection coefficient of step `k + 1`. -/
noncomputable def burgRefl (d : ℕ → ℝ) (N k : ℕ) : ℝ := mRefl (burg d N k).f (burg d N k).b (N - (k + 1))

theorem burg_coef_sum (d : ℕ → ℝ) (N k : ℕ) (g : ℕ → ℂ) :
    ∑ i ∈ Finset.range (k + 1), ((burg d N (k + 1)).a (i + 1) : ℂ) * g i =
      ∑ i ∈ Finset.range k, ((burg d N k).a (i + 1) : ℂ) * g i - (burgRefl d N k : ℂ) * ∑ i ∈ Finset.range k, ((burg d N k).a (i + 1) : ℂ) * g (k - 1 - i) + (burgRefl d N k : ℂ) * g k := by
  rw [Finset.sum_range_succ]
  have e1 : ((burg d N (k + 1)).a (k + 1) : ℂ) = burgRefl d N k := by simp [burg, burgRefl]
  have e2 : ∑ i ∈ Finset.range k, ((burg d N k).a (i + 1) : ℂ) * g (k - 1 - i) = ∑ i ∈ Finset.range k, ((burg d N k).a (k - i) : ℂ) * g i := by
    rw [← Finset.sum_range_reflect]
    refine Finset.sum_congr rfl fun i hi => ?_
    rw [Finset.mem_range] at hi
    have h1 : k - 1 - i + 1 = k - i := by omega
    have h2 : k - 1 - (k - 1 - i) = i := by omega
    rw [h1, h2]
  rw [e1, e2, Finset.mul_sum, ← Finset.sum_sub_distrib]
  congr 1
  refine Finset.sum_congr rfl fun i hi => ?_
  rw [Finset.mem_range] at hi
  have h1 : ¬ i + 1 = k + 1 := by omega
  have h2 : k + 1 - (i + 1) = k - i := by omega
  simp only [burg, h1, if_false]
  rw [if_pos ⟨by omega, by omega⟩, h2]
  simp only [burgRefl]
  push_cast
  ring

theorem predPoly_step (d : ℕ → ℝ) (N k : ℕ) (z : ℂ) :
    predPoly (burg d N (k + 1)).a (k + 1) z = predPoly (burg d N k).a k z - burgRefl d N k * (z * backPoly (burg d N k).a k z) := by
  unfold predPoly backPoly
  rw [burg_coef_sum d N k fun i => z ^ (i + 1)]
  have h : ∑ i ∈ Finset.range k, ((burg d N k).a (i + 1) : ℂ) * z ^ (k - 1 - i + 1) = z * ∑ i ∈ Finset.range k, ((burg d N k).a (i + 1) : ℂ) * z ^ (k - (i + 1)) := by
    rw [Finset.mul_sum]
    refine Finset.sum_congr rfl fun i hi => ?_
    rw [Finset.mem_range] at hi
    have : k - 1 - i = k - (i + 1) := by omega
    rw [this]
    ring
  rw [h]
  ring

theorem backPoly_step (d : ℕ → ℝ) (N k : ℕ) (z : ℂ) :
    backPoly (burg d N (k + 1)).a (k + 1) z = z * backPoly (burg d N k).a k z - burgRefl d N k * predPoly (burg d N k).a k z := by
  unfold predPoly backPoly
  rw [burg_coef_sum d N k fun i => z ^ (k + 1 - (i + 1))]
  have h1 : ∑ i ∈ Finset.range k, ((burg d N k).a (i + 1) : ℂ) * z ^ (k + 1 - (i + 1)) = z * ∑ i ∈ Finset.range k, ((burg d N k).a (i + 1) : ℂ) * z ^ (k - (i + 1)) := by
    rw [Finset.mul_sum]
    refine Finset.sum_congr rfl fun i hi => ?_
    rw [Finset.mem_range] at hi
    have : k + 1 - (i + 1) = k - (i + 1) + 1 := by omega
    rw [this]
    ring
  have h2 : ∑ i ∈ Finset.range k, ((burg d N k).a (i + 1) : ℂ) * z ^ (k + 1 - (k - 1 - i + 1)) = ∑ i ∈ Finset.range k, ((burg d N k).a (i + 1) : ℂ) * z ^ (i + 1) := by
    refine Finset.sum_congr rfl fun i hi => ?_
    rw [Finset.mem_range] at hi
    have : k + 1 - (k - 1 - i + 1) = i + 1 := by omega
    rw [this]
  rw [h1, h2, Nat.sub_self, pow_zero]
  ring

theorem burgRefl_lt (d : ℕ → ℝ) (N k : ℕ) (h : (burg d N (k + 1)).msd ≠ 0) : (burg d N k).msd ≠ 0 ∧ |burgRefl d N k| < 1 := by
  have hm : (burg d N (k + 1)).msd = (burg d N k).msd * (1 - burgRefl d N k ^ 2) := rfl
  rw [hm, mul_ne_zero_iff] at h
  refine ⟨h.1, lt_of_le_of_ne (abs_mRefl_le _ _ _) fun he => h.2 ?_⟩
  rw [← sq_abs]
  change |burgRefl d N k| = 1 at he
  rw [he]; norm_num

/-- The prediction polynomial has no zero in the closed unit disc. -/
theorem predPoly_disc (d : ℕ → ℝ) (N k : ℕ) (h : (burg d N k).msd ≠ 0) (z : ℂ) (hz : ‖z‖ ≤ 1) :
    predPoly (burg d N k).a k z ≠ 0 ∧ ‖backPoly (burg d N k).a k z‖ ≤ ‖predPoly (burg d N k).a k z‖ := by
  induction k with
  | zero => simp [predPoly, backPoly]
  | succ k ih =>
    obtain ⟨h0, hc⟩ := burgRefl_lt d N k h
    obtain ⟨ha, hb⟩ := ih h0
    rw [predPoly_step, backPoly_step]
    generalize predPoly (burg d N k).a k z = A at *
    generalize backPoly (burg d N k).a k z = B at *
    generalize burgRefl d N k = c at *
    have hw : ‖z * B‖ ≤ ‖A‖ := by
      rw [norm_mul]
      calc ‖z‖ * ‖B‖ ≤ 1 * ‖B‖ := mul_le_mul_of_nonneg_right hz (norm_nonneg _)
        _ ≤ ‖A‖ := by rw [one_mul]; exact hb
    generalize z * B = w at *
    have hp : 0 < ‖A‖ := norm_pos_iff.2 ha
    constructor
    · intro hzero
      rw [sub_eq_zero] at hzero
      have hn := congrArg norm hzero
      rw [norm_mul, norm_real, Real.norm_eq_abs] at hn
      have := abs_nonneg c
      nlinarith [norm_nonneg w]
    · have hsq : ‖w - c * A‖ ^ 2 ≤ ‖A - c * w‖ ^ 2 := by
        have hww : ‖w‖ ^ 2 ≤ ‖A‖ ^ 2 := by gcongr
        rw [← normSq_eq_norm_sq, ← normSq_eq_norm_sq] at hww ⊢
        have hc2 : c ^ 2 ≤ 1 := (sq_le_one_iff_abs_le_one _).2 hc.le
        simp only [normSq_apply, sub_re, sub_im, mul_re, mul_im, ofReal_re, ofReal_im, zero_mul, sub_zero, add_zero] at hww ⊢
        nlinarith
      exact (sq_le_sq₀ (norm_nonneg _) (norm_nonneg _)).1 hsq

/-- The step of the recursion on the unit circle. -/
theorem circle_step (A : ℂ) (u : ℂ) (hu : ‖u‖ = 1) (c : ℝ) (ha : A ≠ 0) (hb : A - c * u * starRingEnd ℂ A ≠ 0) :
    (1 - c ^ 2) / ‖A - c * u * starRingEnd ℂ A‖ ^ 2 = 1 / ‖A‖ ^ 2 + 2 * ((c : ℂ) * u / ((A - c * u * starRingEnd ℂ A) * A)).re := by
  set B := A - c * u * starRingEnd ℂ A with hB
  have hA0 : normSq A ≠ 0 := by rwa [Ne, map_eq_zero]
  have hB0 : normSq B ≠ 0 := by rwa [Ne, map_eq_zero]
  have hu2 : normSq u = 1 := by rw [normSq_eq_norm_sq, hu]; norm_num
  have e : ((c : ℂ) * u / (B * A)).re = ((c : ℂ) * u * starRingEnd ℂ (B * A)).re / (normSq B * normSq A) := by
    rw [div_eq_mul_inv, inv_def, ← mul_assoc, re_mul_ofReal, normSq_mul, div_eq_mul_inv]
  rw [e, ← normSq_eq_norm_sq, ← normSq_eq_norm_sq]
  field_simp
  have hBA : normSq B = normSq A * (1 + c ^ 2 * normSq u) - 2 * c * (u * starRingEnd ℂ A * starRingEnd ℂ A).re := by
    rw [hB]
    simp only [normSq_apply, sub_re, sub_im, mul_re, mul_im, ofReal_re, ofReal_im, conj_re, conj_im, zero_mul, sub_zero, add_zero]
    ring
  have hre : ((c : ℂ) * u * starRingEnd ℂ (B * A)).re = c * (u * starRingEnd ℂ A * starRingEnd ℂ A).re - c ^ 2 * normSq u * normSq A := by
    rw [hB]
    simp only [normSq_apply, map_mul, map_sub, conj_conj, conj_ofReal, sub_re, sub_im, mul_re, mul_im, ofReal_re, ofReal_im, conj_re, conj_im, zero_mul, sub_zero, add_zero]
    ring
  rw [hre, hBA, hu2]
  ring

theorem predPoly_continuous (a : ℕ → ℝ) (n : ℕ) : Continuous (predPoly a n) := by
  unfold predPoly
  fun_prop

theorem predPoly_differentiable (a : ℕ → ℝ) (n : ℕ) : Differentiable ℂ (predPoly a n) := by
  unfold predPoly
  fun_prop

/-- The average of the spectrum of one real series over the circle is the mean square of the data. -/
theorem burg_average (d : ℕ → ℝ) (N k : ℕ) (h : (burg d N k).msd ≠ 0) :
    Real.circleAverage (fun z => (burg d N k).msd / ‖predPoly (burg d N k).a k z‖ ^ 2) 0 1 = (∑ j ∈ Finset.range N, d (j + 1) ^ 2) / N := by
  induction k with
  | zero =>
    simp only [predPoly, Finset.range_zero, Finset.sum_empty, sub_zero, norm_one, one_pow, div_one]
    rw [Real.circleAverage_const]
    rfl
  | succ k ih =>
    obtain ⟨h0, hc⟩ := burgRefl_lt d N k h
    rw [← ih h0]
    have hA := fun z hz => (predPoly_disc d N k h0 z hz).1
    have hB := fun z hz => (predPoly_disc d N (k + 1) h z hz).1
    set g : ℂ → ℂ := fun z => (burgRefl d N k : ℂ) * z ^ (k + 1) / (predPoly (burg d N (k + 1)).a (k + 1) z * predPoly (burg d N k).a k z) with hg
    have hgd : ∀ z : ℂ, ‖z‖ ≤ 1 → DifferentiableAt ℂ g z := by
      intro z hz
      refine DifferentiableAt.div (by fun_prop) (((predPoly_differentiable _ _) z).mul ((predPoly_differentiable _ _) z)) (mul_ne_zero (hB z hz) (hA z hz))
    have hgavg : Real.circleAverage g 0 1 = 0 := by
      rw [circleAverage_of_differentiable_on_off_countable (s := ∅) Set.countable_empty]
      · simp [hg]
      · intro z hz
        rw [abs_one, Metric.mem_closedBall, dist_zero_right] at hz
        exact (hgd z hz).continuousAt.continuousWithinAt
      · intro z hz
        have := hz.1
        rw [abs_one, Metric.mem_ball, dist_zero_right] at this
        exact hgd z this.le
    have hgi : CircleIntegrable g 0 1 := by
      refine ContinuousOn.circleIntegrable zero_le_one fun z hz => ?_
      rw [mem_sphere_zero_iff_norm] at hz
      exact (hgd z hz.le).continuousAt.continuousWithinAt
    have hre : Real.circleAverage (fun z => (g z).re) 0 1 = 0 := by
      have := Complex.reCLM.circleAverage_comp_comm hgi
      rw [hgavg, map_zero] at this
      exact this
    have hrei : CircleIntegrable (fun z => (g z).re) 0 1 := by
      refine ContinuousOn.circleIntegrable zero_le_one fun z hz => ?_
      rw [mem_sphere_zero_iff_norm] at hz
      exact (continuous_re.continuousAt.comp (hgd z hz.le).continuousAt).continuousWithinAt
    have hki : CircleIntegrable (fun z => (burg d N k).msd / ‖predPoly (burg d N k).a k z‖ ^ 2) 0 1 := by
      refine ContinuousOn.circleIntegrable zero_le_one fun z hz => ?_
      rw [mem_sphere_zero_iff_norm] at hz
      refine ContinuousWithinAt.div continuousWithinAt_const ((predPoly_continuous _ _).norm.pow 2).continuousWithinAt ?_
      exact pow_ne_zero _ (norm_ne_zero_iff.2 (hA z hz.le))
    have hstep : Set.EqOn (fun z => (burg d N (k + 1)).msd / ‖predPoly (burg d N (k + 1)).a (k + 1) z‖ ^ 2)
        (fun z => (burg d N k).msd / ‖predPoly (burg d N k).a k z‖ ^ 2 + (2 * (burg d N k).msd) • (g z).re) (Metric.sphere 0 |1|) := by
      intro z hz
      rw [abs_one, mem_sphere_zero_iff_norm] at hz
      have hm : (burg d N (k + 1)).msd = (burg d N k).msd * (1 - burgRefl d N k ^ 2) := rfl
      have hs : predPoly (burg d N (k + 1)).a (k + 1) z = predPoly (burg d N k).a k z - burgRefl d N k * z ^ (k + 1) * starRingEnd ℂ (predPoly (burg d N k).a k z) := predPoly_succ d N k z hz
      have hb := hB z hz.le
      simp only [hg]
      rw [hm]
      rw [hs] at hb ⊢
      have := circle_step (predPoly (burg d N k).a k z) (z ^ (k + 1)) (by rw [norm_pow, hz, one_pow]) (burgRefl d N k) (hA z hz.le) hb
      rw [mul_div_assoc, this, smul_eq_mul]
      ring
    rw [Real.circleAverage_congr_sphere hstep, Real.circleAverage_fun_add hki (hrei.const_fun_smul), Real.circleAverage_fun_smul, hre]
    simp

theorem predPoly_conj (a : ℕ → ℝ) (n : ℕ) (z : ℂ) : predPoly a n (starRingEnd ℂ z) = starRingEnd ℂ (predPoly a n z) := by
  unfold predPoly
  simp

/-- The area of the part of one real series. -/
theorem memPart_area (d : ℕ → ℝ) (N M : ℕ) (dt : ℝ) (hdt : 0 < dt) :
    (∀ δ, memPart d N M δ = 0) ∨ ∫ f in (0 : ℝ)..1 / (2 * dt), memPart d N M (f * 2 * Real.pi * dt) * dt = (∑ j ∈ Finset.range N, d (j + 1) ^ 2) / N / 2 := by
  by_cases hsmall : ∃ m, m < M ∧ |burgDen d N m| < 1e-6
  · exact Or.inl fun δ => if_pos hsmall
  by_cases hmsd : (burg d N M).msd = 0
  · refine Or.inl fun δ => ?_
    unfold memPart
    rw [if_neg hsmall, hmsd, zero_div]
  right
  have hval : ∀ δ : ℝ, memPart d N M δ = (burg d N M).msd / ‖predPoly (burg d N M).a M (circleMap 0 1 δ)‖ ^ 2 := by
    intro δ
    unfold memPart
    rw [if_neg hsmall]
    simp [circleMap]
  set g : ℝ → ℝ := memPart d N M with hg
  have hcont : Continuous g := by
    have : g = fun δ => (burg d N M).msd / ‖predPoly (burg d N M).a M (circleMap 0 1 δ)‖ ^ 2 := funext hval
    rw [this]
    refine continuous_const.div (((predPoly_continuous _ _).comp (continuous_circleMap 0 1)).norm.pow 2) fun δ => ?_
    exact pow_ne_zero _ (norm_ne_zero_iff.2 (predPoly_disc d N M hmsd _ (by simp [circleMap])).1)
  have hsym : ∀ x : ℝ, g (2 * Real.pi - x) = g x := by
    intro x
    rw [hval, hval]
    have : circleMap 0 1 (2 * Real.pi - x) = starRingEnd ℂ (circleMap 0 1 x) := by
      simp only [circleMap, ofReal_one, one_mul, zero_add, ← exp_conj, map_mul, conj_ofReal, conj_I]
      push_cast
      rw [sub_mul, exp_sub, exp_two_pi_mul_I, mul_neg, exp_neg, one_div]
    rw [this, predPoly_conj, norm_conj]
  have havg := burg_average d N M hmsd
  rw [Real.circleAverage_def, smul_eq_mul] at havg
  simp only [← hval] at havg
  have hsplit : ∫ θ in (0 : ℝ)..2 * Real.pi, g θ = 2 * ∫ θ in (0 : ℝ)..Real.pi, g θ := by
    rw [← intervalIntegral.integral_add_adjacent_intervals (hcont.intervalIntegrable 0 Real.pi) (hcont.intervalIntegrable Real.pi (2 * Real.pi))]
    have := intervalIntegral.integral_comp_sub_left (a := 0) (b := Real.pi) g (2 * Real.pi)
    simp only [hsym] at this
    rw [this, show 2 * Real.pi - Real.pi = Real.pi by ring, sub_zero]
    ring
  have hsub : ∫ f in (0 : ℝ)..1 / (2 * dt), g (f * 2 * Real.pi * dt) * dt = (2 * Real.pi)⁻¹ * ∫ θ in (0 : ℝ)..Real.pi, g θ := by
    rw [intervalIntegral.integral_mul_const]
    have h := intervalIntegral.integral_comp_mul_right (a := 0) (b := 1 / (2 * dt)) g (c := 2 * Real.pi * dt) (by positivity)
    have e : ∀ f : ℝ, f * (2 * Real.pi * dt) = f * 2 * Real.pi * dt := fun f => by ring
    have e2 : 1 / (2 * dt) * (2 * Real.pi * dt) = Real.pi := by field_simp
    rw [e2, zero_mul, smul_eq_mul] at h
    simp only [e] at h
    rw [h]
    field_simp
  rw [hsub, ← havg, hsplit]
  ring

variable {m : ℕ}

/-- Half the mean square, in the units of the spectra, of what the maximum entropy method takes for the data of column `i`: all rows but the first, divided by the number of rows. -/
noncomputable def halfMeanSquare (part : ℂ → ℝ) (vq : List (Fin m → ℂ)) (i : Fin m) : ℝ :=
  unitConversion * ((((vq.drop 1).map fun row => part (row i) ^ 2).sum) / vq.length / 2)

theorem sum_shifted (x : List ℝ) : ∑ j ∈ Finset.range x.length, x.getD (j + 1) 0 ^ 2 = ((x.drop 1).map (· ^ 2)).sum := by
  cases x with
  | nil => simp
  | cons a t =>
    rw [List.length_cons, Finset.sum_range_succ]
    simp only [List.getD_cons_succ, List.drop_succ_cons, List.drop_zero]
    rw [List.getD_eq_getElem?_getD (l := t), List.getElem?_eq_none le_rfl]
    have : ∀ t : List ℝ, ∑ j ∈ Finset.range t.length, t.getD j 0 ^ 2 = (t.map (· ^ 2)).sum := by
      intro t
      induction t with
      | nil => simp
      | cons b t ih =>
        rw [List.length_cons, Finset.sum_range_succ']
        simp only [List.getD_cons_succ, List.getD_cons_zero, List.map_cons, List.sum_cons]
        rw [ih]; ring
    rw [this]; simp

/-- The maximum entropy spectra of all columns. -/
theorem mem_rows (env : SpecEnv) (he : CleanMemory env) (p : SpecParams) (w : List (Fin m → ℂ)) (dt : ℝ) (hl : p.coefs + 1 < w.length) :
    powerSpectra env 1 p w dt = .ok (false, p.freqs.map fun f => List.ofFn fun i : Fin m =>
      (memPart (fun j => ((column w i).getD j 0).re) w.length p.coefs (f * 2 * Real.pi * dt) + memPart (fun j => ((column w i).getD j 0).im) w.length p.coefs (f * 2 * Real.pi * dt)) * dt * unitConversion) := by
  have hcl : ∀ i, (column w i).length = w.length := fun i => by simp [column]
  rw [powerSpectra_intro (w := false) (by simp [specCheck]; omega) _ fun i => columnSpec_mem env he _ i _ (by rw [hcl]; omega) dt]
  congr 2
  refine List.ext_getElem (by simp [psdRows]) fun k h1 h2 => ?_
  have hk : k < p.freqs.length := by simpa using h2
  simp only [psdRows, List.getElem_map, List.getElem_range]
  refine List.ext_getElem (by simp) fun j h3 h4 => ?_
  simp [hk, hcl]

theorem memPart_nonneg (d : ℕ → ℝ) (N M : ℕ) (δ : ℝ) : 0 ≤ memPart d N M δ := by
  unfold memPart
  split_ifs
  · exact le_rfl
  · exact div_nonneg (burg_msd_nonneg _ _ _) (by positivity)

theorem memPart_continuous (d : ℕ → ℝ) (N M : ℕ) : Continuous (memPart d N M) := by
  by_cases hsmall : ∃ m, m < M ∧ |burgDen d N m| < 1e-6
  · have : memPart d N M = fun _ => 0 := funext fun δ => if_pos hsmall
    rw [this]; exact continuous_const
  by_cases hmsd : (burg d N M).msd = 0
  · have : memPart d N M = fun _ => 0 := funext fun δ => by
      unfold memPart
      rw [if_neg hsmall, hmsd, zero_div]
    rw [this]; exact continuous_const
  have : memPart d N M = fun δ : ℝ => (burg d N M).msd / ‖predPoly (burg d N M).a M (exp (δ * I))‖ ^ 2 := funext fun δ => by
    unfold memPart
    rw [if_neg hsmall]
  rw [this]
  refine continuous_const.div (((predPoly_continuous _ _).comp (by fun_prop)).norm.pow 2) fun δ => ?_
  exact pow_ne_zero _ (norm_ne_zero_iff.2 (predPoly_disc d N M hmsd _ (norm_exp_ofReal_mul_I δ).le).1)

/-- **C149**: the maximum entropy spectrum of every column is the sum of the spectra of the real and of the imaginary part, and the area of each of the two from zero to the highest frequency that the time step
resolves is half the mean square of the part (all rows but the first), whatever the number of coefficients, unless this spectrum is zero everywhere. -/
theorem C149_area (env : SpecEnv) (he : CleanMemory env) (p : SpecParams) (vq : List (Fin m → ℂ)) (dt : ℝ) (hdt : 0 < dt) (hl : p.coefs + 1 < vq.length) :
    ∃ P Q : Fin m → ℝ → ℝ, (∀ i, Continuous (P i) ∧ Continuous (Q i)) ∧ (∀ i f, 0 ≤ P i f ∧ 0 ≤ Q i f) ∧
      (∀ freqs, powerSpectra env 1 { p with freqs := freqs } vq dt = .ok (false, freqs.map fun f => List.ofFn fun i => P i f + Q i f)) ∧
      (∀ freqs, powerSpectra env 1 { p with freqs := freqs } (vq.map fun row i => ((row i).re : ℂ)) dt = .ok (false, freqs.map fun f => List.ofFn fun i => P i f)) ∧
      (∀ freqs, powerSpectra env 1 { p with freqs := freqs } (vq.map fun row i => ((row i).im : ℂ)) dt = .ok (false, freqs.map fun f => List.ofFn fun i => Q i f)) ∧
      ∀ i, ((∀ f, P i f = 0) ∨ ∫ f in (0 : ℝ)..1 / (2 * dt), P i f = halfMeanSquare re vq i) ∧ ((∀ f, Q i f = 0) ∨ ∫ f in (0 : ℝ)..1 / (2 * dt), Q i f = halfMeanSquare im vq i) := by
  have hlen : ∀ i, (column vq i).length = vq.length := fun i => by simp [column]
  have key : ∀ (w : List (Fin m → ℂ)), w.length = vq.length → ∀ freqs, powerSpectra env 1 { p with freqs := freqs } w dt = .ok (false, freqs.map fun f => List.ofFn fun i : Fin m =>
      (memPart (fun j => ((column w i).getD j 0).re) vq.length p.coefs (f * 2 * Real.pi * dt) + memPart (fun j => ((column w i).getD j 0).im) vq.length p.coefs (f * 2 * Real.pi * dt)) * dt * unitConversion) :=
    fun w hw freqs => hw ▸ mem_rows env he { p with freqs := freqs } w dt (by rw [hw]; exact hl)
  have hpart : ∀ (g : ℂ → ℝ), g 0 = 0 → ∀ i : Fin m, (∀ f, memPart (fun j => g ((column vq i).getD j 0)) vq.length p.coefs (f * 2 * Real.pi * dt) * dt * unitConversion = 0) ∨
      ∫ f in (0 : ℝ)..1 / (2 * dt), memPart (fun j => g ((column vq i).getD j 0)) vq.length p.coefs (f * 2 * Real.pi * dt) * dt * unitConversion = halfMeanSquare g vq i := by
    intro g hg i
    rcases memPart_area (fun j => g ((column vq i).getD j 0)) vq.length p.coefs dt hdt with h | h
    · exact Or.inl fun f => by rw [h]; ring
    · refine Or.inr ?_
      rw [intervalIntegral.integral_mul_const, h]
      have hs := sum_shifted (vq.map fun row => g (row i))
      have e : ∀ j, g ((column vq i).getD j 0) = (vq.map fun row => g (row i)).getD j 0 := by
        intro j
        simp only [column, List.getD_eq_getElem?_getD, List.getElem?_map]
        cases vq[j]? <;> simp [hg]
      simp only [e]
      rw [List.length_map] at hs
      rw [hs, halfMeanSquare, List.drop_one, List.drop_one, ← List.map_tail, List.map_map]
      simp only [Function.comp_def]
      ring
  have hzero : ∀ δ, memPart (fun _ : ℕ => (0 : ℝ)) vq.length p.coefs δ = 0 := memPart_zero _ _
  refine ⟨fun i f => memPart (fun j => ((column vq i).getD j 0).re) vq.length p.coefs (f * 2 * Real.pi * dt) * dt * unitConversion,
    fun i f => memPart (fun j => ((column vq i).getD j 0).im) vq.length p.coefs (f * 2 * Real.pi * dt) * dt * unitConversion, ?_, ?_, ?_, ?_, ?_, fun i => ⟨hpart re rfl i, hpart im rfl i⟩⟩
  · exact fun i => ⟨(((memPart_continuous _ _ _).comp (by fun_prop)).mul continuous_const).mul continuous_const, (((memPart_continuous _ _ _).comp (by fun_prop)).mul continuous_const).mul continuous_const⟩
  · have huc : 0 < unitConversion := by unfold unitConversion; norm_num
    exact fun i f => ⟨mul_nonneg (mul_nonneg (memPart_nonneg _ _ _ _) hdt.le) huc.le, mul_nonneg (mul_nonneg (memPart_nonneg _ _ _ _) hdt.le) huc.le⟩
  · intro freqs
    rw [key vq rfl]
    simp only [add_mul]
  · intro freqs
    rw [key _ (by simp)]
    have e1 : ∀ (i : Fin m) j, ((column (vq.map fun row i => ((row i).re : ℂ)) i).getD j 0).re = ((column vq i).getD j 0).re := by
      intro i j
      simp only [column, List.getD_eq_getElem?_getD, List.getElem?_map]
      cases vq[j]? <;> simp
    have e2 : ∀ (i : Fin m) j, ((column (vq.map fun row i => ((row i).re : ℂ)) i).getD j 0).im = 0 := by
      intro i j
      simp only [column, List.getD_eq_getElem?_getD, List.getElem?_map]
      cases vq[j]? <;> simp
    simp only [e1, e2, hzero, add_zero]
  · intro freqs
    rw [key _ (by simp)]
    have e1 : ∀ (i : Fin m) j, ((column (vq.map fun row i => ((row i).im : ℂ)) i).getD j 0).re = ((column vq i).getD j 0).im := by
      intro i j
      simp only [column, List.getD_eq_getElem?_getD, List.getElem?_map]
      cases vq[j]? <;> simp
    have e2 : ∀ (i : Fin m) j, ((column (vq.map fun row i => ((row i).im : ℂ)) i).getD j 0).im = 0 := by
      intro i j
      simp only [column, List.getD_eq_getElem?_getD, List.getElem?_map]
      cases vq[j]? <;> simp
    simp only [e1, e2, hzero, add_zero]

/-- Kinetic energy of `N` atoms. -/
noncomputable def kineticEnergy {d : ℕ} (masses : List ℝ) (N : ℕ) (v : ℕ → Fin d → ℂ) : ℝ := ∑ i ∈ Finset.range N, ∑ k, masses.getD i 0 * ‖v i k‖ ^ 2 / 2

/-- **C149**, for the sum of all spectra: the area of the full maximum entropy spectrum of a motion (real velocities, given in one frame after the other) from zero to the highest frequency that the time step resolves is at
most the mean kinetic energy (in the units of the spectra; the first frame is not used, see C30), and equal to it if no component of the velocity of an atom has a spectrum that is zero everywhere: for any number
of coefficients. -/
theorem C149_kinetic {d : ℕ} (env : SpecEnv) (he : CleanMemory env) (p : SpecParams) (masses : List ℝ) (hm : ∀ x ∈ masses, 0 ≤ x) (N : ℕ) (vs : List (ℕ → Fin d → ℂ)) (hreal : ∀ v ∈ vs, ∀ i k, (v i k).im = 0) (dt : ℝ)
    (hdt : 0 < dt) (hl : p.coefs + 1 < vs.length) :
    ∃ S : ℝ → ℝ, (∀ freqs, summedSpectra env 1 { p with freqs := freqs } N (vs.map fun v => massWeighted masses v) dt = .ok (false, freqs.map S)) ∧ Continuous S ∧ (∀ f, 0 ≤ S f) ∧
      ∫ f in (0 : ℝ)..1 / (2 * dt), S f ≤ unitConversion * (((vs.drop 1).map fun v => kineticEnergy masses N v).sum / vs.length) ∧
      ((∀ i < N, ∀ k : Fin d, ∃ f, powerSpectra env 1 { p with freqs := [f] } (vs.map fun v (_ : Fin 1) => massWeighted masses v i k) dt ≠ .ok (false, [[0]])) →
        ∫ f in (0 : ℝ)..1 / (2 * dt), S f = unitConversion * (((vs.drop 1).map fun v => kineticEnergy masses N v).sum / vs.length)) := by
  set rows : Fin d → Fin N → List ℂ := fun k i => vs.map fun v => massWeighted masses v i k with hrows
  set P : Fin d → Fin N → ℝ → ℝ := fun k i f => memPart (fun j => ((rows k i).getD j 0).re) vs.length p.coefs (f * 2 * Real.pi * dt) * dt * unitConversion with hP
  have huc : 0 < unitConversion := by unfold unitConversion; norm_num
  have him0 : ∀ k i j, ((rows k i).getD j 0).im = 0 := by
    intro k i j
    simp only [hrows, List.getD_eq_getElem?_getD, List.getElem?_map]
    cases hj : vs[j]? with
    | none => simp
    | some v => simp [massWeighted, hreal v (List.mem_of_getElem? hj)]
  have hzero : ∀ δ, memPart (fun _ : ℕ => (0 : ℝ)) vs.length p.coefs δ = 0 := memPart_zero _ _
  have hcont : ∀ k i, Continuous (P k i) := fun k i => (((memPart_continuous _ _ _).comp (by fun_prop)).mul continuous_const).mul continuous_const
  have hnn : ∀ k i f, 0 ≤ P k i f := fun k i f => mul_nonneg (mul_nonneg (memPart_nonneg _ _ _ _) hdt.le) huc.le
  have hone : ∀ k i, (∀ f, P k i f = 0) ∨ ∫ f in (0 : ℝ)..1 / (2 * dt), P k i f = unitConversion * (((vs.drop 1).map fun v => masses.getD i 0 * ‖v i k‖ ^ 2 / 2).sum / vs.length) := by
    intro k i
    rcases memPart_area (fun j => ((rows k i).getD j 0).re) vs.length p.coefs dt hdt with h | h
    · exact Or.inl fun f => by simp only [hP]; rw [h]; ring
    · refine Or.inr ?_
      simp only [hP]
      rw [intervalIntegral.integral_mul_const, h]
      have hs := sum_shifted (vs.map fun v => (massWeighted masses v i k).re)
      have e : ∀ j, ((rows k i).getD j 0).re = (vs.map fun v => (massWeighted masses v i k).re).getD j 0 := by
        intro j
        simp only [hrows, List.getD_eq_getElem?_getD, List.getElem?_map]
        cases vs[j]? <;> simp
      simp only [e]
      rw [List.length_map] at hs
      rw [hs, List.drop_one, List.drop_one, ← List.map_tail, List.map_map]
      have hmi : 0 ≤ masses.getD i 0 := by
        rw [List.getD_eq_getElem?_getD]
        cases hg : masses[(i : ℕ)]? with
        | none => simp
        | some x => exact hm x (List.mem_of_getElem? hg)
      have e2 : (vs.tail.map ((fun x : ℝ => x ^ 2) ∘ fun v => (massWeighted masses v i k).re)) = vs.tail.map fun v => 2 * (masses.getD i 0 * ‖v i k‖ ^ 2 / 2) := by
        refine List.map_congr_left fun v hv => ?_
        have h0 := hreal v (List.mem_of_mem_tail hv) i k
        have h1 : ‖v i k‖ ^ 2 = (v i k).re ^ 2 := by rw [← normSq_eq_norm_sq, normSq_apply, h0]; ring
        simp only [Function.comp_def, massWeighted, re_mul_ofReal]
        rw [mul_pow, Real.sq_sqrt hmi, h1]
        ring
      rw [e2, List.sum_map_mul_left]
      ring
  have hkin : ∑ k : Fin d, ∑ i : Fin N, unitConversion * (((vs.drop 1).map fun v => masses.getD i 0 * ‖v i k‖ ^ 2 / 2).sum / vs.length) =
      unitConversion * (((vs.drop 1).map fun v => kineticEnergy masses N v).sum / vs.length) := by
    simp only [← Finset.mul_sum, ← Finset.sum_div]
    congr 2
    have e : ∀ l : List (ℕ → Fin d → ℂ), ∑ k : Fin d, ∑ i : Fin N, (l.map fun v => masses.getD i 0 * ‖v i k‖ ^ 2 / 2).sum = (l.map fun v => kineticEnergy masses N v).sum := by
      intro l
      induction l with
      | nil => simp
      | cons v l ih =>
        simp only [List.map_cons, List.sum_cons, Finset.sum_add_distrib]
        rw [ih]
        congr 1
        rw [Finset.sum_comm, kineticEnergy, Finset.sum_range]
    exact e _
  have hint : ∫ f in (0 : ℝ)..1 / (2 * dt), ∑ k : Fin d, ∑ i : Fin N, P k i f = ∑ k : Fin d, ∑ i : Fin N, ∫ f in (0 : ℝ)..1 / (2 * dt), P k i f := by
    rw [intervalIntegral.integral_finsetSum fun k _ => (continuous_finsetSum _ fun i _ => hcont k i).intervalIntegrable _ _]
    refine Finset.sum_congr rfl fun k _ => ?_
    rw [intervalIntegral.integral_finsetSum fun i _ => (hcont k i).intervalIntegrable _ _]
  have hterm : ∀ k (i : Fin N), 0 ≤ unitConversion * (((vs.drop 1).map fun v => masses.getD i 0 * ‖v i k‖ ^ 2 / 2).sum / vs.length) := by
    intro k i
    refine mul_nonneg huc.le (div_nonneg (List.sum_nonneg ?_) (Nat.cast_nonneg _))
    intro x hx
    obtain ⟨v, -, rfl⟩ := List.mem_map.1 hx
    have hmi : 0 ≤ masses.getD i 0 := by
      rw [List.getD_eq_getElem?_getD]
      cases hg : masses[(i : ℕ)]? with
      | none => simp
      | some x => exact hm x (List.mem_of_getElem? hg)
    positivity
  refine ⟨fun f => ∑ k : Fin d, ∑ i : Fin N, P k i f, ?_, continuous_finsetSum _ fun k _ => continuous_finsetSum _ fun i _ => hcont k i,
    fun f => Finset.sum_nonneg fun k _ => Finset.sum_nonneg fun i _ => hnn k i f, ?_, ?_⟩
  · intro freqs
    have hlen : (componentRows N (vs.map fun v => massWeighted masses v)).length = vs.length := by rw [componentRows_length, List.length_map]
    unfold summedSpectra
    rw [mem_rows env he _ _ dt (by rw [hlen]; exact hl)]
    simp only [Except.map, List.map_map, hlen]
    congr 2
    refine List.map_congr_left fun f _ => ?_
    simp only [Function.comp_def]
    rw [List.sum_ofFn, ← finProdFinEquiv.sum_comp, Fintype.sum_prod_type]
    refine Finset.sum_congr rfl fun k _ => Finset.sum_congr rfl fun i _ => ?_
    have e : ∀ j, (column (componentRows N (vs.map fun v => massWeighted masses v)) (finProdFinEquiv (k, i))).getD j 0 = (rows k i).getD j 0 := by
      intro j
      rw [componentRows_apply]
      simp only [hrows, List.getD_eq_getElem?_getD, List.getElem?_map, Option.map_map]
      rfl
    simp only [e, him0, hzero, add_zero, hP]
  · rw [hint, ← hkin]
    refine Finset.sum_le_sum fun k _ => Finset.sum_le_sum fun i _ => ?_
    rcases hone k i with h | h
    · rw [show P k i = fun _ => 0 from funext h]
      simpa using hterm k i
    · exact h.le
  · intro hne
    rw [hint, ← hkin]
    refine Finset.sum_congr rfl fun k _ => Finset.sum_congr rfl fun i _ => ?_
    rcases hone k i with h | h
    · obtain ⟨f, hf⟩ := hne i i.2 k
      exfalso
      apply hf
      rw [mem_rows env he _ _ dt (by simpa using hl)]
      have e : ∀ j, (column (vs.map fun v (_ : Fin 1) => massWeighted masses v i k) 0).getD j 0 = (rows k i).getD j 0 := by
        intro j
        simp only [column, hrows, List.map_map]
        rfl
      have := h f
      simp only [hP] at this
      simp only [List.map_cons, List.map_nil, List.length_map]
      refine congrArg (fun r => Except.ok (false, [r])) ?_
      have hof : ∀ g : Fin 1 → ℝ, List.ofFn g = [g 0] := fun g => by simp
      refine (hof _).trans ?_
      refine congrArg (fun x => [x]) ?_
      change (memPart (fun j => ((column (vs.map fun v (_ : Fin 1) => massWeighted masses v i k) 0).getD j 0).re) vs.length p.coefs _ + memPart (fun j => ((column (vs.map fun v (_ : Fin 1) => massWeighted masses v i k) 0).getD j 0).im) vs.length p.coefs _) * dt * unitConversion = 0
      simp only [e, him0, hzero, add_zero, this]
    · exact h

/-- The hypotheses of C149 hold for an atom that is at rest in the first frame and then moves: its spectrum is not zero, and its area is the mean kinetic energy. -/
example : ∃ S : ℝ → ℝ, (∀ freqs, summedSpectra (d := 1) ⟨0, 1, fun _ _ _ _ => 0⟩ 1 ⟨freqs, 1, 1, 1, 0⟩ 1 (([0, 1, 1] : List (ℕ → Fin 1 → ℂ)).map fun v => massWeighted [1] v) 1 = .ok (false, freqs.map S)) ∧
    ∫ f in (0 : ℝ)..1 / (2 * 1), S f = unitConversion * (1 / 3) := by
  have he : CleanMemory ⟨0, 1, fun _ _ _ _ => 0⟩ := ⟨le_refl _, fun _ _ _ => rfl⟩
  have huc : unitConversion ≠ 0 := by unfold unitConversion; norm_num
  obtain ⟨S, h1, -, -, -, h2⟩ := C149_kinetic _ he ⟨[], 1, 1, 1, 0⟩ [1] (by simp) 1 ([0, 1, 1] : List (ℕ → Fin 1 → ℂ)) (by simp) 1 one_pos (by simp)
  refine ⟨S, h1, ?_⟩
  rw [h2]
  · simp [kineticEnergy]
    left
    norm_num
  · intro i hi k
    obtain rfl : i = 0 := by omega
    refine ⟨0, ?_⟩
    rw [mem_rows _ he _ _ _ (by simp)]
    have e := memPart_three (fun j => ((column (([0, 1, 1] : List (ℕ → Fin 1 → ℂ)).map fun v (_ : Fin 1) => massWeighted [1] v 0 k) 0).getD j 0).re) 1 1 (by simp [column, massWeighted]) (by simp [column, massWeighted])
      (by simp [column]) (by norm_num)
    have e0 : (fun j => ((column (([0, 1, 1] : List (ℕ → Fin 1 → ℂ)).map fun v (_ : Fin 1) => massWeighted [1] v 0 k) 0).getD j 0).im) = fun _ => 0 := by
      funext j
      simp only [column, List.map_cons, List.map_nil]
      match j with
      | 0 | 1 | 2 => simp [massWeighted]
      | j + 3 => simp
    intro h
    simp only [List.map_cons, List.map_nil, List.ofFn_succ, List.ofFn_zero, List.length_cons, List.length_nil, Except.ok.injEq, Prod.mk.injEq, true_and, List.cons.injEq, and_true, zero_mul] at h e e0
    rw [e0, memPart_zero, e] at h
    norm_num [huc] at h

end Verif
