import Verif.Model.Fitting
import Mathlib.Analysis.SpecialFunctions.ImproperIntegrals
import Mathlib.Analysis.SpecialFunctions.Gaussian.GaussianIntegral
import Mathlib.Tactic.FieldSimp
import Mathlib.Tactic.Linarith
import Mathlib.Tactic.Positivity
import Mathlib.Tactic.NormNum
import Mathlib.Analysis.Real.Pi.Bounds

/-! # C44-C47, C74 -/

set_option autoImplicit false

namespace Verif

open Real MeasureTheory

theorem lorentzian_eq (x a b c d : ℝ) (hb : 0 < b) : lorentzian x a b c d = c / (b * π) * (1 / (1 + ((x - a) / b) ^ 2)) + d := by
  unfold lorentzian
  have : (0 : ℝ) < 1 + ((x - a) / b) ^ 2 := by positivity
  field_simp

/-- C44: for a fitted Lorentzian (positive half width and area) the reported position is where the curve is largest, and
the reported maximum is its height above the base line there. -/
theorem C44_maximum (a b c d : ℝ) (hb : 0 < b) (hc : 0 < c) (err : Option ℝ) (r : FitResult)
    (hr : lorentzianFit (some ((a, b, c, d), err)) = some r) :
    lorentzian r.position a b c d = r.maximum + r.baseLine ∧
    ∀ x, x ≠ r.position → lorentzian x a b c d < lorentzian r.position a b c d := by
  have e : errorIsNan err c = false := by
    unfold errorIsNan; simp [hc.le.not_gt, hc.ne']
  simp only [lorentzianFit, e, Bool.false_eq_true, if_false, Option.some.injEq] at hr
  subst hr
  dsimp only
  constructor
  · rw [lorentzian_eq _ _ _ _ _ hb]; simp
  · intro x hx
    rw [lorentzian_eq _ _ _ _ _ hb, lorentzian_eq _ _ _ _ _ hb]
    have h0 : 0 < c / (b * π) := by positivity
    have h1 : 0 < ((x - a) / b) ^ 2 := by
      have : (x - a) / b ≠ 0 := div_ne_zero (sub_ne_zero.2 hx) hb.ne'
      positivity
    have h2 : 1 / (1 + ((x - a) / b) ^ 2) < 1 := by rw [div_lt_one (by linarith)]; linarith
    have h3 : 1 / (1 + ((a - a) / b) ^ 2) = 1 := by simp
    rw [h3]
    have := mul_lt_mul_of_pos_left h2 h0
    linarith

/-- C44: the reported width is the full width at half maximum: the curve is at least half its height above the base line
exactly on the interval of this width centred at the position. -/
theorem C44_width (a b c d : ℝ) (hb : 0 < b) (hc : 0 < c) (err : Option ℝ) (r : FitResult)
    (hr : lorentzianFit (some ((a, b, c, d), err)) = some r) (x : ℝ) :
    r.maximum / 2 ≤ lorentzian x a b c d - r.baseLine ↔ |x - r.position| ≤ r.width / 2 := by
  have e : errorIsNan err c = false := by
    unfold errorIsNan; simp [hc.le.not_gt, hc.ne']
  simp only [lorentzianFit, e, Bool.false_eq_true, if_false, Option.some.injEq] at hr
  subst hr
  dsimp only
  rw [lorentzian_eq _ _ _ _ _ hb, add_sub_cancel_right]
  have h0 : 0 < c / (b * π) := by positivity
  have hw : 2 * b / 2 = b := by ring
  rw [hw]
  have h1 : (0 : ℝ) < 1 + ((x - a) / b) ^ 2 := by positivity
  have step1 : c / (b * π) / 2 ≤ c / (b * π) * (1 / (1 + ((x - a) / b) ^ 2)) ↔ ((x - a) / b) ^ 2 ≤ 1 := by
    rw [div_eq_mul_inv (c / (b * π)) 2, mul_le_mul_iff_right₀ h0, ← one_div, one_div_le_one_div (by norm_num) h1]
    constructor <;> intro h <;> linarith
  rw [step1, div_pow, div_le_one (by positivity), sq_le_sq, abs_of_pos hb]

/-- C44: the reported area is the integral of the peak over all frequencies. -/
theorem C44_area (a b c d : ℝ) (hb : 0 < b) (hc : 0 < c) (err : Option ℝ) (r : FitResult)
    (hr : lorentzianFit (some ((a, b, c, d), err)) = some r) :
    ∫ x, (lorentzian x a b c d - r.baseLine) = r.area := by
  have e : errorIsNan err c = false := by
    unfold errorIsNan; simp [hc.le.not_gt, hc.ne']
  simp only [lorentzianFit, e, Bool.false_eq_true, if_false, Option.some.injEq] at hr
  subst hr
  dsimp only
  have h1 : (fun x => lorentzian x a b c d - d) = fun x => c / (b * π) * (fun y => (1 + (y / b) ^ 2)⁻¹) (x - a) := by
    funext x; rw [lorentzian_eq _ _ _ _ _ hb, add_sub_cancel_right, one_div]
  rw [h1, integral_const_mul, integral_sub_right_eq_self (fun y => (1 + (y / b) ^ 2)⁻¹) a]
  have h2 := Measure.integral_comp_div (fun y : ℝ => (1 + y ^ 2)⁻¹) b
  rw [h2, integral_univ_inv_one_add_sq, abs_of_pos hb, smul_eq_mul]
  have := pi_pos
  field_simp

/-- The fit of a concrete spectrum that meets the hypotheses. -/
example : ∃ r, lorentzianFit (some ((5, 1 / 10, 3, 1 / 100), some (1 / 1000))) = some r ∧ r.width = 1 / 5 := by
  refine ⟨_, by simp only [lorentzianFit]; rw [if_neg]; unfold errorIsNan; norm_num, by norm_num⟩

/-- C45: with zero asymmetry the asymmetric Lorentzian is the Lorentzian, and the widths reported at the peak agree. -/
theorem C45_symmetric (x a b c d : ℝ) : lorentzianAsym x a b c d 0 = lorentzian x a b c d ∧ 2 * asymWidth x a b 0 = 2 * b := by
  have h : asymWidth x a b 0 = b := by unfold asymWidth; rw [zero_mul, exp_zero]; ring
  unfold lorentzianAsym lorentzian
  rw [h]; exact ⟨rfl, rfl⟩

/-- C45: the asymmetric half width is positive and below twice the parameter; at the position parameter it is the parameter. -/
theorem C45_width (x a b s : ℝ) (hb : 0 < b) : 0 < asymWidth x a b s ∧ asymWidth x a b s < 2 * b ∧ asymWidth a a b s = b := by
  unfold asymWidth
  have := exp_pos (s * (x - a))
  refine ⟨by positivity, ?_, ?_⟩
  · rw [div_lt_iff₀ (by linarith)]; nlinarith
  · rw [sub_self, mul_zero, exp_zero]; ring

/-- C45: an asymmetric fit with zero asymmetry, whose peak is where the fitted curve is largest, is reported with the position, the
full width at half maximum and the base line of the Lorentzian with the same parameters; its maximum is the value of the curve at the
peak, base line included (that of the Lorentzian is without it). -/
theorem C45_fit (a b c d : ℝ) (hb : 0 < b) (hc : 0 < c) (err : Option ℝ) (peak area : ℝ) (harea : 0 < area)
    (hpeak : ∀ x, lorentzianAsym x a b c d 0 ≤ lorentzianAsym peak a b c d 0) :
    ∃ r r', lorentzianAsymFit (some ((a, b, c, d, 0), err)) peak area = some r ∧ lorentzianFit (some ((a, b, c, d), err)) = some r' ∧
      r.position = r'.position ∧ r.width = r'.width ∧ r.baseLine = r'.baseLine ∧ r.maximum = r'.maximum + r'.baseLine ∧
      r.maximum = lorentzian a a b c d ∧ r.area = area := by
  have e : ∀ y : ℝ, 0 < y → errorIsNan err y = false := by
    intro y hy
    unfold errorIsNan; simp [hy.le.not_gt, hy.ne']
  have hp : peak = a := by
    have h := hpeak a
    rw [(C45_symmetric a a b c d).1, (C45_symmetric peak a b c d).1, lorentzian_eq _ _ _ _ _ hb, lorentzian_eq _ _ _ _ _ hb] at h
    have h0 : 0 < c / (b * π) := by have := pi_pos; positivity
    have h1 : (1 : ℝ) / (1 + ((a - a) / b) ^ 2) ≤ 1 / (1 + ((peak - a) / b) ^ 2) := by
      have : c / (b * π) * (1 / (1 + ((a - a) / b) ^ 2)) ≤ c / (b * π) * (1 / (1 + ((peak - a) / b) ^ 2)) := by linarith
      exact le_of_mul_le_mul_left this h0
    rw [one_div_le_one_div (by positivity) (by positivity), sub_self, zero_div] at h1
    have h2 : ((peak - a) / b) ^ 2 = 0 := le_antisymm (by linarith) (sq_nonneg _)
    have h3 := pow_eq_zero_iff (two_ne_zero) |>.1 h2
    rw [div_eq_zero_iff] at h3
    rcases h3 with h3 | h3
    · linarith
    · exact absurd h3 hb.ne'
  have hmax : lorentzian a a b c d = c / (b * π) + d := by
    rw [lorentzian_eq _ _ _ _ _ hb, sub_self, zero_div]; norm_num
  refine ⟨⟨lorentzianAsym peak a b c d 0, 2 * asymWidth peak a b 0, peak, area, d⟩, ⟨c / (b * π), 2 * b, a, c, d⟩,
    by simp only [lorentzianAsymFit, e area harea]; rfl, by simp only [lorentzianFit, e c hc]; rfl, hp, ?_, rfl, ?_, ?_, rfl⟩
  · exact (C45_symmetric peak a b c d).2
  · show lorentzianAsym peak a b c d 0 = c / (b * π) + d
    rw [(C45_symmetric peak a b c d).1, hp, hmax]
  · show lorentzianAsym peak a b c d 0 = _
    rw [(C45_symmetric peak a b c d).1, hp]

example : ∃ r, lorentzianAsymFit (some ((5, 1 / 10, 3, 1 / 100, 0), some (1 / 1000))) 5 3 = some r ∧ r.width = 1 / 5 := by
  refine ⟨_, by simp only [lorentzianAsymFit]; rw [if_neg]; unfold errorIsNan; norm_num, by
    show 2 * asymWidth 5 5 (1 / 10) 0 = 1 / 5
    rw [(C45_symmetric 5 5 (1 / 10) 0 0).2]; norm_num⟩

/-- C45: what an accepted asymmetric fit reports: the curve at the peak, and there the full width. -/
theorem C45_report (a b c d s : ℝ) (err : Option ℝ) (peak area : ℝ) (r : FitResult)
    (hr : lorentzianAsymFit (some ((a, b, c, d, s), err)) peak area = some r) :
    r.position = peak ∧ r.area = area ∧ r.baseLine = d ∧
      r.maximum = c / (π * (r.width / 2) * (1 + ((peak - a) / (r.width / 2)) ^ 2)) + d ∧ r.width = 2 * (2 * b / (1 + exp (s * (peak - a)))) := by
  simp only [lorentzianAsymFit] at hr
  split at hr
  · simp at hr
  · simp only [Option.some.injEq] at hr
    subst hr
    have : 2 * asymWidth peak a b s / 2 = asymWidth peak a b s := by ring
    exact ⟨rfl, rfl, rfl, by rw [this]; rfl, rfl⟩

/-- C46 (part): the damped oscillator never reports a negative width; the Lorentzians do not if the fitted half width is
non-negative. Missing, and false: see `C46_violated`. -/
theorem C46_width_partial (p : Option ((ℝ × ℝ × ℝ × ℝ) × Option ℝ)) (p5 : Option ((ℝ × ℝ × ℝ × ℝ × ℝ) × Option ℝ))
    (peak area : ℝ) :
    (∀ r, dampedFit p area = some r → 0 ≤ r.width) ∧
    (∀ a b c d err r, p = some ((a, b, c, d), err) → 0 ≤ b → lorentzianFit p = some r → 0 ≤ r.width) ∧
    (∀ a b c d s err r, p5 = some ((a, b, c, d, s), err) → 0 ≤ b → lorentzianAsymFit p5 peak area = some r → 0 ≤ r.width) := by
  refine ⟨?_, ?_, ?_⟩
  · intro r hr
    match p, hr with
    | none, hr => simp [dampedFit] at hr
    | some ((a, b, c, d), err), hr =>
      simp only [dampedFit] at hr
      split at hr
      · simp at hr
      · simp only [Option.some.injEq] at hr; subst hr; exact abs_nonneg b
  · rintro a b c d err r rfl hb hr
    simp only [lorentzianFit] at hr
    split at hr
    · simp at hr
    · simp only [Option.some.injEq] at hr; subst hr; dsimp only; linarith
  · rintro a b c d s err r rfl hb hr
    simp only [lorentzianAsymFit] at hr
    split at hr
    · simp at hr
    · simp only [Option.some.injEq] at hr; subst hr
      dsimp only
      have := exp_pos (s * (peak - a))
      unfold asymWidth; positivity

/-- C46, violated: there is a non-negative spectrum (a dip) for which parameters with zero residual are accepted with a
negative width. -/
theorem C46_violated : ∃ (spectrum : ℝ → ℝ) (a b c d : ℝ) (err : Option ℝ) (r : FitResult), (∀ x, 0 ≤ spectrum x) ∧
    (∀ x, lorentzian x a b c d = spectrum x) ∧ lorentzianFit (some ((a, b, c, d), err)) = some r ∧ r.width < 0 := by
  refine ⟨fun x => lorentzian x 5 (-1) π 1, 5, -1, π, 1, some 1, ⟨π / (-1 * π), 2 * (-1), 5, π, 1⟩, ?_, fun _ => rfl, ?_, by norm_num⟩
  · intro x
    have h : lorentzian x 5 (-1) π 1 = 1 - 1 / (1 + (x - 5) ^ 2) := by
      unfold lorentzian
      have := pi_pos
      have h2 : (0 : ℝ) < 1 + (x - 5) ^ 2 := by positivity
      have h3 : ((x - 5) / -1) ^ 2 = (x - 5) ^ 2 := by ring
      rw [h3]
      field_simp
      ring
    show 0 ≤ lorentzian x 5 (-1) π 1
    rw [h]
    have : 1 / (1 + (x - 5) ^ 2) ≤ 1 := by rw [div_le_one (by positivity)]; nlinarith [sq_nonneg (x - 5)]
    linarith
  · simp only [lorentzianFit]
    rw [if_neg]
    unfold errorIsNan
    simp [pi_pos.le, pi_pos.ne']

/-- C46: which fits are reported as failed: those for which the least squares failed, and those with a negative area, or with area
and errors zero; the same for the three functions (for the Lorentzian the area is the parameter). -/
theorem C46_failed (p : Option ((ℝ × ℝ × ℝ × ℝ) × Option ℝ)) (p5 : Option ((ℝ × ℝ × ℝ × ℝ × ℝ) × Option ℝ)) (peak area : ℝ) :
    (lorentzianFit p = none ↔ ∀ q err, p = some (q, err) → q.2.2.1 < 0 ∨ (q.2.2.1 = 0 ∧ err = some 0)) ∧
    (lorentzianAsymFit p5 peak area = none ↔ ∀ q err, p5 = some (q, err) → area < 0 ∨ (area = 0 ∧ err = some 0)) ∧
    (dampedFit p area = none ↔ ∀ q err, p = some (q, err) → area < 0 ∨ (area = 0 ∧ err = some 0)) := by
  have key : ∀ (err : Option ℝ) (y : ℝ) (r : FitResult), (if errorIsNan err y then none else some r) = none ↔ y < 0 ∨ (y = 0 ∧ err = some 0) := by
    intro err y r
    have he : errorIsNan err y = true ↔ y < 0 ∨ (y = 0 ∧ err = some 0) := by unfold errorIsNan; simp
    by_cases h : errorIsNan err y = true
    · rw [if_pos h]; simpa using he.1 h
    · rw [if_neg h]; simpa using fun h' => h (he.2 h')
  refine ⟨?_, ?_, ?_⟩
  · match p with
    | none => simp [lorentzianFit]
    | some ((a, b, c, d), err) =>
      rw [lorentzianFit, key]
      exact ⟨fun h q err' hq => by cases hq; exact h, fun h => h _ _ rfl⟩
  · match p5 with
    | none => simp [lorentzianAsymFit]
    | some ((a, b, c, d, s), err) =>
      rw [lorentzianAsymFit, key]
      exact ⟨fun h q err' hq => by cases hq; exact h, fun h => h _ _ rfl⟩
  · match p with
    | none => simp [dampedFit]
    | some ((a, b, c, d), err) =>
      rw [dampedFit, key]
      exact ⟨fun h q err' hq => by cases hq; exact h, fun h => h _ _ rfl⟩

theorem fittingLoop_eq (n : ℕ) (fitOne : ℕ → Option FitResult) (shift : Option (ℕ → ℝ)) :
    fittingLoop n fitOne shift =
      ((List.range n).map fun i => ((fitOne i).map fun r => r.position + (shift.map (· i)).getD 0).getD 0,
       (List.range n).map fun i => ((fitOne i).map fun r => r.width).getD 0) := by
  unfold fittingLoop
  induction n with
  | zero => rfl
  | succ n ih =>
    rw [List.range_succ, List.foldl_append, List.foldl_cons, List.foldl_nil, ih, List.map_append, List.map_append]
    cases h : fitOne n with
    | none => simp [h]
    | some r => cases shift <;> simp [h]

/-- C46: the output lists have one entry per branch; a failed fit gives position 0 and width 0, and a successful one the
reported position (plus the thermal expansion shift) and width, of the same branch. -/
theorem C46_lists (n : ℕ) (fitOne : ℕ → Option FitResult) (shift : Option (ℕ → ℝ)) :
    (fittingLoop n fitOne shift).1.length = n ∧ (fittingLoop n fitOne shift).2.length = n ∧
    ∀ i < n,
      (fitOne i = none → (fittingLoop n fitOne shift).1[i]? = some 0 ∧ (fittingLoop n fitOne shift).2[i]? = some 0) ∧
      (∀ r, fitOne i = some r → (fittingLoop n fitOne shift).2[i]? = some r.width ∧
        (shift = none → (fittingLoop n fitOne shift).1[i]? = some r.position) ∧
        (∀ s, shift = some s → (fittingLoop n fitOne shift).1[i]? = some (r.position + s i))) := by
  rw [fittingLoop_eq]
  refine ⟨by simp, by simp, fun i hi => ⟨fun h => ?_, fun r h => ⟨?_, ?_, ?_⟩⟩⟩
  · simp [hi, h]
  · simp [hi, h]
  · rintro rfl; simp [hi, h]
  · rintro s rfl; simp [hi, h]

example : fittingLoop 2 (fun i => if i = 0 then none else some ⟨1, 2, 3, 4, 5⟩) none = ([0, 3], [0, 2]) := by
  rw [fittingLoop_eq]; simp [List.range_succ]

/-! ## C47 -/

/-- C47: the damped oscillator is even in the frequency, and its reported maximum is `c / (a b)^2` above the base line. -/
theorem C47_damped (x a b c d : ℝ) (area : ℝ) (err : Option ℝ) (r : FitResult)
    (hr : dampedFit (some ((a, b, c, d), err)) area = some r) :
    dampedHarmonic (-x) a b c d = dampedHarmonic x a b c d ∧ r.maximum = c / (a ^ 2 * b ^ 2) + r.baseLine := by
  refine ⟨by unfold dampedHarmonic; ring_nf, ?_⟩
  simp only [dampedFit] at hr
  split at hr
  · simp at hr
  · simp only [Option.some.injEq] at hr; subst hr
    dsimp only
    unfold dampedHarmonic
    congr 2; ring

/-- C47: the largest value of the damped oscillator is at `x^2 = a^2 - b^2/2`, a little below the reported position. -/
theorem C47_damped_peak (a b c d : ℝ) (hc : 0 < c) (hb : b ≠ 0) (hab : b ^ 2 < 2 * a ^ 2) (x : ℝ) :
    dampedHarmonic x a b c d ≤ c / (b ^ 2 * (a ^ 2 - b ^ 2 / 4)) + d ∧
    (dampedHarmonic x a b c d = c / (b ^ 2 * (a ^ 2 - b ^ 2 / 4)) + d ↔ x ^ 2 = a ^ 2 - b ^ 2 / 2) := by
  have hb2 : 0 < b ^ 2 := by positivity
  have h0 : 0 < b ^ 2 * (a ^ 2 - b ^ 2 / 4) := mul_pos hb2 (by linarith)
  have key : (a ^ 2 - x ^ 2) ^ 2 + (b * x) ^ 2 = b ^ 2 * (a ^ 2 - b ^ 2 / 4) + (x ^ 2 - (a ^ 2 - b ^ 2 / 2)) ^ 2 := by ring
  unfold dampedHarmonic
  rw [key]
  constructor
  · have : c / (b ^ 2 * (a ^ 2 - b ^ 2 / 4) + (x ^ 2 - (a ^ 2 - b ^ 2 / 2)) ^ 2) ≤ c / (b ^ 2 * (a ^ 2 - b ^ 2 / 4)) :=
      div_le_div_of_nonneg_left hc.le h0 (by nlinarith [sq_nonneg (x ^ 2 - (a ^ 2 - b ^ 2 / 2))])
    linarith
  · constructor
    · intro h
      have h1 : c / (b ^ 2 * (a ^ 2 - b ^ 2 / 4) + (x ^ 2 - (a ^ 2 - b ^ 2 / 2)) ^ 2) = c / (b ^ 2 * (a ^ 2 - b ^ 2 / 4)) := by
        linarith
      have h3 : 0 < b ^ 2 * (a ^ 2 - b ^ 2 / 4) + (x ^ 2 - (a ^ 2 - b ^ 2 / 2)) ^ 2 := by positivity
      rw [div_eq_div_iff h3.ne' h0.ne'] at h1
      have h4 := mul_left_cancel₀ hc.ne' h1
      have h2 : (x ^ 2 - (a ^ 2 - b ^ 2 / 2)) ^ 2 = 0 := by linarith
      have := pow_eq_zero_iff (two_ne_zero) |>.1 h2
      linarith
    · intro h; rw [h, sub_self]; norm_num

/-- C47: what the reported width of the damped oscillator means: the curve is at least half as high as its peak (above the base line)
exactly where the square of the frequency differs from that of the peak by at most `width √(position² - width²/4)`; so the full width at
half maximum, times the mean of the two frequencies there, is `width √(position² - width²/4)`. -/
theorem C47_damped_width (a b c d area : ℝ) (err : Option ℝ) (r : FitResult) (hc : 0 < c) (hb : b ≠ 0) (hab : b ^ 2 < 2 * a ^ 2)
    (hr : dampedFit (some ((a, b, c, d), err)) area = some r) :
    r.area = area ∧ (∀ x, (c / (b ^ 2 * (a ^ 2 - b ^ 2 / 4))) / 2 ≤ dampedHarmonic x a b c d - r.baseLine ↔
      |x ^ 2 - (r.position ^ 2 - r.width ^ 2 / 2)| ≤ r.width * √(r.position ^ 2 - r.width ^ 2 / 4)) ∧
    ∀ x y, 0 ≤ x → x < y → dampedHarmonic x a b c d - r.baseLine = (c / (b ^ 2 * (a ^ 2 - b ^ 2 / 4))) / 2 →
      dampedHarmonic y a b c d - r.baseLine = (c / (b ^ 2 * (a ^ 2 - b ^ 2 / 4))) / 2 →
      (y - x) * ((x + y) / 2) = r.width * √(r.position ^ 2 - r.width ^ 2 / 4) := by
  simp only [dampedFit] at hr
  split at hr
  · simp at hr
  simp only [Option.some.injEq] at hr; subst hr
  have hb2 : 0 < b ^ 2 := by positivity
  have h0 : 0 < a ^ 2 - b ^ 2 / 4 := by linarith
  have hM : 0 < b ^ 2 * (a ^ 2 - b ^ 2 / 4) := mul_pos hb2 h0
  have key : ∀ x, (a ^ 2 - x ^ 2) ^ 2 + (b * x) ^ 2 = b ^ 2 * (a ^ 2 - b ^ 2 / 4) + (x ^ 2 - (a ^ 2 - b ^ 2 / 2)) ^ 2 := by intro x; ring
  have hS : (|b| * √(a ^ 2 - b ^ 2 / 4)) ^ 2 = b ^ 2 * (a ^ 2 - b ^ 2 / 4) := by rw [mul_pow, sq_abs, sq_sqrt h0.le]
  have hS0 : 0 ≤ |b| * √(a ^ 2 - b ^ 2 / 4) := mul_nonneg (abs_nonneg _) (sqrt_nonneg _)
  have hval : ∀ x, dampedHarmonic x a b c d - d = c / (b ^ 2 * (a ^ 2 - b ^ 2 / 4) + (x ^ 2 - (a ^ 2 - b ^ 2 / 2)) ^ 2) := by
    intro x; unfold dampedHarmonic; rw [key]; ring
  refine ⟨rfl, ?_, ?_⟩
  · intro x
    show _ ≤ dampedHarmonic x a b c d - d ↔ |x ^ 2 - (a ^ 2 - |b| ^ 2 / 2)| ≤ |b| * √(a ^ 2 - |b| ^ 2 / 4)
    rw [sq_abs, hval, ← abs_of_nonneg hS0, ← sq_le_sq, hS, div_div,
      div_le_div_iff_of_pos_left hc (by positivity) (by positivity)]
    constructor <;> intro h <;> linarith
  · intro x y hx hxy h1 h2
    show (y - x) * ((x + y) / 2) = |b| * √(a ^ 2 - |b| ^ 2 / 4)
    have hsq : ∀ z, dampedHarmonic z a b c d - d = (c / (b ^ 2 * (a ^ 2 - b ^ 2 / 4))) / 2 →
        (z ^ 2 - (a ^ 2 - b ^ 2 / 2)) ^ 2 = (|b| * √(a ^ 2 - b ^ 2 / 4)) ^ 2 := by
      intro z hz
      rw [hval, div_div, div_eq_div_iff (by positivity) (by positivity)] at hz
      have := mul_left_cancel₀ hc.ne' hz
      rw [hS]; linarith
    rw [sq_abs]
    have hlt : x ^ 2 < y ^ 2 := by nlinarith
    have hx' := sq_eq_sq_iff_eq_or_eq_neg.1 (hsq x h1)
    have hy' := sq_eq_sq_iff_eq_or_eq_neg.1 (hsq y h2)
    rcases hx' with hx' | hx' <;> rcases hy' with hy' | hy' <;> nlinarith

/-- C47: what the Gaussian integrates to. -/
theorem C47_gaussian_value (a b c d : ℝ) (hb : 0 < b) : ∫ x, (gaussianFn x a b c d - d) = 2 * π * c := by
  have h1 : (fun x => gaussianFn x a b c d - d) = fun x => c / b * √(2 * π) * (fun y => exp (-(1 / (2 * b ^ 2)) * y ^ 2)) (x - a) := by
    funext x
    unfold gaussianFn
    rw [add_sub_cancel_right]
    congr 2; ring
  rw [h1, integral_const_mul, integral_sub_right_eq_self (fun y => exp (-(1 / (2 * b ^ 2)) * y ^ 2)) a, integral_gaussian]
  have h2 : π / (1 / (2 * b ^ 2)) = 2 * π * b ^ 2 := by field_simp
  have hpi := pi_pos
  rw [h2, sqrt_mul (by positivity : (0 : ℝ) ≤ 2 * π) (b ^ 2), sqrt_sq hb.le]
  have h3 : √(2 * π) * √(2 * π) = 2 * π := mul_self_sqrt (by positivity)
  field_simp
  linear_combination c * h3

/-- C47, violated: the Gaussian does not integrate to its area parameter but to 2π times it (line 302 multiplies by the
square root of 2π instead of dividing). -/
theorem C47_gaussian_violated (a b c d : ℝ) (hb : 0 < b) (hc : c ≠ 0) : ∫ x, (gaussianFn x a b c d - d) ≠ c := by
  rw [C47_gaussian_value a b c d hb]
  intro h
  have h1 : (2 * π - 1) * c = 0 := by linarith
  rcases mul_eq_zero.1 h1 with h2 | h2
  · linarith [pi_gt_three]
  · exact hc h2

/-! ## C74: occupation number and temperature -/

/-- C74: the reported fit temperature is the one at which a quantum harmonic oscillator with energy quantum `ħ * position` has
the reported occupation number (Bose-Einstein). -/
theorem C74_bose_einstein (area position : ℝ) (hp : 0 < position) (hocc : 0 < occupancy area position) :
    0 < fitTemperature area position ∧
    occupancy area position = 1 / (exp (hPlanckBar * position / (kbFit * fitTemperature area position)) - 1) := by
  have hk : 0 < kbFit := by unfold kbFit; norm_num
  have hh : 0 < hPlanckBar := by unfold hPlanckBar hPlanck; have := pi_pos; positivity
  have hlog : 0 < log (1 / occupancy area position + 1) := log_pos (by have : 0 < 1 / occupancy area position := by positivity
                                                                       linarith)
  refine ⟨by unfold fitTemperature; positivity, ?_⟩
  have harg : hPlanckBar * position / (kbFit * fitTemperature area position) = log (1 / occupancy area position + 1) := by
    unfold fitTemperature
    field_simp
  rw [harg, exp_log (by positivity)]
  simp

/-- C74: and the kinetic energy is that of such an oscillator: twice the area is `ħ * position * (n + 1/2)`. -/
theorem C74_energy (area position : ℝ) (hp : 0 < position) :
    2 * area = hPlanckBar * position * (occupancy area position + 1 / 2) := by
  have hh : 0 < hPlanckBar := by unfold hPlanckBar hPlanck; have := pi_pos; positivity
  unfold occupancy
  field_simp
  norm_num
  ring

/-- C74, violated: positions are frequencies in THz (the commented lines 97-98 use `position * 2π` for the angular frequency), so the
energy quantum is `h * position`, not `ħ * position`. For an oscillator with `2 * area = h * position * (n + 1/2)` the reported occupation
number is never `n`. -/
theorem C74_quantum_violated (n position : ℝ) (hn : 0 ≤ n) (hp : 0 < position) (area : ℝ)
    (h : 2 * area = hPlanck * position * (n + 1 / 2)) : occupancy area position = 2 * π * (n + 1 / 2) - 1 / 2 ∧
    occupancy area position ≠ n := by
  have hpi := pi_gt_three
  have hh : 0 < hPlanck := by unfold hPlanck; norm_num
  have e : occupancy area position = 2 * π * (n + 1 / 2) - 1 / 2 := by
    unfold occupancy hPlanckBar
    rw [h]
    field_simp
    norm_num
    ring
  refine ⟨e, ?_⟩
  rw [e]
  intro h2
  nlinarith

/-- A concrete peak with a positive occupation number. -/
example : 0 < occupancy 1 10 := by
  unfold occupancy hPlanckBar hPlanck
  have := pi_gt_three
  have h2 : (2 : ℝ) * 1 / (10 * (4.135667662e-3 / (2 * π))) = 4 * π / 4.135667662e-2 := by
    field_simp; norm_num
  rw [h2]
  have : (4.135667662e-2 : ℝ) * 0.5 < 4 * π := by linarith
  have h3 := (lt_div_iff₀ (by norm_num : (0 : ℝ) < 4.135667662e-2)).2 (by linarith : (0.5 : ℝ) * 4.135667662e-2 < 4 * π)
  linarith

end Verif
