import Verif.Props.FitObject
import Mathlib.Analysis.SpecialFunctions.Log.Basic
import Mathlib.Analysis.Complex.ExponentialBounds

/-! # C101: the width of strongly asymmetric Lorentzians -/

set_option autoImplicit false
set_option linter.unusedSectionVars false

namespace Verif

open Real

theorem asymWidth_pos (x a b s : ℝ) (hb : 0 < b) : 0 < asymWidth x a b s := by
  unfold asymWidth
  positivity

/-- The asymmetric Lorentzian above its base line. -/
theorem lorentzianAsym_sub (x a b c d s : ℝ) (hb : 0 < b) :
    lorentzianAsym x a b c d s - d = c / π * (asymWidth x a b s / (asymWidth x a b s ^ 2 + (x - a) ^ 2)) := by
  have hg := asymWidth_pos x a b s hb
  have hpi := pi_pos
  unfold lorentzianAsym
  field_simp
  ring

theorem asymWidth_anti (x y a b s : ℝ) (hb : 0 < b) (hs : 0 < s) (h : x ≤ y) : asymWidth y a b s ≤ asymWidth x a b s := by
  unfold asymWidth
  have : exp (s * (x - a)) ≤ exp (s * (y - a)) := exp_le_exp.2 (by nlinarith)
  have := exp_pos (s * (x - a))
  exact div_le_div_of_nonneg_left (by positivity) (by positivity) (by linarith)

/-- There is a point at which the asymmetric width is the distance from the centre. -/
theorem asymWidth_fixed (a b s : ℝ) (hb : 0 < b) : ∃ X, 0 < X ∧ asymWidth (a + X) a b s = X := by
  have hc : Continuous fun X => asymWidth (a + X) a b s - X := by
    unfold asymWidth
    refine Continuous.sub (Continuous.div (by fun_prop) (by fun_prop) fun x => ?_) continuous_id
    positivity
  have h0 : 0 < asymWidth (a + 0) a b s - 0 := by rw [sub_zero]; exact asymWidth_pos _ _ _ _ hb
  have h1 : asymWidth (a + 2 * b) a b s - 2 * b < 0 := by
    have : asymWidth (a + 2 * b) a b s < 2 * b := by
      unfold asymWidth
      rw [div_lt_iff₀ (by positivity)]
      nlinarith [exp_pos (s * (a + 2 * b - a))]
    linarith
  obtain ⟨X, hX, hz⟩ := intermediate_value_Icc' (show (0 : ℝ) ≤ 2 * b by linarith) hc.continuousOn (show (0 : ℝ) ∈ Set.Icc _ _ from ⟨h1.le, h0.le⟩)
  refine ⟨X, ?_, by linarith [hz]⟩
  rcases hX.1.lt_or_eq with h | h
  · exact h
  · rw [← h] at hz
    have hz' : asymWidth (a + 0) a b s - 0 = 0 := hz
    linarith

/-- The points at half of the highest value of a strongly asymmetric Lorentzian are close together; the width at the peak is large. -/
theorem asym_half (a b c d s pos X : ℝ) (hb : 0 < b) (hs : 0 < s) (hcp : 0 < c) (hX0 : 0 < X) (hX : asymWidth (a + X) a b s = X) (h2 : 6 ≤ exp (s * X))
    (hmax : ∀ x, lorentzianAsym x a b c d s ≤ lorentzianAsym pos a b c d s) :
    X ≤ asymWidth pos a b s ∧
    ∀ x, (lorentzianAsym pos a b c d s - d) / 2 ≤ lorentzianAsym x a b c d s - d → |x - (a + X)| ≤ log 8 / s := by
  have hpi := pi_pos
  have hcc : 0 < c / π := by positivity
  set f : ℝ → ℝ := fun x => asymWidth x a b s / (asymWidth x a b s ^ 2 + (x - a) ^ 2) with hf
  have hsub : ∀ x, lorentzianAsym x a b c d s - d = c / π * f x := fun x => lorentzianAsym_sub x a b c d s hb
  have hfX : f (a + X) = 1 / (2 * X) := by
    simp only [hf, hX]
    field_simp
    ring
  have hpos : 1 / (2 * X) ≤ f pos := by
    have := hmax (a + X)
    have h3 : c / π * f (a + X) ≤ c / π * f pos := by rw [← hsub, ← hsub]; linarith
    rw [← hfX]
    exact le_of_mul_le_mul_left h3 hcc
  have hE : 2 * b = X * (1 + exp (s * X)) := by
    have := hX
    unfold asymWidth at this
    rw [div_eq_iff (by positivity)] at this
    rw [this, add_sub_cancel_left]
  have hform : ∀ x, asymWidth x a b s * (1 + exp (s * (x - a))) = X * (1 + exp (s * X)) := by
    intro x
    unfold asymWidth
    rw [div_mul_cancel₀ _ (by positivity), hE]
  refine ⟨?_, ?_⟩
  · have hle : pos - a ≤ X := by
      by_contra hlt
      have hlt : X < pos - a := not_le.1 hlt
      have hg := asymWidth_pos pos a b s hb
      have hq : 0 < asymWidth pos a b s ^ 2 + (pos - a) ^ 2 := by positivity
      simp only [hf] at hpos
      rw [div_le_div_iff₀ (by positivity) hq] at hpos
      nlinarith [sq_nonneg (asymWidth pos a b s - (pos - a))]
    have := asymWidth_anti pos (a + X) a b s hb hs (by linarith)
    rwa [hX] at this
  · intro x hx
    have hhalf : 1 / (4 * X) ≤ f x := by
      rw [hsub, hsub] at hx
      have h4 : c / π * (f pos / 2) ≤ c / π * f x := by linarith
      have h5 := le_of_mul_le_mul_left h4 hcc
      have : 1 / (4 * X) = 1 / (2 * X) / 2 := by field_simp; norm_num
      rw [this]
      linarith
    have hg := asymWidth_pos x a b s hb
    have hq : 0 < asymWidth x a b s ^ 2 + (x - a) ^ 2 := by positivity
    simp only [hf] at hhalf
    rw [div_le_div_iff₀ (by positivity) hq] at hhalf
    have hxa := hform x
    have hex := exp_pos (s * (x - a))
    have h8 : exp (log 8) = 8 := exp_log (by norm_num)
    -- from below
    have hlow : s * X - log 8 ≤ s * (x - a) := by
      have hg4 : asymWidth x a b s ≤ 4 * X := by nlinarith [sq_nonneg (x - a)]
      have : X * (1 + exp (s * X)) ≤ 4 * X * (1 + exp (s * (x - a))) := by rw [← hxa]; nlinarith
      have h9 : 1 + exp (s * X) ≤ 4 * (1 + exp (s * (x - a))) := by nlinarith
      rw [← exp_le_exp, exp_sub, h8]
      linarith
    have hup : s * (x - a) ≤ s * X + log 8 := by
      by_cases hxX : x - a ≤ X
      · have : 0 ≤ log 8 := log_nonneg (by norm_num)
        nlinarith
      · have hxX : X < x - a := not_le.1 hxX
        have hg4 : X / 4 ≤ asymWidth x a b s := by nlinarith [sq_nonneg (asymWidth x a b s)]
        have : X / 4 * (1 + exp (s * (x - a))) ≤ X * (1 + exp (s * X)) := by rw [← hxa]; nlinarith
        have h9 : 1 + exp (s * (x - a)) ≤ 4 * (1 + exp (s * X)) := by nlinarith
        rw [← exp_le_exp, exp_add, h8]
        linarith
    rw [abs_le, le_div_iff₀ hs, neg_le, ← sub_nonneg]
    constructor
    · have : log 8 / s - -(x - (a + X)) = (log 8 + s * (x - a) - s * X) / s := by field_simp; ring
      rw [this]
      apply div_nonneg _ hs.le
      linarith
    · nlinarith

theorem asymWidth_reflect (x a b s : ℝ) : asymWidth (2 * a - x) a b s = asymWidth x a b (-s) := by
  unfold asymWidth
  congr 3
  ring

theorem lorentzianAsym_reflect (x a b c d s : ℝ) : lorentzianAsym (2 * a - x) a b c d s = lorentzianAsym x a b c d (-s) := by
  unfold lorentzianAsym
  rw [asymWidth_reflect, show 2 * a - x - a = -(x - a) by ring, neg_div, neg_sq]

theorem asym_factor_pos (a b c d s pos N : ℝ) (hb : 0 < b) (hs : 0 < s) (hcp : 0 < c) (hN2 : 2 ≤ N) (hN : N * (1 + exp N) ≤ 2 * b * s)
    (hmax : ∀ x, lorentzianAsym x a b c d s ≤ lorentzianAsym pos a b c d s) :
    2 * (N / s) ≤ 2 * asymWidth pos a b s ∧ ∃ m, ∀ x, (lorentzianAsym pos a b c d s - d) / 2 ≤ lorentzianAsym x a b c d s - d → |x - m| ≤ log 8 / s := by
  obtain ⟨X, hX0, hX⟩ := asymWidth_fixed a b s hb
  have hE : 2 * b = X * (1 + exp (s * X)) := by
    have := hX
    unfold asymWidth at this
    rw [div_eq_iff (by positivity)] at this
    rw [this, add_sub_cancel_left]
  have hNt : N ≤ s * X := by
    by_contra hlt
    have hlt : s * X < N := not_le.1 hlt
    have h1 := exp_lt_exp.2 hlt
    have h2 := exp_pos (s * X)
    have h3 : 2 * b * s = s * X * (1 + exp (s * X)) := by rw [hE]; ring
    rw [h3] at hN
    have h4 : 0 < s * X := by positivity
    nlinarith
  have h6 : 6 ≤ exp (s * X) := by
    have h1 : exp 2 ≤ exp (s * X) := exp_le_exp.2 (by linarith)
    have h2 : exp 2 = exp 1 * exp 1 := by rw [← exp_add]; norm_num
    have h3 := exp_one_gt_d9
    nlinarith
  obtain ⟨k1, k2⟩ := asym_half a b c d s pos X hb hs hcp hX0 hX h6 hmax
  refine ⟨?_, a + X, k2⟩
  have : N / s ≤ X := by rw [div_le_iff₀ hs]; linarith
  linarith

/-- As `asym_factor_pos`, for either sign of the asymmetry. -/
theorem asym_factor (a b c d s pos N : ℝ) (hb : 0 < b) (hs : s ≠ 0) (hcp : 0 < c) (hN2 : 2 ≤ N) (hN : N * (1 + exp N) ≤ 2 * b * |s|)
    (hmax : ∀ x, lorentzianAsym x a b c d s ≤ lorentzianAsym pos a b c d s) :
    2 * (N / |s|) ≤ 2 * asymWidth pos a b s ∧ ∃ m, ∀ x, (lorentzianAsym pos a b c d s - d) / 2 ≤ lorentzianAsym x a b c d s - d → |x - m| ≤ log 8 / |s| := by
  rcases lt_or_gt_of_ne hs with hneg | hp
  · have hs' : 0 < -s := by linarith
    rw [abs_of_neg hneg] at hN ⊢
    have hr : ∀ x, lorentzianAsym x a b c d s = lorentzianAsym (2 * a - x) a b c d (-s) := by
      intro x
      rw [lorentzianAsym_reflect, neg_neg]
    have hmax' : ∀ x, lorentzianAsym x a b c d (-s) ≤ lorentzianAsym (2 * a - pos) a b c d (-s) := by
      intro x
      have := hmax (2 * a - x)
      rw [hr, hr pos, show 2 * a - (2 * a - x) = x by ring] at this
      exact this
    obtain ⟨k1, m, k2⟩ := asym_factor_pos a b c d (-s) (2 * a - pos) N hb hs' hcp hN2 hN hmax'
    rw [asymWidth_reflect, neg_neg] at k1
    refine ⟨k1, 2 * a - m, fun x hx => ?_⟩
    rw [hr, hr x] at hx
    have := k2 _ hx
    rw [abs_sub_comm] at this
    rw [show x - (2 * a - m) = m - (2 * a - x) by ring]
    exact this
  · rw [abs_of_pos hp] at hN ⊢
    exact asym_factor_pos a b c d s pos N hb hp hcp hN2 hN hmax

/-- C101, violated (asymmetric Lorentzians): the reported width of a strongly asymmetric peak is larger than its full width at half maximum by any factor: if `b |s|` is at least `N (1 + exp N) / 2`, any two
points at which the curve is at least half as high as at the peak are at most `(log 8 / N)` times the reported width apart. -/
theorem C101_asymmetric_factor (lib : FitLib) (o o' : FitObject) (hk : o.kind = .asymmetric) (r : FitReport) (h : o.fitting lib = (.ok (some r), o')) (p : FitParams) (v : List (Option ℝ))
    (hpar : (o.parameters lib).1 = .ok (p, v)) (hb : 0 < p.b) (hc : 0 < p.c) (N : ℝ) (hN2 : 2 ≤ N) (hN : N * (1 + exp N) / 2 ≤ p.b * |p.s|)
    (F : ℝ → ℝ) (hF : ∀ x, (o'.curve lib [x]).1 = .ok [F x]) (hmax : ∀ x, F x ≤ F r.position)
    (x y : ℝ) (hx : (F r.position - r.baseLine) / 2 ≤ F x - r.baseLine) (hy : (F r.position - r.baseLine) / 2 ≤ F y - r.baseLine) :
    0 < r.width ∧ |x - y| ≤ log 8 / N * r.width := by
  obtain ⟨p', v', e, hr, -⟩ := o.report_of_fitting lib r o' h
  have hpp : p' = p := by
    rw [e] at hpar
    simp only [Except.ok.injEq, Prod.mk.injEq] at hpar
    exact hpar.1
  subst hpp
  have hk' : o'.kind = .asymmetric := by have := o.parameters_kind lib; rw [e] at this; exact this.trans hk
  have hF' : ∀ x, F x = lorentzianAsym x p'.a p'.b p'.c p'.d p'.s := by
    intro x
    have := hF x
    rw [o.curve_of_parameters lib o' p' v' e, hk'] at this
    simpa [FitKind.function] using this.symm
  simp only [FitObject.report, hk'] at hr
  have hw : r.width = 2 * asymWidth r.position p'.a p'.b p'.s := by rw [hr]
  have hbase : r.baseLine = p'.d := by rw [hr]
  have hN0 : 0 < N * (1 + exp N) / 2 := by positivity
  have hs0 : p'.s ≠ 0 := by
    intro h0
    rw [h0, abs_zero, mul_zero] at hN
    linarith
  have hs1 : 0 < |p'.s| := abs_pos.2 hs0
  simp only [hF', hbase] at hmax hx hy
  obtain ⟨k1, m, k2⟩ := asym_factor p'.a p'.b p'.c p'.d p'.s r.position N hb hs0 hc hN2 (by linarith) hmax
  rw [← hw] at k1
  have hNs : 0 < N / |p'.s| := by positivity
  refine ⟨by linarith, ?_⟩
  have a1 := k2 x hx
  have a2 := k2 y hy
  rw [abs_sub_comm] at a2
  have a3 : |x - y| ≤ |x - m| + |m - y| := abs_sub_le x m y
  have hlog : 0 ≤ log 8 := log_nonneg (by norm_num)
  have e1 : log 8 / |p'.s| + log 8 / |p'.s| = log 8 / N * (2 * (N / |p'.s|)) := by
    field_simp
    ring
  have e2 : log 8 / N * (2 * (N / |p'.s|)) ≤ log 8 / N * r.width := mul_le_mul_of_nonneg_left k1 (by positivity)
  linarith

/-- Such curves have a highest point. -/
theorem asym_peak_exists (a b c d s : ℝ) (hb : 0 < b) (hc : 0 < c) : ∃ pos, ∀ x, lorentzianAsym x a b c d s ≤ lorentzianAsym pos a b c d s := by
  have hpi := pi_pos
  have hcc : 0 < c / π := by positivity
  have hcont : Continuous fun x => lorentzianAsym x a b c d s := by
    have hw : Continuous fun x => asymWidth x a b s := by
      unfold asymWidth
      exact Continuous.div (by fun_prop) (by fun_prop) fun x => by positivity
    unfold lorentzianAsym
    refine Continuous.add (Continuous.div continuous_const ?_ fun x => ?_) continuous_const
    · exact (continuous_const.mul hw).mul (continuous_const.add (((continuous_id.sub continuous_const).div hw fun x => (asymWidth_pos x a b s hb).ne').pow 2))
    · have := asymWidth_pos x a b s hb
      positivity
  -- outside a bounded interval the curve is lower than at the centre
  set g0 := asymWidth a a b s with hg0
  have hg0p : 0 < g0 := asymWidth_pos _ _ _ _ hb
  obtain ⟨pos, -, hpos⟩ := (isCompact_Icc (a := a - g0) (b := a + g0)).exists_isMaxOn ⟨a, by constructor <;> linarith⟩ hcont.continuousOn
  refine ⟨pos, fun x => ?_⟩
  by_cases hx : x ∈ Set.Icc (a - g0) (a + g0)
  · exact hpos hx
  · have ha : lorentzianAsym a a b c d s ≤ lorentzianAsym pos a b c d s := hpos (by constructor <;> linarith)
    refine le_trans ?_ ha
    have e1 := lorentzianAsym_sub x a b c d s hb
    have e2 := lorentzianAsym_sub a a b c d s hb
    have hx' : g0 ≤ |x - a| := by
      by_contra hlt
      have := abs_lt.1 (not_le.1 hlt)
      exact hx ⟨by linarith [this.1], by linarith [this.2]⟩
    have hle : asymWidth x a b s / (asymWidth x a b s ^ 2 + (x - a) ^ 2) ≤ g0 / (g0 ^ 2 + (a - a) ^ 2) := by
      have hgx := asymWidth_pos x a b s hb
      have : g0 ^ 2 ≤ (x - a) ^ 2 := by rw [← sq_abs (x - a)]; exact pow_le_pow_left₀ hg0p.le hx' 2
      rw [sub_self, div_le_div_iff₀ (by positivity) (by positivity)]
      nlinarith [mul_pos hg0p hgx, sq_nonneg (asymWidth x a b s - g0), mul_pos hg0p (mul_pos hgx hgx)]
    have := mul_le_mul_of_nonneg_left hle hcc.le
    rw [← e1, hg0, ← e2] at this
    linarith

/-- The hypotheses are met: a library that returns such parameters (`b s = 10`) and the true position of the peak. -/
example : ∃ (lib : FitLib) (o o' : FitObject) (r : FitReport) (p : FitParams) (v : List (Option ℝ)) (F : ℝ → ℝ), o.kind = .asymmetric ∧ o.fitting lib = (.ok (some r), o') ∧
    (o.parameters lib).1 = .ok (p, v) ∧ 0 < p.b ∧ 0 < p.c ∧ 10 ≤ p.b * |p.s| ∧ (∀ x, (o'.curve lib [x]).1 = .ok [F x]) ∧ ∀ x, F x ≤ F r.position := by
  obtain ⟨pos, hpos⟩ := asym_peak_exists 5 1 3 0 10 (by norm_num) (by norm_num)
  set p : FitParams := { a := 5, b := 1, c := 3, d := 0, s := 10 } with hp
  set lib : FitLib := { curveFit := fun _ _ _ _ => .done p [some 1, some 4], quad := fun _ _ _ => 1, argmin := fun _ _ _ => pos } with hlib
  set o := FitObject.new .asymmetric [1, 5, 9] [0, 2, 0] (some 5) (some 2) with ho
  have e : o.parameters lib = (.ok (p, [some 1, some 4]), { o with cached := some (p, [some 1, some 4]), calls := 1 }) := rfl
  have hav : averageError (standardErrors [some 1, some 4]) = some (3 / 2) := by
    have : √(4 : ℝ) = 2 := by rw [show (4 : ℝ) = 2 ^ 2 by norm_num]; exact sqrt_sq (by norm_num)
    simp [averageError, standardErrors, this]; norm_num
  set o' : FitObject := { o with cached := some (p, [some 1, some 4]), calls := 1 } with ho'
  refine ⟨lib, o, o', o'.report lib p (some (3 / 2)), p, [some 1, some 4], fun x => lorentzianAsym x 5 1 3 0 10, rfl, ?_, by rw [e], by norm_num [hp], by norm_num [hp], by norm_num [hp], ?_, ?_⟩
  · unfold FitObject.fitting
    rw [e]
    dsimp only
    rw [hav]
    have hn : errorIsNan (some (3 / 2)) (o'.report lib p (some (3 / 2))).area = false := by
      norm_num [errorIsNan, FitObject.report, ho', ho, FitObject.new, hlib]
    rw [hn]
    rfl
  · intro x
    rw [o.curve_of_parameters lib o' p _ e]
    rfl
  · exact hpos

end Verif
