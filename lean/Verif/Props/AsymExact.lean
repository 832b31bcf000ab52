import Verif.Props.AsymWidth
import Mathlib.Analysis.SpecialFunctions.ExpDeriv

/-! # C101: the width of asymmetric Lorentzians, for every asymmetry -/

set_option autoImplicit false

namespace Verif

open Real

theorem asym_poly_small (ρ : ℝ) (hρ : 0 < ρ) (hc : ρ ≤ 29 / 50) :
    (1 + ρ) ^ 2 * (1 + 1 / (1 + 4 * ρ * (1 - ρ ^ 2) / (1 + ρ ^ 2) + (4 * ρ * (1 - ρ ^ 2) / (1 + ρ ^ 2)) ^ 2 / 2))
      < 2 + 4 * ρ ^ 2 / (1 + ρ ^ 2) + (4 * ρ ^ 2 / (1 + ρ ^ 2)) ^ 2 / 2 := by
  have hm : 0 < 1 - ρ ^ 2 := by nlinarith
  have hN : 0 < (1 + ρ ^ 2) ^ 2 + 4 * ρ * (1 - ρ ^ 2) * (1 + ρ ^ 2) + 8 * ρ ^ 2 * (1 - ρ ^ 2) ^ 2 := by positivity
  have e1 : 1 + 4 * ρ * (1 - ρ ^ 2) / (1 + ρ ^ 2) + (4 * ρ * (1 - ρ ^ 2) / (1 + ρ ^ 2)) ^ 2 / 2
      = ((1 + ρ ^ 2) ^ 2 + 4 * ρ * (1 - ρ ^ 2) * (1 + ρ ^ 2) + 8 * ρ ^ 2 * (1 - ρ ^ 2) ^ 2) / (1 + ρ ^ 2) ^ 2 := by
    field_simp; ring
  have e2 : 2 + 4 * ρ ^ 2 / (1 + ρ ^ 2) + (4 * ρ ^ 2 / (1 + ρ ^ 2)) ^ 2 / 2 = (2 * (1 + ρ ^ 2) ^ 2 + 4 * ρ ^ 2 * (1 + ρ ^ 2) + 8 * ρ ^ 4) / (1 + ρ ^ 2) ^ 2 := by
    field_simp; ring
  rw [e1, e2, one_div_div, one_add_div hN.ne', mul_div_assoc', div_lt_div_iff₀ hN (by positivity), ← sub_pos]
  have e3 : (2 * (1 + ρ ^ 2) ^ 2 + 4 * ρ ^ 2 * (1 + ρ ^ 2) + 8 * ρ ^ 4) * ((1 + ρ ^ 2) ^ 2 + 4 * ρ * (1 - ρ ^ 2) * (1 + ρ ^ 2) + 8 * ρ ^ 2 * (1 - ρ ^ 2) ^ 2)
      - (1 + ρ) ^ 2 * ((1 + ρ ^ 2) ^ 2 + 4 * ρ * (1 - ρ ^ 2) * (1 + ρ ^ 2) + 8 * ρ ^ 2 * (1 - ρ ^ 2) ^ 2 + (1 + ρ ^ 2) ^ 2) * (1 + ρ ^ 2) ^ 2
      = ρ ^ 2 * ((20 * (ρ - 3 / 10) ^ 2 + 1 / 5) + ρ ^ 3 * (16 + 32 * ρ - 8 * ρ ^ 2 - 124 * ρ ^ 3 - 48 * ρ ^ 4 + 110 * ρ ^ 5 - 12 * ρ ^ 6 - 8 * ρ ^ 7)) := by ring
  rw [e3]
  have p2 : ρ ^ 2 ≤ (29 / 50) ^ 2 := pow_le_pow_left₀ hρ.le hc 2
  have p3 : ρ ^ 3 ≤ (29 / 50) ^ 2 * ρ := by nlinarith
  have p4 : ρ ^ 4 ≤ (29 / 50) ^ 3 * ρ := by nlinarith [pow_le_pow_left₀ hρ.le hc 3]
  have p6 : ρ ^ 6 ≤ (29 / 50) ^ 6 := pow_le_pow_left₀ hρ.le hc 6
  have p7 : ρ ^ 7 ≤ (29 / 50) ^ 7 := pow_le_pow_left₀ hρ.le hc 7
  have p5 : 0 ≤ ρ ^ 5 := by positivity
  have : 0 ≤ 16 + 32 * ρ - 8 * ρ ^ 2 - 124 * ρ ^ 3 - 48 * ρ ^ 4 + 110 * ρ ^ 5 - 12 * ρ ^ 6 - 8 * ρ ^ 7 := by norm_num at p2 p3 p4 p6 p7; linarith
  have hA : 0 < 20 * (ρ - 3 / 10) ^ 2 + 1 / 5 := by positivity
  exact mul_pos (pow_pos hρ 2) (add_pos_of_pos_of_nonneg hA (mul_nonneg (pow_pos hρ 3).le this))

theorem asym_poly_large (ρ : ℝ) (hc : 29 / 50 ≤ ρ) (hρ1 : ρ < 1) :
    (1 + ρ) ^ 2 * (34 / 25) < 2 + 2 * ρ ^ 2 / (1 - ρ ^ 2) + (2 * ρ ^ 2 / (1 - ρ ^ 2)) ^ 2 / 2 := by
  have hm : 0 < 1 - ρ ^ 2 := by nlinarith
  have e2 : 2 + 2 * ρ ^ 2 / (1 - ρ ^ 2) + (2 * ρ ^ 2 / (1 - ρ ^ 2)) ^ 2 / 2 = (2 * (1 - ρ ^ 2) ^ 2 + 2 * ρ ^ 2 * (1 - ρ ^ 2) + 2 * ρ ^ 4) / (1 - ρ ^ 2) ^ 2 := by
    field_simp
  rw [e2, lt_div_iff₀ (by positivity)]
  obtain ⟨t, rfl⟩ : ∃ t, ρ = 29 / 50 + t := ⟨ρ - 29 / 50, by ring⟩
  have ht : 0 ≤ t := by linarith
  have ht1 : t ≤ 21 / 50 := by linarith
  rw [← sub_pos]
  have t2 : t ^ 2 ≤ (21 / 50) ^ 2 := pow_le_pow_left₀ ht ht1 2
  have t3 : t ^ 3 ≤ (21 / 50) ^ 3 := pow_le_pow_left₀ ht ht1 3
  have t4 : t ^ 4 ≤ (21 / 50) ^ 4 := pow_le_pow_left₀ ht ht1 4
  have hr : 0 ≤ 7 - 1.3 * t - 11.4 * t ^ 2 - 7.5 * t ^ 3 - 1.4 * t ^ 4 := by norm_num at t2 t3 t4 ⊢; linarith
  have hr2 : 0 ≤ t ^ 2 * (7 - 1.3 * t - 11.4 * t ^ 2 - 7.5 * t ^ 3 - 1.4 * t ^ 4) := mul_nonneg (sq_nonneg t) hr
  have k3 : 0 ≤ t ^ 3 := by positivity
  have k4 : 0 ≤ t ^ 4 := by positivity
  have k5 : 0 ≤ t ^ 5 := by positivity
  have k6 : 0 ≤ t ^ 6 := by positivity
  have k2 : 0 ≤ t ^ 2 := by positivity
  ring_nf at hr2 ⊢
  linarith

/-- Half of the highest value of an asymmetric Lorentzian, on the side of the larger widths (in units of the width at the peak). -/
theorem asym_key (σ ρ v : ℝ) (hρ : 0 < ρ) (hρ1 : ρ < 1) (hv : v = 1 + exp (-(σ * ρ))) (hst : σ * (1 - ρ ^ 2) = 2 * ρ * v) :
    (1 + ρ) ^ 2 * (1 + exp (-(2 * ρ * v))) < 1 + exp (σ * ρ) := by
  have hv1 : 1 < v := by rw [hv]; linarith [exp_pos (-(σ * ρ))]
  have hm : 0 < 1 - ρ ^ 2 := by nlinarith
  generalize hq : σ * ρ = q at hv ⊢
  have hqe : q * (1 - ρ ^ 2) = 2 * ρ ^ 2 * v := by rw [← hq]; linear_combination ρ * hst
  have hq0 : 0 < q := by
    have : 0 < q * (1 - ρ ^ 2) := by rw [hqe]; positivity
    exact (pos_iff_pos_of_mul_pos this).2 hm
  have hv2 : 2 - q ≤ v := by rw [hv]; linarith [add_one_le_exp (-q)]
  have hv3 : 2 * (1 - ρ ^ 2) ≤ v * (1 + ρ ^ 2) := by nlinarith
  have hexpq : 1 + q + q ^ 2 / 2 ≤ exp q := quadratic_le_exp_of_nonneg hq0.le
  have hbound : ∀ w, 0 < w → w ≤ 2 * ρ * v → exp (-(2 * ρ * v)) ≤ 1 / (1 + w + w ^ 2 / 2) := by
    intro w hw hwle
    have h1 : 1 + w + w ^ 2 / 2 ≤ exp w := quadratic_le_exp_of_nonneg hw.le
    calc exp (-(2 * ρ * v)) ≤ exp (-w) := exp_le_exp.2 (by linarith)
      _ = 1 / exp w := by rw [exp_neg, one_div]
      _ ≤ 1 / (1 + w + w ^ 2 / 2) := one_div_le_one_div_of_le (by positivity) h1
  rcases le_total ρ (29 / 50) with hc | hc
  · have hD : 0 < 1 + ρ ^ 2 := by positivity
    have h3 := asym_poly_small ρ hρ hc
    have hw : 4 * ρ * (1 - ρ ^ 2) / (1 + ρ ^ 2) ≤ 2 * ρ * v := by
      rw [div_le_iff₀ hD]
      nlinarith
    have hq1 : 4 * ρ ^ 2 / (1 + ρ ^ 2) ≤ q := by
      rw [div_le_iff₀ hD]
      have : 4 * ρ ^ 2 * (1 - ρ ^ 2) ≤ q * (1 + ρ ^ 2) * (1 - ρ ^ 2) := by
        have : q * (1 + ρ ^ 2) * (1 - ρ ^ 2) = 2 * ρ ^ 2 * (v * (1 + ρ ^ 2)) := by linear_combination (1 + ρ ^ 2) * hqe
        rw [this]
        nlinarith [sq_nonneg ρ]
      exact le_of_mul_le_mul_right this hm
    have hq00 : 0 < 4 * ρ ^ 2 / (1 + ρ ^ 2) := by positivity
    have h1 := hbound _ (by positivity) hw
    generalize 4 * ρ * (1 - ρ ^ 2) / (1 + ρ ^ 2) = w at *
    generalize 4 * ρ ^ 2 / (1 + ρ ^ 2) = q0 at *
    have h2 : 2 + q0 + q0 ^ 2 / 2 ≤ 1 + exp q := by nlinarith
    calc (1 + ρ) ^ 2 * (1 + exp (-(2 * ρ * v))) ≤ (1 + ρ) ^ 2 * (1 + 1 / (1 + w + w ^ 2 / 2)) := by gcongr
      _ < _ := h3.trans_le h2
  · have h1 := hbound (29 / 25) (by norm_num) (by nlinarith)
    have h1' : exp (-(2 * ρ * v)) ≤ 9 / 25 := h1.trans (by norm_num)
    have h3 := asym_poly_large ρ hc hρ1
    have hq1 : 2 * ρ ^ 2 / (1 - ρ ^ 2) ≤ q := by
      rw [div_le_iff₀ hm, hqe]
      nlinarith [sq_nonneg ρ]
    have hq00 : 0 < 2 * ρ ^ 2 / (1 - ρ ^ 2) := by positivity
    generalize 2 * ρ ^ 2 / (1 - ρ ^ 2) = q0 at *
    have h2 : 2 + q0 + q0 ^ 2 / 2 ≤ 1 + exp q := by nlinarith
    calc (1 + ρ) ^ 2 * (1 + exp (-(2 * ρ * v))) ≤ (1 + ρ) ^ 2 * (34 / 25) := by gcongr; linarith
      _ < _ := h3.trans_le h2

/-- In units of the width at the peak: from the centre, the points at or above half of the highest value are within an interval of length 2. -/
theorem asym_scaled (σ ρ : ℝ) (hσ : 0 < σ) (E : ℝ → ℝ) (hE : ∀ ζ, E ζ = (1 + exp (σ * ζ)) / (1 + exp (σ * ρ)))
    (hmin : ∀ ζ, (1 + ρ ^ 2) * E ζ ≤ 1 + ζ ^ 2 * E ζ ^ 2) (ζ : ℝ) (hh : 1 + ζ ^ 2 * E ζ ^ 2 ≤ 2 * (1 + ρ ^ 2) * E ζ) : -(1 - ρ ^ 2) < ζ ∧ ζ ≤ 1 + ρ ^ 2 := by
  have hS : 0 < 1 + exp (σ * ρ) := by positivity
  have hEpos : ∀ ζ, 0 < E ζ := by intro ζ; rw [hE]; positivity
  have hEρ : E ρ = 1 := by rw [hE, div_self hS.ne']
  have hderE : ∀ ζ, HasDerivAt E (exp (σ * ζ) * σ / (1 + exp (σ * ρ))) ζ := by
    intro ζ
    have h1 : HasDerivAt (fun ζ => (1 + exp (σ * ζ)) / (1 + exp (σ * ρ))) (exp (σ * ζ) * σ / (1 + exp (σ * ρ))) ζ := by
      have h2 : HasDerivAt (fun ζ : ℝ => σ * ζ) σ ζ := by simpa using (hasDerivAt_id ζ).const_mul σ
      exact (h2.exp.const_add 1).div_const _
    exact h1.congr_of_eventuallyEq (Filter.Eventually.of_forall hE)
  have hst0 : (exp (σ * ρ) * σ / (1 + exp (σ * ρ))) * (1 - ρ ^ 2) = 2 * ρ := by
    have hk : HasDerivAt (fun ζ => 1 + ζ ^ 2 * E ζ ^ 2 - (1 + ρ ^ 2) * E ζ) _ ρ :=
      (((((hasDerivAt_id ρ).pow 2).mul ((hderE ρ).pow 2)).const_add 1).sub ((hderE ρ).const_mul (1 + ρ ^ 2)))
    have hloc : IsLocalMin (fun ζ => 1 + ζ ^ 2 * E ζ ^ 2 - (1 + ρ ^ 2) * E ζ) ρ := by
      refine Filter.Eventually.of_forall fun ζ => ?_
      simp only [hEρ]
      nlinarith [hmin ζ]
    have h0 := hloc.hasDerivAt_eq_zero hk
    simp only [hEρ, id] at h0
    norm_num at h0
    rw [hEρ] at h0
    linarith
  have hv : exp (σ * ρ) * σ / (1 + exp (σ * ρ)) = σ / (1 + exp (-(σ * ρ))) := by
    rw [exp_neg]
    have := exp_pos (σ * ρ)
    field_simp
    ring
  rw [hv] at hst0
  have hvp : 0 < 1 + exp (-(σ * ρ)) := by positivity
  have hst : σ * (1 - ρ ^ 2) = 2 * ρ * (1 + exp (-(σ * ρ))) := by
    field_simp at hst0
    linarith
  have hρ : 0 < ρ := by
    by_contra hn
    have hn : ρ ≤ 0 := not_lt.1 hn
    have h1 : exp (σ * ρ) ≤ 1 := exp_le_one_iff.2 (mul_nonpos_of_nonneg_of_nonpos hσ.le hn)
    have h2 : 1 ≤ E 0 := by rw [hE, mul_zero, exp_zero, le_div_iff₀ hS]; linarith
    have h3 := hmin 0
    have h4 : ρ = 0 := by
      have : ρ ^ 2 ≤ 0 := by nlinarith
      exact pow_eq_zero_iff (two_ne_zero) |>.1 (le_antisymm this (sq_nonneg ρ))
    rw [h4] at hst
    simp at hst
    exact hσ.ne' hst
  have hρ1 : ρ < 1 := by
    by_contra hn
    have hn : 1 ≤ ρ := not_lt.1 hn
    have : σ * (1 - ρ ^ 2) ≤ 0 := mul_nonpos_of_nonneg_of_nonpos hσ.le (by nlinarith)
    have : 0 < 2 * ρ * (1 + exp (-(σ * ρ))) := by positivity
    linarith
  have hEz := hEpos ζ
  refine ⟨?_, ?_⟩
  · by_contra hn
    have hn : ζ ≤ -(1 - ρ ^ 2) := not_lt.1 hn
    have hkey := asym_key σ ρ _ hρ hρ1 rfl hst
    have hm : 0 < 1 - ρ ^ 2 := by nlinarith
    have hE1 : (1 + ρ) ^ 2 * E ζ < 1 := by
      rw [hE, mul_div_assoc', div_lt_one hS]
      refine lt_of_le_of_lt ?_ hkey
      have : σ * ζ ≤ -(2 * ρ * (1 + exp (-(σ * ρ)))) := by rw [← hst]; nlinarith
      gcongr
    have hE2 : (1 - ρ) ^ 2 * E ζ < 1 := by nlinarith
    have h5 : (1 - ρ ^ 2) ^ 2 ≤ ζ ^ 2 := by nlinarith
    have h6 : (1 - ρ ^ 2) ^ 2 * E ζ ^ 2 ≤ ζ ^ 2 * E ζ ^ 2 := mul_le_mul_of_nonneg_right h5 (sq_nonneg _)
    have h7 : 0 < (1 - (1 + ρ) ^ 2 * E ζ) * (1 - (1 - ρ) ^ 2 * E ζ) := mul_pos (by linarith) (by linarith)
    nlinarith
  · have h1 : 2 * (ζ * E ζ) ≤ 2 * (1 + ρ ^ 2) * E ζ := by nlinarith [sq_nonneg (ζ * E ζ - 1)]
    have h2 : ζ * E ζ ≤ (1 + ρ ^ 2) * E ζ := by linarith
    exact le_of_mul_le_mul_right h2 hEz

/-- Any two points at which an asymmetric Lorentzian is at least half as high as at its peak are closer than twice the width at the peak. -/
theorem asym_width_lt_pos (a b c d s pos : ℝ) (hb : 0 < b) (hs : 0 < s) (hc : 0 < c) (hmax : ∀ x, lorentzianAsym x a b c d s ≤ lorentzianAsym pos a b c d s) (x y : ℝ)
    (hx : (lorentzianAsym pos a b c d s - d) / 2 ≤ lorentzianAsym x a b c d s - d) (hy : (lorentzianAsym pos a b c d s - d) / 2 ≤ lorentzianAsym y a b c d s - d) :
    |x - y| < 2 * asymWidth pos a b s := by
  have hg := asymWidth_pos pos a b s hb
  obtain ⟨g, hgd⟩ : ∃ g, g = asymWidth pos a b s := ⟨_, rfl⟩
  rw [← hgd] at hg ⊢
  have hpi := pi_pos
  have hcc : 0 < c / π := by positivity
  set ρ := (pos - a) / g with hρd
  have hρg : pos - a = ρ * g := by rw [hρd]; field_simp
  set E : ℝ → ℝ := fun ζ => (1 + exp (s * g * ζ)) / (1 + exp (s * g * ρ)) with hEd
  have hEp : ∀ ζ, 0 < E ζ := by intro ζ; simp only [hEd]; positivity
  have hγ : ∀ ζ, asymWidth (a + g * ζ) a b s * E ζ = g := by
    intro ζ
    have e1 : s * (pos - a) = s * g * ρ := by rw [hρg]; ring
    have e2 : g = 2 * b / (1 + exp (s * g * ρ)) := by rw [← e1]; exact hgd
    simp only [hEd]
    unfold asymWidth
    rw [show s * (a + g * ζ - a) = s * g * ζ by ring]
    refine Eq.trans ?_ e2.symm
    field_simp
  have hval : ∀ ζ, lorentzianAsym (a + g * ζ) a b c d s - d = c / π / g * (E ζ / (1 + ζ ^ 2 * E ζ ^ 2)) := by
    intro ζ
    rw [lorentzianAsym_sub _ _ _ _ _ _ hb]
    have h1 := hEp ζ
    have h2 : asymWidth (a + g * ζ) a b s = g / E ζ := by rw [eq_div_iff h1.ne', hγ]
    rw [h2]
    have h3 : 0 < 1 + ζ ^ 2 * E ζ ^ 2 := by positivity
    have h4 : 0 < (g / E ζ) ^ 2 + (a + g * ζ - a) ^ 2 := by positivity
    rw [show (g / E ζ) ^ 2 + (a + g * ζ - a) ^ 2 = g ^ 2 * (1 + ζ ^ 2 * E ζ ^ 2) / E ζ ^ 2 by field_simp; ring]
    field_simp
  have hEρ : E ρ = 1 := by simp only [hEd]; exact div_self (by positivity)
  have hpos : lorentzianAsym pos a b c d s - d = c / π / g * (1 / (1 + ρ ^ 2)) := by
    have := hval ρ
    rw [show a + g * ρ = pos by linarith [hρg, mul_comm g ρ], hEρ] at this
    simpa using this
  have hcg : 0 < c / π / g := by positivity
  have hmin : ∀ ζ, (1 + ρ ^ 2) * E ζ ≤ 1 + ζ ^ 2 * E ζ ^ 2 := by
    intro ζ
    have h1 : lorentzianAsym (a + g * ζ) a b c d s - d ≤ lorentzianAsym pos a b c d s - d := by linarith [hmax (a + g * ζ)]
    rw [hval, hpos] at h1
    have h2 := le_of_mul_le_mul_left h1 hcg
    have h3 : 0 < 1 + ζ ^ 2 * E ζ ^ 2 := by positivity
    rw [div_le_div_iff₀ h3 (by positivity)] at h2
    linarith
  have hhalf : ∀ x, (lorentzianAsym pos a b c d s - d) / 2 ≤ lorentzianAsym x a b c d s - d → a - g * (1 - ρ ^ 2) < x ∧ x ≤ a + g * (1 + ρ ^ 2) := by
    intro x hx
    have hxe : x = a + g * ((x - a) / g) := by field_simp; ring
    generalize (x - a) / g = ζ at hxe
    rw [hxe, hval, hpos, show c / π / g * (1 / (1 + ρ ^ 2)) / 2 = c / π / g * (1 / (2 * (1 + ρ ^ 2))) by field_simp] at hx
    have h2 := le_of_mul_le_mul_left hx hcg
    have h3 : 0 < 1 + ζ ^ 2 * E ζ ^ 2 := by have := hEp ζ; positivity
    rw [div_le_div_iff₀ (by positivity) h3] at h2
    obtain ⟨k1, k2⟩ := asym_scaled (s * g) ρ (by positivity) E (fun ζ => rfl) hmin ζ (by linarith)
    rw [hxe]
    constructor
    · nlinarith
    · nlinarith
  obtain ⟨x1, x2⟩ := hhalf x hx
  obtain ⟨y1, y2⟩ := hhalf y hy
  rw [abs_lt]
  constructor <;> nlinarith

theorem asym_width_lt (a b c d s pos : ℝ) (hb : 0 < b) (hs : s ≠ 0) (hc : 0 < c) (hmax : ∀ x, lorentzianAsym x a b c d s ≤ lorentzianAsym pos a b c d s) (x y : ℝ)
    (hx : (lorentzianAsym pos a b c d s - d) / 2 ≤ lorentzianAsym x a b c d s - d) (hy : (lorentzianAsym pos a b c d s - d) / 2 ≤ lorentzianAsym y a b c d s - d) :
    |x - y| < 2 * asymWidth pos a b s := by
  rcases lt_or_gt_of_ne hs with hneg | hp
  · have hr : ∀ x, lorentzianAsym x a b c d s = lorentzianAsym (2 * a - x) a b c d (-s) := by
      intro x
      rw [lorentzianAsym_reflect, neg_neg]
    have hmax' : ∀ x, lorentzianAsym x a b c d (-s) ≤ lorentzianAsym (2 * a - pos) a b c d (-s) := by
      intro x
      have := hmax (2 * a - x)
      rw [hr, hr pos, show 2 * a - (2 * a - x) = x by ring] at this
      exact this
    rw [hr, hr x] at hx
    rw [hr, hr y] at hy
    have k := asym_width_lt_pos a b c d (-s) (2 * a - pos) hb (by linarith) hc hmax' _ _ hx hy
    rw [asymWidth_reflect, neg_neg, show 2 * a - x - (2 * a - y) = -(x - y) by ring, abs_neg] at k
    exact k
  · exact asym_width_lt_pos a b c d s pos hb hp hc hmax x y hx hy

/-- The parameters behind the report of an asymmetric Lorentzian. -/
theorem asym_report (lib : FitLib) (o o' : FitObject) (hk : o.kind = .asymmetric) (r : FitReport) (h : o.fitting lib = (.ok (some r), o')) (hw : 0 < r.width)
    (hm : r.baseLine < r.maximum) (F : ℝ → ℝ) (hF : ∀ x, (o'.curve lib [x]).1 = .ok [F x]) :
    ∃ p : FitParams, r.asymmetry = some p.s ∧ 0 < p.b ∧ 0 < p.c ∧ r.baseLine = p.d ∧ r.width = 2 * asymWidth r.position p.a p.b p.s ∧ ∀ x, F x = lorentzianAsym x p.a p.b p.c p.d p.s := by
  obtain ⟨p, v, e, hr, -⟩ := o.report_of_fitting lib r o' h
  have hk' : o'.kind = .asymmetric := by have := o.parameters_kind lib; rw [e] at this; exact this.trans hk
  have hF' : ∀ x, F x = lorentzianAsym x p.a p.b p.c p.d p.s := by
    intro x
    have := hF x
    rw [o.curve_of_parameters lib o' p v e, hk'] at this
    simpa [FitKind.function] using this.symm
  simp only [FitObject.report, hk'] at hr
  have hwe : r.width = 2 * asymWidth r.position p.a p.b p.s := by rw [hr]
  have hbase : r.baseLine = p.d := by rw [hr]
  have hb : 0 < p.b := by
    rw [hwe] at hw
    unfold asymWidth at hw
    have h1 : 0 < 1 + exp (p.s * (r.position - p.a)) := by positivity
    have h2 : 0 < 2 * p.b / (1 + exp (p.s * (r.position - p.a))) := by linarith
    have := (div_pos_iff_of_pos_right h1).1 h2
    linarith
  have hmF : r.maximum = lorentzianAsym r.position p.a p.b p.c p.d p.s := by rw [hr]; simp [FitKind.function]
  have hc : 0 < p.c := by
    have h1 := lorentzianAsym_sub r.position p.a p.b p.c p.d p.s hb
    rw [← hmF, ← hbase] at h1
    have hg := asymWidth_pos r.position p.a p.b p.s hb
    have h2 : 0 < p.c / π * (asymWidth r.position p.a p.b p.s / (asymWidth r.position p.a p.b p.s ^ 2 + (r.position - p.a) ^ 2)) := by rw [← h1]; linarith
    have h3 : 0 < p.c / π := (pos_iff_pos_of_mul_pos h2).2 (by positivity)
    exact (div_pos_iff_of_pos_right pi_pos).1 h3
  exact ⟨p, by rw [hr], hb, hc, hbase, hwe, hF'⟩

/-- C101, violated (asymmetric Lorentzians): for every asymmetry but 0 the reported width is strictly larger than the full width at half maximum, that is, any two points at which the fitted curve is at
least half as high as at its peak are closer than the reported width. -/
theorem C101_asymmetric_violated (lib : FitLib) (o o' : FitObject) (hk : o.kind = .asymmetric) (r : FitReport) (h : o.fitting lib = (.ok (some r), o')) (hs : r.asymmetry ≠ some 0)
    (hw : 0 < r.width) (hm : r.baseLine < r.maximum) (F : ℝ → ℝ) (hF : ∀ x, (o'.curve lib [x]).1 = .ok [F x]) (hmax : ∀ x, F x ≤ F r.position) :
    (∀ x y, (F r.position - r.baseLine) / 2 ≤ F x - r.baseLine → (F r.position - r.baseLine) / 2 ≤ F y - r.baseLine → |x - y| < r.width)
      ∧ ¬ IsFWHM Set.univ F r.baseLine r.position r.width := by
  obtain ⟨p, hps, hb, hc, hbase, hwe, hF'⟩ := asym_report lib o o' hk r h hw hm F hF
  have hs0 : p.s ≠ 0 := fun h0 => hs (by rw [hps, h0])
  have key : ∀ x y, (F r.position - r.baseLine) / 2 ≤ F x - r.baseLine → (F r.position - r.baseLine) / 2 ≤ F y - r.baseLine → |x - y| < r.width := by
    intro x y hx hy
    simp only [hF', hbase] at hmax hx hy
    rw [hwe]
    exact asym_width_lt p.a p.b p.c p.d p.s r.position hb hs0 hc hmax x y hx hy
  refine ⟨key, ?_⟩
  rintro ⟨l, u, -, -, h1, h2, h3, h4⟩
  have := key u l ((h4 u trivial).2 ⟨(h1.trans h2).le, le_refl _⟩) ((h4 l trivial).2 ⟨le_refl _, (h1.trans h2).le⟩)
  rw [h3, abs_of_pos (by linarith)] at this
  exact lt_irrefl _ this

/-- C101 (asymmetric Lorentzians), exactly: the reported width is the full width at half maximum if and only if the asymmetry is 0. -/
theorem C101_asymmetric_iff (lib : FitLib) (o o' : FitObject) (hk : o.kind = .asymmetric) (r : FitReport) (h : o.fitting lib = (.ok (some r), o'))
    (hw : 0 < r.width) (hm : r.baseLine < r.maximum) (F : ℝ → ℝ) (hF : ∀ x, (o'.curve lib [x]).1 = .ok [F x]) (hmax : ∀ x, F x ≤ F r.position) :
    IsFWHM Set.univ F r.baseLine r.position r.width ↔ r.asymmetry = some 0 := by
  constructor
  · intro hI
    by_contra hs
    exact (C101_asymmetric_violated lib o o' hk r h hs hw hm F hF hmax).2 hI
  · intro hs
    exact C101_asymmetric_partial lib o o' hk r h hs hw hm F hF hmax

/-- The hypotheses are met with every asymmetry: a library that returns such parameters and the true position of the peak. -/
example (s : ℝ) : ∃ (lib : FitLib) (o o' : FitObject) (r : FitReport) (F : ℝ → ℝ), o.kind = .asymmetric ∧ o.fitting lib = (.ok (some r), o') ∧
    r.asymmetry = some s ∧ 0 < r.width ∧ r.baseLine < r.maximum ∧ (∀ x, (o'.curve lib [x]).1 = .ok [F x]) ∧ ∀ x, F x ≤ F r.position := by
  obtain ⟨pos, hpos⟩ := asym_peak_exists 5 1 3 0 s (by norm_num) (by norm_num)
  set p : FitParams := { a := 5, b := 1, c := 3, d := 0, s := s } with hp
  set lib : FitLib := { curveFit := fun _ _ _ _ => .done p [some 1, some 4], quad := fun _ _ _ => 1, argmin := fun _ _ _ => pos } with hlib
  set o := FitObject.new .asymmetric [1, 5, 9] [0, 2, 0] (some 5) (some 2) with ho
  have e : o.parameters lib = (.ok (p, [some 1, some 4]), { o with cached := some (p, [some 1, some 4]), calls := 1 }) := rfl
  have hav : averageError (standardErrors [some 1, some 4]) = some (3 / 2) := by
    have : √(4 : ℝ) = 2 := by rw [show (4 : ℝ) = 2 ^ 2 by norm_num]; exact sqrt_sq (by norm_num)
    simp [averageError, standardErrors, this]; norm_num
  set o' : FitObject := { o with cached := some (p, [some 1, some 4]), calls := 1 } with ho'
  have hb : (0 : ℝ) < 1 := one_pos
  refine ⟨lib, o, o', o'.report lib p (some (3 / 2)), fun x => lorentzianAsym x 5 1 3 0 s, rfl, ?_, rfl, ?_, ?_, ?_, ?_⟩
  · unfold FitObject.fitting
    rw [e]
    dsimp only
    rw [hav]
    have hn : errorIsNan (some (3 / 2)) (o'.report lib p (some (3 / 2))).area = false := by
      norm_num [errorIsNan, FitObject.report, ho', ho, FitObject.new, hlib]
    rw [hn]
    rfl
  · have := asymWidth_pos pos 5 1 s hb
    show 0 < 2 * asymWidth pos 5 1 s
    linarith
  · have hmx : (o'.report lib p (some (3 / 2))).maximum = lorentzianAsym pos 5 1 3 0 s := by simp [FitObject.report, ho', ho, FitObject.new, FitKind.function, hlib, hp]
    have hbl : (o'.report lib p (some (3 / 2))).baseLine = 0 := by simp [FitObject.report, ho', ho, FitObject.new, hp]
    rw [hmx, hbl]
    have h1 := lorentzianAsym_sub pos 5 1 3 0 s hb
    have h2 := asymWidth_pos pos 5 1 s hb
    rw [sub_zero] at h1
    rw [h1]
    have := pi_pos
    positivity
  · intro x
    rw [o.curve_of_parameters lib o' p _ e]
    rfl
  · exact hpos

end Verif
