import Verif.Model.DoubleTime
import Verif.Props.DoubleTests

/-! # C16: the average time step in double precision -/

set_option autoImplicit false

namespace Verif

theorem roundFl8_near {s : ℚ} {k : ℤ} {T : ℚ} (hT : T ≤ 10 ^ 6) (hk : |(k : ℚ)| ≤ 10 ^ 8 * T) (hs : |s - (k : ℚ) / 10 ^ 8| ≤ T / 2 ^ 49) : roundFl8 s = fl ((k : ℚ) / 10 ^ 8) := by
  have h1 : |s * 10 ^ 8 - k| ≤ 10 ^ 8 * (T / 2 ^ 49) := by
    have : s * 10 ^ 8 - k = (s - (k : ℚ) / 10 ^ 8) * 10 ^ 8 := by field_simp
    rw [this, abs_mul, abs_of_pos (by positivity : (0 : ℚ) < 10 ^ 8), mul_comm]
    exact mul_le_mul_of_nonneg_left hs (by positivity)
  have h2 := fl_near h1 hk
  have h3 : |fl (s * 10 ^ 8) - k| < 1 / 2 := by
    refine lt_of_le_of_lt h2 ?_
    norm_num at hT ⊢
    linarith
  rw [roundFl8, roundEven_near h3]

/-- **C16** (double precision): if the time stamps are the doubles closest to a uniform grid whose step `k / 10⁸` has at most eight decimals (or have errors up to twice as large), for up to 2⁵⁰ steps and times up to 10⁶ ps, the calculated time step is
the double closest to the step, in spite of all rounding errors of the sum; and asking again gives the same. -/
theorem C16_double (n : ℕ) (hn : 2 ≤ n) (hn' : n ≤ 2 ^ 50) (t0 : ℚ) (k : ℤ) (T : ℚ) (h0 : 0 ≤ t0) (hk : 0 ≤ k) (hT : t0 + ((n - 1 : ℕ) : ℚ) * ((k : ℚ) / 10 ^ 8) ≤ T) (hT' : T ≤ 10 ^ 6) (t : ℕ → ℚ)
    (ht : ∀ i < n, |t i - (t0 + i * ((k : ℚ) / 10 ^ 8))| ≤ T / 2 ^ 52) : timeStepFl n t = fl ((k : ℚ) / 10 ^ 8) ∧ roundFl8 (timeStepFl n t) = timeStepFl n t := by
  have hkQ : (0 : ℚ) ≤ k := by exact_mod_cast hk
  set d : ℚ := (k : ℚ) / 10 ^ 8 with hd
  have hd0 : 0 ≤ d := by positivity
  set D : ℕ := n - 1 with hD
  have hD1 : 1 ≤ D := by omega
  have hDQ : (1 : ℚ) ≤ D := by exact_mod_cast hD1
  have hDd : (D : ℚ) * d ≤ T := by linarith
  have hdT : d ≤ T := le_trans (le_mul_of_one_le_left hd0 hDQ) hDd
  have hT0 : 0 ≤ T := hd0.trans hdT
  -- one term
  have hterm : ∀ j < D, |fl (fl (t (j + 1) - t j) / (D : ℚ)) - d / D| ≤ (25 / 4 * T / 2 ^ 53) / D := by
    intro j hj
    have ha : |t (j + 1) - t j - d| ≤ 4 * T / 2 ^ 53 := by
      have e1 := abs_le.1 (ht (j + 1) (by omega))
      have e2 := abs_le.1 (ht j (by omega))
      push_cast at e1
      rw [abs_le]
      constructor <;> linarith [e1.1, e1.2, e2.1, e2.2]
    have hb := fl_near ha (le_of_eq_of_le (abs_of_nonneg hd0) hdT)
    have hb' : |fl (t (j + 1) - t j) / (D : ℚ) - d / D| ≤ (51 / 10 * T / 2 ^ 53) / D := by
      rw [← sub_div, abs_div, abs_of_pos (by linarith : (0 : ℚ) < D)]
      refine div_le_div_of_nonneg_right (hb.trans ?_) (by linarith)
      norm_num
      linarith
    have hM : |d / (D : ℚ)| ≤ d / D := le_of_eq (abs_of_nonneg (by positivity))
    have hc := fl_near hb' hM
    refine hc.trans ?_
    have e : (51 / 10 * T / 2 ^ 53) / (D : ℚ) + (d / D + (51 / 10 * T / 2 ^ 53) / D) / 2 ^ 53 = (51 / 10 * T / 2 ^ 53 + (d + 51 / 10 * T / 2 ^ 53) / 2 ^ 53) / D := by ring
    rw [e]
    refine div_le_div_of_nonneg_right ?_ (by linarith)
    norm_num
    linarith
  -- the sum
  set g : ℚ := (25 / 4 * T / 2 ^ 53) / D + d / 2 ^ 53 with hg
  have hg0 : 0 ≤ g := by positivity
  have hsum : ∀ j ≤ D, |timeStepSumFl n t j - j * (d / D)| ≤ 2 * j * g := by
    intro j
    induction j with
    | zero => intro _; simp [timeStepSumFl]
    | succ j ih =>
      intro hj
      have h1 := ih (by omega)
      have h2 := hterm j (by omega)
      have hx : |timeStepSumFl n t j + fl (fl (t (j + 1) - t j) / (D : ℚ)) - ((j + 1 : ℕ) : ℚ) * (d / D)| ≤ 2 * j * g + (25 / 4 * T / 2 ^ 53) / D := by
        have : timeStepSumFl n t j + fl (fl (t (j + 1) - t j) / (D : ℚ)) - ((j + 1 : ℕ) : ℚ) * (d / D) = (timeStepSumFl n t j - j * (d / D)) + (fl (fl (t (j + 1) - t j) / (D : ℚ)) - d / D) := by
          push_cast; ring
        rw [this]
        exact (abs_add_le _ _).trans (add_le_add h1 h2)
      have hM : |((j + 1 : ℕ) : ℚ) * (d / D)| ≤ d := by
        rw [abs_of_nonneg (by positivity)]
        have hj1 : ((j + 1 : ℕ) : ℚ) ≤ D := by exact_mod_cast hj
        calc ((j + 1 : ℕ) : ℚ) * (d / D) ≤ D * (d / D) := mul_le_mul_of_nonneg_right hj1 (by positivity)
          _ = d := by field_simp
      have h3 := fl_near hx hM
      have hstep : timeStepSumFl n t (j + 1) = fl (timeStepSumFl n t j + fl (fl (t (j + 1) - t j) / (D : ℚ))) := rfl
      rw [hstep]
      refine h3.trans ?_
      have hjQ : (j : ℚ) ≤ 2 ^ 50 := by exact_mod_cast (by omega : j ≤ 2 ^ 50)
      have hjg : (j : ℚ) * g ≤ 2 ^ 50 * g := mul_le_mul_of_nonneg_right hjQ hg0
      set e2 : ℚ := (25 / 4 * T / 2 ^ 53) / D with he2
      have he0 : 0 ≤ e2 := by positivity
      have hge : g = e2 + d / 2 ^ 53 := hg
      push_cast
      have key : (2 * (j : ℚ) * g + e2) + (d + (2 * j * g + e2)) / 2 ^ 53 = 2 * (j * g) + g + (2 * (j * g) + e2) / 2 ^ 53 := by rw [hge]; ring
      rw [key]
      have hsmall : (2 * ((j : ℚ) * g) + e2) / 2 ^ 53 ≤ g := by
        rw [div_le_iff₀ (by positivity)]
        have hd53 : 0 ≤ d / 2 ^ 53 := by positivity
        have : e2 ≤ g := by rw [hge]; linarith
        nlinarith
      nlinarith
  have hfin := hsum D le_rfl
  have e1 : (D : ℚ) * (d / D) = d := by field_simp
  have e2 : 2 * (D : ℚ) * g ≤ T / 2 ^ 49 := by
    have : 2 * (D : ℚ) * g = 2 * (25 / 4 * T / 2 ^ 53) + 2 * (D * d) / 2 ^ 53 := by rw [hg]; field_simp
    rw [this]
    norm_num at hDd ⊢
    linarith
  rw [e1] at hfin
  have hkT : |(k : ℚ)| ≤ 10 ^ 8 * T := by
    rw [abs_of_nonneg hkQ]
    have : (k : ℚ) = 10 ^ 8 * d := by rw [hd]; field_simp
    rw [this]
    exact mul_le_mul_of_nonneg_left hdT (by positivity)
  have hr : timeStepFl n t = fl d := roundFl8_near hT' hkT (hfin.trans e2)
  refine ⟨hr, ?_⟩
  rw [hr]
  refine roundFl8_near hT' hkT ?_
  have h1 := fl_error_abs (le_of_eq_of_le (abs_of_nonneg hd0) hdT)
  refine h1.trans (div_le_div_of_nonneg_left hT0 (by positivity) (by norm_num))

/-- The hypotheses are met: 1001 time stamps `i * 0.0005` in double precision, multiplied as in the parsers. -/
example : timeStepFl 1001 (fun i => fl (i * fl (5 / 10000))) = fl (5 / 10000) := by
  have h := (C16_double 1001 (by norm_num) (by norm_num) 0 50000 1 le_rfl (by norm_num) (by norm_num) (by norm_num) (fun i => fl (i * fl (5 / 10000))) ?_).1
  · norm_num at h ⊢
    exact h
  · intro i hi
    have h1 : |fl (5 / 10000 : ℚ) - 5 / 10000| ≤ 5 / 10000 / 2 ^ 53 := by
      have := fl_error (5 / 10000 : ℚ)
      rwa [abs_of_pos (by norm_num : (0 : ℚ) < 5 / 10000)] at this
    have hi' : (i : ℚ) ≤ 1000 := by exact_mod_cast (by omega : i ≤ 1000)
    have hi0 : (0 : ℚ) ≤ i := Nat.cast_nonneg i
    have h2 : |(i : ℚ) * fl (5 / 10000) - i * (5 / 10000)| ≤ 1 / 2 / 2 ^ 53 := by
      rw [← mul_sub, abs_mul, abs_of_nonneg hi0]
      calc (i : ℚ) * |fl (5 / 10000 : ℚ) - 5 / 10000| ≤ 1000 * (5 / 10000 / 2 ^ 53) := mul_le_mul hi' h1 (abs_nonneg _) (by norm_num)
        _ = _ := by norm_num
    have h3 := fl_near (M := 1 / 2) h2 (by rw [abs_of_nonneg (by positivity)]; linarith)
    norm_num at h3 ⊢
    linarith

end Verif
