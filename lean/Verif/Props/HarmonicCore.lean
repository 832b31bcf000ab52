import Mathlib.Analysis.SpecialFunctions.ExpDeriv
import Mathlib.Analysis.Complex.RealDeriv
import Mathlib.Analysis.Calculus.Deriv.Add
import Mathlib.Tactic.LinearCombination
import Mathlib.Algebra.BigOperators.Field

/-! # Superpositions of eigenmodes of a real symmetric matrix -/

set_option autoImplicit false
set_option linter.unusedSectionVars false

namespace Verif

open Complex

section
variable {ι κ : Type*} [Fintype ι] [Fintype κ] [DecidableEq κ]

/-- `Σ_k b_k exp(-i ω_k t) ψ_k(i)`. -/
noncomputable def modeSum (b : κ → ℝ) (ω : κ → ℝ) (ψ : κ → ι → ℂ) (t : ℝ) (i : ι) : ℂ := ∑ k, (b k : ℂ) * exp (-I * ω k * t) * ψ k i

/-- `Σ_k b_k (-i ω_k) exp(-i ω_k t) ψ_k(i)`. -/
noncomputable def modeSum' (b : κ → ℝ) (ω : κ → ℝ) (ψ : κ → ι → ℂ) (t : ℝ) (i : ι) : ℂ := ∑ k, (b k : ℂ) * (-I * ω k) * exp (-I * ω k * t) * ψ k i

theorem modeSum_deriv (b ω : κ → ℝ) (ψ : κ → ι → ℂ) (t : ℝ) (i : ι) : HasDerivAt (fun t : ℝ => modeSum b ω ψ t i) (modeSum' b ω ψ t i) t := by
  unfold modeSum modeSum'
  apply HasDerivAt.fun_sum
  intro k _
  have h1 : HasDerivAt (fun t : ℝ => -I * ω k * (t : ℂ)) (-I * ω k) t := by
    simpa using (ofRealCLM.hasDerivAt (x := t)).const_mul (-I * (ω k : ℂ))
  have h2 := (h1.cexp.const_mul (b k : ℂ)).mul_const (ψ k i)
  exact h2.congr_deriv (by ring)

theorem modeSum'_deriv (b ω : κ → ℝ) (ψ : κ → ι → ℂ) (t : ℝ) (i : ι) :
    HasDerivAt (fun t : ℝ => modeSum' b ω ψ t i) (-∑ k, (b k : ℂ) * ω k ^ 2 * exp (-I * ω k * t) * ψ k i) t := by
  unfold modeSum'
  rw [← Finset.sum_neg_distrib]
  apply HasDerivAt.fun_sum
  intro k _
  have h1 : HasDerivAt (fun t : ℝ => -I * ω k * (t : ℂ)) (-I * ω k) t := by
    simpa using (ofRealCLM.hasDerivAt (x := t)).const_mul (-I * (ω k : ℂ))
  have h2 := (h1.cexp.const_mul ((b k : ℂ) * (-I * ω k))).mul_const (ψ k i)
  refine h2.congr_deriv ?_
  linear_combination ((b k : ℂ) * ω k ^ 2 * exp (-I * ω k * t) * ψ k i) * I_sq

/-- The matrix acting on the superposition. -/
theorem modeSum_apply (Φ : ι → ι → ℝ) (b ω : κ → ℝ) (ψ : κ → ι → ℂ) (hΦ : ∀ k, b k ≠ 0 → ∀ i, ∑ j, (Φ i j : ℂ) * ψ k j = ((ω k ^ 2 : ℝ) : ℂ) * ψ k i)
    (t : ℝ) (i : ι) : ∑ j, (Φ i j : ℂ) * modeSum b ω ψ t j = ∑ k, (b k : ℂ) * ω k ^ 2 * exp (-I * ω k * t) * ψ k i := by
  unfold modeSum
  simp only [Finset.mul_sum]
  rw [Finset.sum_comm]
  apply Finset.sum_congr rfl
  intro k _
  by_cases hb : b k = 0
  · simp [hb]
  · calc ∑ j, (Φ i j : ℂ) * ((b k : ℂ) * exp (-I * ω k * t) * ψ k j) = (b k : ℂ) * exp (-I * ω k * t) * ∑ j, (Φ i j : ℂ) * ψ k j := by
          rw [Finset.mul_sum]; apply Finset.sum_congr rfl; intro j _; ring
      _ = _ := by rw [hΦ k hb i]; push_cast; ring

theorem re_sum_real (Φ : ι → ι → ℝ) (z : ι → ℂ) (i : ι) : (∑ j, (Φ i j : ℂ) * z j).re = ∑ j, Φ i j * (z j).re := by
  simp [re_sum]

/-- The real part moves according to the matrix: `W'' = -Φ W`. -/
theorem modeSum_motion (Φ : ι → ι → ℝ) (b ω : κ → ℝ) (ψ : κ → ι → ℂ) (hΦ : ∀ k, b k ≠ 0 → ∀ i, ∑ j, (Φ i j : ℂ) * ψ k j = ((ω k ^ 2 : ℝ) : ℂ) * ψ k i)
    (t : ℝ) (i : ι) :
    HasDerivAt (fun t : ℝ => (modeSum b ω ψ t i).re) (modeSum' b ω ψ t i).re t ∧
    HasDerivAt (fun t : ℝ => (modeSum' b ω ψ t i).re) (-∑ j, Φ i j * (modeSum b ω ψ t j).re) t := by
  constructor
  · exact (reCLM.hasFDerivAt.comp_hasDerivAt t (modeSum_deriv b ω ψ t i))
  · have h := reCLM.hasFDerivAt.comp_hasDerivAt t (modeSum'_deriv b ω ψ t i)
    refine h.congr_deriv ?_
    rw [← modeSum_apply Φ b ω ψ hΦ, map_neg, reCLM_apply, re_sum_real]

/-- Modes of different eigenvalues have no bilinear product. -/
theorem bilinear_zero (Φ : ι → ι → ℝ) (hs : ∀ i j, Φ i j = Φ j i) (ψ χ : ι → ℂ) (l m : ℝ) (hψ : ∀ i, ∑ j, (Φ i j : ℂ) * ψ j = (l : ℂ) * ψ i)
    (hχ : ∀ i, ∑ j, (Φ i j : ℂ) * χ j = (m : ℂ) * χ i) (h : l ≠ m) : ∑ i, ψ i * χ i = 0 := by
  have h1 : (l : ℂ) * ∑ i, ψ i * χ i = (m : ℂ) * ∑ i, ψ i * χ i := by
    rw [Finset.mul_sum, Finset.mul_sum]
    calc ∑ i, (l : ℂ) * (ψ i * χ i) = ∑ i, (∑ j, (Φ i j : ℂ) * ψ j) * χ i := by
          apply Finset.sum_congr rfl; intro i _; rw [hψ]; ring
      _ = ∑ j, ψ j * ∑ i, (Φ j i : ℂ) * χ i := by
          simp only [Finset.sum_mul, Finset.mul_sum]
          rw [Finset.sum_comm]
          apply Finset.sum_congr rfl; intro j _
          apply Finset.sum_congr rfl; intro i _
          rw [hs j i]; ring
      _ = ∑ i, (m : ℂ) * (ψ i * χ i) := by
          apply Finset.sum_congr rfl; intro i _; rw [hχ]; ring
  have h2 : ((l - m : ℝ) : ℂ) * ∑ i, ψ i * χ i = 0 := by push_cast; rw [sub_mul, h1, sub_self]
  rcases mul_eq_zero.mp h2 with h3 | h3
  · exact absurd (sub_eq_zero.mp (by exact_mod_cast h3)) h
  · exact h3

theorem sum_re_mul (z w : ι → ℂ) : ∑ i, (z i).re * (w i).re = (∑ i, (star (z i) * w i + z i * w i) / 2).re := by
  rw [re_sum]
  apply Finset.sum_congr rfl
  intro i _
  have : (star (z i) * w i + z i * w i) / 2 = ((z i).re : ℂ) * w i := by
    have h : star (z i) + z i = 2 * ((z i).re : ℂ) := by rw [star_def, add_comm]; exact_mod_cast add_conj (z i)
    rw [← add_mul, h]; ring
  rw [this, re_ofReal_mul]

/-- Kinetic plus potential energy of the real part is constant: `M/2 Σ b² ω²`. -/
theorem modeSum_energy (Φ : ι → ι → ℝ) (hs : ∀ i j, Φ i j = Φ j i) (b ω : κ → ℝ) (ψ : κ → ι → ℂ) (M : ℝ)
    (hΦ : ∀ k, b k ≠ 0 → ∀ i, ∑ j, (Φ i j : ℂ) * ψ k j = ((ω k ^ 2 : ℝ) : ℂ) * ψ k i) (hω : ∀ k, b k ≠ 0 → 0 < ω k)
    (ho : ∀ k l, ∑ i, star (ψ k i) * ψ l i = if k = l then (M : ℂ) else 0) (t : ℝ) :
    (∑ i, (modeSum' b ω ψ t i).re ^ 2) / 2 + (∑ i, (modeSum b ω ψ t i).re * ∑ j, Φ i j * (modeSum b ω ψ t j).re) / 2 = M / 2 * ∑ k, b k ^ 2 * ω k ^ 2 := by
  set x : κ → ℂ := fun k => (b k : ℂ) * exp (-I * ω k * t) with hx
  have hxx : ∀ k, star (x k) * x k = ((b k ^ 2 : ℝ) : ℂ) := by
    intro k
    have h1 : star (exp (-I * ω k * t)) * exp (-I * ω k * t) = 1 := by
      rw [star_def, ← exp_conj, ← exp_add]
      simp
    simp only [hx, star_mul']
    have h2 : star ((b k : ℝ) : ℂ) = (b k : ℂ) := by rw [star_def, conj_ofReal]
    rw [h2]
    push_cast
    linear_combination (b k : ℂ) ^ 2 * h1
  -- the three sums
  have hV : ∀ i, modeSum' b ω ψ t i = ∑ k, (-I * ω k * x k) * ψ k i := by
    intro i; unfold modeSum'; apply Finset.sum_congr rfl; intro k _; simp only [hx]; ring
  have hZ : ∀ i, modeSum b ω ψ t i = ∑ k, x k * ψ k i := fun i => rfl
  have hF : ∀ i, ∑ j, (Φ i j : ℂ) * modeSum b ω ψ t j = ∑ k, ((ω k : ℂ) ^ 2 * x k) * ψ k i := by
    intro i; rw [modeSum_apply Φ b ω ψ hΦ]; apply Finset.sum_congr rfl; intro k _; simp only [hx]; ring
  have hsesq : ∀ y z : κ → ℂ, ∑ i, star (∑ k, y k * ψ k i) * ∑ k, z k * ψ k i = (M : ℂ) * ∑ k, star (y k) * z k := by
    intro y z
    calc ∑ i, star (∑ k, y k * ψ k i) * ∑ k, z k * ψ k i = ∑ k, ∑ l, star (y k) * z l * ∑ i, star (ψ k i) * ψ l i := by
          simp only [star_sum, star_mul']
          simp only [Finset.sum_mul_sum]
          simp only [Finset.mul_sum]
          rw [Finset.sum_comm]
          apply Finset.sum_congr rfl; intro k _
          rw [Finset.sum_comm]
          apply Finset.sum_congr rfl; intro l _
          apply Finset.sum_congr rfl; intro i _; ring
      _ = _ := by
          simp only [ho, mul_ite, mul_zero, Finset.sum_ite_eq, Finset.mem_univ, if_true]
          rw [Finset.mul_sum]; apply Finset.sum_congr rfl; intro k _; ring
  have hbil : ∀ y z : κ → ℂ, ∑ i, (∑ k, y k * ψ k i) * ∑ k, z k * ψ k i = ∑ k, ∑ l, y k * z l * ∑ i, ψ k i * ψ l i := by
    intro y z
    simp only [Finset.sum_mul_sum]
    simp only [Finset.mul_sum]
    rw [Finset.sum_comm]
    apply Finset.sum_congr rfl; intro k _
    rw [Finset.sum_comm]
    apply Finset.sum_congr rfl; intro l _
    apply Finset.sum_congr rfl; intro i _; ring
  have e1 : ∑ i, (modeSum' b ω ψ t i).re ^ 2 = (∑ i, (star (modeSum' b ω ψ t i) * modeSum' b ω ψ t i + modeSum' b ω ψ t i * modeSum' b ω ψ t i) / 2).re := by
    rw [← sum_re_mul]; apply Finset.sum_congr rfl; intro i _; ring
  have e2 : ∑ i, (modeSum b ω ψ t i).re * ∑ j, Φ i j * (modeSum b ω ψ t j).re =
      (∑ i, (star (modeSum b ω ψ t i) * ∑ j, (Φ i j : ℂ) * modeSum b ω ψ t j + modeSum b ω ψ t i * ∑ j, (Φ i j : ℂ) * modeSum b ω ψ t j) / 2).re := by
    rw [← sum_re_mul]; apply Finset.sum_congr rfl; intro i _; rw [re_sum_real]
  rw [e1, e2, ← add_div, ← add_re]
  have key : (∑ i, (star (modeSum' b ω ψ t i) * modeSum' b ω ψ t i + modeSum' b ω ψ t i * modeSum' b ω ψ t i) / 2) +
      (∑ i, (star (modeSum b ω ψ t i) * ∑ j, (Φ i j : ℂ) * modeSum b ω ψ t j + modeSum b ω ψ t i * ∑ j, (Φ i j : ℂ) * modeSum b ω ψ t j) / 2) =
      ((M * ∑ k, b k ^ 2 * ω k ^ 2 : ℝ) : ℂ) := by
    simp only [hF]
    simp only [hV, hZ]
    rw [← Finset.sum_div, ← Finset.sum_div, Finset.sum_add_distrib, Finset.sum_add_distrib, hsesq, hsesq, hbil, hbil]
    have hA : ∑ k, star (-I * ω k * x k) * (-I * ω k * x k) = ((∑ k, b k ^ 2 * ω k ^ 2 : ℝ) : ℂ) := by
      rw [ofReal_sum]
      apply Finset.sum_congr rfl; intro k _
      have h2 : star ((ω k : ℝ) : ℂ) = (ω k : ℂ) := by rw [star_def, conj_ofReal]
      have h3 : star (-I) = I := by rw [star_neg, star_def, conj_I, neg_neg]
      have h4 := hxx k
      rw [star_mul', star_mul', h2, h3]
      push_cast at h4 ⊢
      linear_combination (ω k : ℂ) ^ 2 * h4 - (ω k : ℂ) ^ 2 * (star (x k) * x k) * I_sq
    have hB : ∑ k, star (x k) * ((ω k : ℂ) ^ 2 * x k) = ((∑ k, b k ^ 2 * ω k ^ 2 : ℝ) : ℂ) := by
      rw [ofReal_sum]
      apply Finset.sum_congr rfl; intro k _
      have h4 := hxx k
      push_cast at h4 ⊢
      linear_combination (ω k : ℂ) ^ 2 * h4
    have hC : ∑ k, ∑ l, (-I * ω k * x k) * (-I * ω l * x l) * ∑ i, ψ k i * ψ l i + ∑ k, ∑ l, x k * ((ω l : ℂ) ^ 2 * x l) * ∑ i, ψ k i * ψ l i = 0 := by
      rw [← Finset.sum_add_distrib]
      apply Finset.sum_eq_zero; intro k _
      rw [← Finset.sum_add_distrib]
      apply Finset.sum_eq_zero; intro l _
      by_cases hk : b k = 0
      · simp [hx, hk]
      by_cases hl : b l = 0
      · simp [hx, hl]
      by_cases he : ω k = ω l
      · rw [he]; linear_combination ((ω l : ℂ) ^ 2 * x k * x l * ∑ i, ψ k i * ψ l i) * I_sq
      · have hne : ω k ^ 2 ≠ ω l ^ 2 := by
          intro h
          have h1 := hω k hk
          have h2 := hω l hl
          exact he ((pow_left_inj₀ h1.le h2.le two_ne_zero).mp h)
        rw [bilinear_zero Φ hs (ψ k) (ψ l) _ _ (hΦ k hk) (hΦ l hl) hne]
        simp
    rw [hA, hB]
    push_cast
    linear_combination hC / 2
  rw [key, ofReal_re]
  ring

/-- The projection onto a mode: one line at `±ω`. -/
theorem modeSum_projection (Φ : ι → ι → ℝ) (hs : ∀ i j, Φ i j = Φ j i) (b ω lam : κ → ℝ) (ψ : κ → ι → ℂ) (M : ℝ)
    (hΦ : ∀ k i, ∑ j, (Φ i j : ℂ) * ψ k j = ((lam k : ℝ) : ℂ) * ψ k i) (hω : ∀ k, b k ≠ 0 → 0 < ω k ∧ lam k = ω k ^ 2)
    (ho : ∀ k l, ∑ i, star (ψ k i) * ψ l i = if k = l then (M : ℂ) else 0) (k : κ) (h0 : b k = 0 → ∀ l, b l ≠ 0 → lam l ≠ lam k) :
    ∃ β : ℂ, (b k = 0 → β = 0) ∧ ∀ t, ∑ i, star (ψ k i) * ((modeSum' b ω ψ t i).re : ℂ) =
      -I * ω k * ((M * b k / 2 : ℝ) * exp (-I * ω k * t) - β * exp (I * ω k * t)) := by
  refine ⟨(∑ l, (b l : ℂ) * star (∑ i, ψ k i * ψ l i)) / 2, ?_, ?_⟩
  · intro hk
    rw [Finset.sum_eq_zero, zero_div]
    intro l _
    by_cases hl : b l = 0
    · simp [hl]
    · rw [bilinear_zero Φ hs (ψ k) (ψ l) _ _ (hΦ k) (hΦ l) (h0 hk l hl).symm]; simp
  intro t
  have hre : ∀ i, ((modeSum' b ω ψ t i).re : ℂ) = (modeSum' b ω ψ t i + star (modeSum' b ω ψ t i)) / 2 := by
    intro i; rw [star_def, add_conj]; push_cast; ring
  have h1 : ∑ i, star (ψ k i) * modeSum' b ω ψ t i = -I * ω k * (M * b k) * exp (-I * ω k * t) := by
    unfold modeSum'
    calc _ = ∑ l, (b l : ℂ) * (-I * ω l) * exp (-I * ω l * t) * ∑ i, star (ψ k i) * ψ l i := by
          simp only [Finset.mul_sum]
          rw [Finset.sum_comm]
          apply Finset.sum_congr rfl; intro l _
          apply Finset.sum_congr rfl; intro i _; ring
      _ = _ := by simp only [ho, mul_ite, mul_zero, Finset.sum_ite_eq, Finset.mem_univ, if_true]; ring
  have h2 : ∑ i, star (ψ k i) * star (modeSum' b ω ψ t i) = (∑ l, (b l : ℂ) * star (∑ i, ψ k i * ψ l i)) * (I * ω k * exp (I * ω k * t)) := by
    unfold modeSum'
    rw [Finset.sum_mul]
    calc _ = ∑ l, (b l : ℂ) * (I * ω l) * exp (I * ω l * t) * star (∑ i, ψ k i * ψ l i) := by
          simp only [star_sum, Finset.mul_sum, star_mul']
          rw [Finset.sum_comm]
          apply Finset.sum_congr rfl; intro l _
          apply Finset.sum_congr rfl; intro i _
          have e1 : star ((b l : ℝ) : ℂ) = (b l : ℂ) := by rw [star_def, conj_ofReal]
          have e2 : star (-I) = I := by rw [star_neg, star_def, conj_I, neg_neg]
          have e3 : star ((ω l : ℝ) : ℂ) = (ω l : ℂ) := by rw [star_def, conj_ofReal]
          have e4 : star (exp (-I * ω l * t)) = exp (I * ω l * t) := by
            rw [star_def, ← exp_conj]; simp
          rw [e1, e2, e3, e4]; ring
      _ = _ := by
          apply Finset.sum_congr rfl; intro l _
          by_cases hl : b l = 0
          · simp [hl]
          by_cases hlam : lam k = lam l
          · by_cases hk : b k = 0
            · exact absurd hlam.symm (h0 hk l hl)
            · have h3 : ω k = ω l := by
                have a1 := hω k hk
                have a2 := hω l hl
                rw [a1.2, a2.2] at hlam
                exact (pow_left_inj₀ a1.1.le a2.1.le two_ne_zero).mp hlam
              rw [h3]; ring
          · rw [bilinear_zero Φ hs (ψ k) (ψ l) _ _ (hΦ k) (hΦ l) hlam]; simp
  simp only [hre]
  have h3 : ∑ i, star (ψ k i) * ((modeSum' b ω ψ t i + star (modeSum' b ω ψ t i)) / 2) =
      (∑ i, star (ψ k i) * modeSum' b ω ψ t i + ∑ i, star (ψ k i) * star (modeSum' b ω ψ t i)) / 2 := by
    rw [← Finset.sum_add_distrib, Finset.sum_div]
    apply Finset.sum_congr rfl; intro i _; ring
  rw [h3, h1, h2]
  push_cast
  ring

end

end Verif
