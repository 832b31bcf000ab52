import Verif.Props.Velocity
import Mathlib.Analysis.Calculus.MeanValue
import Mathlib.Analysis.SpecialFunctions.Trigonometric.Deriv

/-! # C17: how good the velocities calculated from the positions are -/

set_option autoImplicit false
set_option linter.unusedSectionVars false

namespace Verif

section general
variable {K : Type*} [Field K] [LinearOrder K] [IsStrictOrderedRing K] [FloorRing K]

/-- The velocity is `np.gradient` of the displacements, as long as the atom stays closer than half a cell to its reference position. -/
theorem columnVelocity_eq (n : ℕ) (hn : 2 ≤ n) (cell : ℕ → ℕ → K) (hc : (toMatrix n cell).det ≠ 0)
    (pos : ℕ → K) (u : ℕ → ℕ → K) (h : K) (N : ℕ) (z : ℕ → Fin n → ℤ) (frame : ℕ → ℕ → K × K)
    (hframe : ∀ i, i < N → ∀ k : Fin n, (frame i k).1 = pos k + u i k + ∑ l, (z i l : K) * cell l k)
    (hnear : ∀ i, i < N → ∃ f, HasFrac n cell (fun k => u i k) f ∧ ∀ l, |f l| < 1 / 2) (k : Fin n) :
    columnVelocity n cell pos ((List.range N).map frame) h k = npGradient ((List.range N).map fun i => u i k) h := by
  have hd : (cDisplacements n cell pos ((List.range N).map frame)).map (fun d => (d k).1) = (List.range N).map fun (i : ℕ) => u i k := by
    unfold cDisplacements
    rw [List.map_map, List.map_map]
    apply List.map_congr_left
    intro i hi
    have hi' := List.mem_range.mp hi
    obtain ⟨f, hf, hsmall⟩ := hnear i hi'
    have hf' : HasFrac n cell (fun k => (frame i k).1 - pos k) (fun l => f l + z i l) := by
      intro k
      simp only [add_mul, Finset.sum_add_distrib]
      rw [← hf k, hframe i hi' k]; ring
    have hr : ∀ l, roundAway (f l + (z i l : K)) = z i l := by
      intro l
      apply roundAway_eq_of_near
      simpa using hsmall l
    simp only [Function.comp_apply]
    rw [cDisplacement_eq n hn cell hc pos (frame i) _ hf' k]
    simp only [hr]
    rw [hframe i hi' k]
    ring
  unfold columnVelocity
  rw [hd]

theorem npGradient_get (N : ℕ) (hN : 2 ≤ N) (u : ℕ → K) (h : K) :
    ∃ v, npGradient ((List.range N).map u) h = some v ∧ v.length = N ∧ v[0]? = some ((u 1 - u 0) / h) ∧ v[N - 1]? = some ((u (N - 1) - u (N - 2)) / h) ∧
      ∀ i, 0 < i → i < N - 1 → v[i]? = some ((u (i + 1) - u (i - 1)) / (2 * h)) := by
  have hg : ∀ j, j < N → ((List.range N).map u).getD j 0 = u j := by
    intro j hj
    rw [List.getD_eq_getElem?_getD, List.getElem?_map, List.getElem?_range hj]
    rfl
  unfold npGradient
  rw [if_neg (by simp; omega)]
  refine ⟨_, rfl, by simp, ?_, ?_, ?_⟩
  · rw [List.getElem?_map, List.getElem?_range (by simp; omega)]
    simp only [Option.map_some, if_true, hg 1 (by omega), hg 0 (by omega), smul_eq_mul]
    rw [div_eq_inv_mul]
  · rw [List.getElem?_map, List.getElem?_range (by simp; omega)]
    simp only [Option.map_some, List.length_map, List.length_range]
    rw [if_neg (by omega), if_pos trivial, hg _ (by omega), hg _ (by omega), smul_eq_mul, div_eq_inv_mul, show N - 1 - 1 = N - 2 by omega]
  · intro i h0 h1
    rw [List.getElem?_map, List.getElem?_range (by simp; omega)]
    simp only [Option.map_some, List.length_map, List.length_range]
    rw [if_neg (by omega), if_neg (by omega), hg _ (by omega), hg _ (by omega), smul_eq_mul, div_eq_inv_mul]

end general

/-- The central difference is good to second order. -/
theorem central_difference (x x1 x2 x3 : ℝ → ℝ) (h1 : ∀ s, HasDerivAt x (x1 s) s) (h2 : ∀ s, HasDerivAt x1 (x2 s) s) (h3 : ∀ s, HasDerivAt x2 (x3 s) s)
    (M : ℝ) (hM : ∀ s, |x3 s| ≤ M) (t h : ℝ) (hh : 0 < h) : |(x (t + h) - x (t - h)) / (2 * h) - x1 t| ≤ M * h ^ 2 / 6 := by
  have dp : ∀ (y y' : ℝ → ℝ), (∀ s, HasDerivAt y (y' s) s) → ∀ s, HasDerivAt (fun s => y (t + s)) (y' (t + s)) s := by
    intro y y' hy s
    have := HasDerivAt.comp s (h₂ := y) (h := fun s => t + s) (hy (t + s)) ((hasDerivAt_id s).const_add t)
    rw [mul_one] at this
    exact this
  have dm : ∀ (y y' : ℝ → ℝ), (∀ s, HasDerivAt y (y' s) s) → ∀ s, HasDerivAt (fun s => y (t - s)) (-y' (t - s)) s := by
    intro y y' hy s
    have := HasDerivAt.comp s (h₂ := y) (h := fun s => t - s) (hy (t - s)) ((hasDerivAt_id s).const_sub t)
    rw [mul_neg_one] at this
    exact this
  have fence : ∀ (g g' B B' : ℝ → ℝ), (∀ s, HasDerivAt g (g' s) s) → (∀ s, HasDerivAt B (B' s) s) → |g 0| ≤ B 0 → (∀ s, 0 ≤ s → |g' s| ≤ B' s) →
      ∀ s, 0 ≤ s → |g s| ≤ B s := by
    intro g g' B B' hg hB h0 hb s hs
    exact image_norm_le_of_norm_deriv_right_le_deriv_boundary (a := 0) (b := s) (f := g) (f' := g')
      (fun r _ => (hg r).continuousAt.continuousWithinAt) (fun r _ => (hg r).hasDerivWithinAt) (B := B) (B' := B') (by simpa using h0) hB
      (fun r hr => by simpa using hb r hr.1) ⟨hs, le_rfl⟩
  have k2 : ∀ s, 0 ≤ s → |x2 (t + s) - x2 (t - s)| ≤ 2 * M * s := by
    apply fence _ (fun s => x3 (t + s) - -x3 (t - s)) _ (fun _ => 2 * M) (fun s => (dp x2 x3 h3 s).sub (dm x2 x3 h3 s))
    · intro s; simpa using (hasDerivAt_id s).const_mul (2 * M)
    · simp
    · intro s _
      have e1 := abs_le.1 (hM (t + s))
      have e2 := abs_le.1 (hM (t - s))
      rw [abs_le]
      constructor <;> linarith
  have k1 : ∀ s, 0 ≤ s → |x1 (t + s) + x1 (t - s) - 2 * x1 t| ≤ M * s ^ 2 := by
    apply fence (fun s => x1 (t + s) + x1 (t - s) - 2 * x1 t) (fun s => x2 (t + s) + -x2 (t - s)) _ (fun s => M * (2 * s)) (fun s => ((dp x1 x2 h2 s).add (dm x1 x2 h2 s)).sub_const _)
    · intro s; simpa using (hasDerivAt_pow 2 s).const_mul M
    · have : x1 (t + 0) + x1 (t - 0) - 2 * x1 t = 0 := by simp; ring
      simp only [this]; simp
    · intro s hs
      rw [← sub_eq_add_neg]
      exact (k2 s hs).trans (by linarith)
  have k0 : |x (t + h) - x (t - h) - 2 * x1 t * h| ≤ M / 3 * h ^ 3 := by
    refine fence (fun s => x (t + s) - x (t - s) - 2 * x1 t * s) (fun s => x1 (t + s) - -x1 (t - s) - 2 * x1 t) (fun s => M / 3 * s ^ 3) (fun s => M / 3 * (3 * s ^ 2)) ?_ ?_ ?_ ?_ h hh.le
    · intro s
      have hl : HasDerivAt (fun s : ℝ => 2 * x1 t * s) (2 * x1 t) s := by simpa using (hasDerivAt_id s).const_mul (2 * x1 t)
      exact ((dp x x1 h1 s).sub (dm x x1 h1 s)).sub hl
    · intro s; simpa using (hasDerivAt_pow 3 s).const_mul (M / 3)
    · simp
    · intro s hs
      rw [sub_neg_eq_add]
      exact (k1 s hs).trans (by linarith)
  have : (x (t + h) - x (t - h)) / (2 * h) - x1 t = (x (t + h) - x (t - h) - 2 * x1 t * h) / (2 * h) := by field_simp
  rw [this, abs_div, abs_of_pos (by positivity : 0 < 2 * h), div_le_iff₀ (by positivity)]
  calc _ ≤ M / 3 * h ^ 3 := k0
    _ = _ := by ring

/-- The one-sided difference is good to first order. -/
theorem forward_difference (x x1 x2 : ℝ → ℝ) (h1 : ∀ s, HasDerivAt x (x1 s) s) (h2 : ∀ s, HasDerivAt x1 (x2 s) s)
    (M : ℝ) (hM : ∀ s, |x2 s| ≤ M) (t h : ℝ) (hh : h ≠ 0) : |(x (t + h) - x t) / h - x1 t| ≤ M * |h| / 2 := by
  have fence : ∀ (g g' B B' : ℝ → ℝ), (∀ s, HasDerivAt g (g' s) s) → (∀ s, HasDerivAt B (B' s) s) → |g 0| ≤ B 0 → (∀ s, 0 ≤ s → |g' s| ≤ B' s) →
      ∀ s, 0 ≤ s → |g s| ≤ B s := by
    intro g g' B B' hg hB h0 hb s hs
    exact image_norm_le_of_norm_deriv_right_le_deriv_boundary (a := 0) (b := s) (f := g) (f' := g')
      (fun r _ => (hg r).continuousAt.continuousWithinAt) (fun r _ => (hg r).hasDerivWithinAt) (B := B) (B' := B') (by simpa using h0) hB
      (fun r hr => by simpa using hb r hr.1) ⟨hs, le_rfl⟩
  -- `σ` is the direction
  obtain ⟨σ, hσ, hhσ⟩ : ∃ σ : ℝ, (σ = 1 ∨ σ = -1) ∧ h = σ * |h| := by
    rcases le_total 0 h with h0 | h0
    · exact ⟨1, Or.inl rfl, by rw [abs_of_nonneg h0, one_mul]⟩
    · exact ⟨-1, Or.inr rfl, by rw [abs_of_nonpos h0]; ring⟩
  have hσ1 : |σ| = 1 := by rcases hσ with rfl | rfl <;> simp
  have hσ2 : σ * σ = 1 := by rcases hσ with rfl | rfl <;> norm_num
  have d : ∀ (y y' : ℝ → ℝ), (∀ s, HasDerivAt y (y' s) s) → ∀ s, HasDerivAt (fun s => y (t + σ * s)) (y' (t + σ * s) * σ) s := by
    intro y y' hy s
    have := HasDerivAt.comp s (h₂ := y) (h := fun s => t + σ * s) (hy (t + σ * s)) (((hasDerivAt_id s).const_mul σ).const_add t)
    rw [mul_one] at this
    exact this
  have k1 : ∀ s, 0 ≤ s → |x1 (t + σ * s) - x1 t| ≤ M * s := by
    apply fence _ (fun s => x2 (t + σ * s) * σ) _ (fun _ => M) (fun s => (d x1 x2 h2 s).sub_const _)
    · intro s; simpa using (hasDerivAt_id s).const_mul M
    · simp
    · intro s _
      rw [abs_mul, hσ1, mul_one]
      exact hM _
  have k0 : |x (t + σ * |h|) - x t - x1 t * σ * (|h|)| ≤ M / 2 * |h| ^ 2 := by
    refine fence (fun s => x (t + σ * s) - x t - x1 t * σ * s) (fun s => x1 (t + σ * s) * σ - x1 t * σ) (fun s => M / 2 * s ^ 2) (fun s => M / 2 * (2 * s)) ?_ ?_ ?_ ?_ |h| (abs_nonneg h)
    · intro s
      have hl : HasDerivAt (fun s : ℝ => x1 t * σ * s) (x1 t * σ) s := by simpa using (hasDerivAt_id s).const_mul (x1 t * σ)
      exact ((d x x1 h1 s).sub_const _).sub hl
    · intro s; simpa using (hasDerivAt_pow 2 s).const_mul (M / 2)
    · simp
    · intro s hs
      rw [← sub_mul, abs_mul, hσ1, mul_one]
      exact (k1 s hs).trans (by linarith)
  have habs : 0 < |h| := abs_pos.2 hh
  rw [← hhσ, mul_assoc, ← hhσ] at k0
  have : (x (t + h) - x t) / h - x1 t = (x (t + h) - x t - x1 t * h) / h := by field_simp
  rw [this, abs_div, div_le_iff₀ habs]
  calc _ ≤ M / 2 * |h| ^ 2 := k0
    _ = _ := by ring

/-- C17: accuracy. An atom moves on a smooth path `pos + x k t` (third derivative bounded by `M3`, second by `M2`), seen through any periodic wrapping of
every frame, always closer than half a cell to its reference position. The velocity calculated from the positions differs from the derivative by at most
`M3 h^2 / 6` at inner steps and `M2 h / 2` at the first and the last step. -/
theorem C17_accuracy (n : ℕ) (hn : 2 ≤ n) (cell : ℕ → ℕ → ℝ) (hc : (toMatrix n cell).det ≠ 0) (pos : ℕ → ℝ) (x x1 x2 x3 : ℕ → ℝ → ℝ)
    (h1 : ∀ k s, HasDerivAt (x k) (x1 k s) s) (h2 : ∀ k s, HasDerivAt (x1 k) (x2 k s) s) (h3 : ∀ k s, HasDerivAt (x2 k) (x3 k s) s)
    (M2 M3 : ℝ) (hM2 : ∀ k s, |x2 k s| ≤ M2) (hM3 : ∀ k s, |x3 k s| ≤ M3)
    (h : ℝ) (hh : 0 < h) (N : ℕ) (hN : 2 ≤ N) (z : ℕ → Fin n → ℤ) (frame : ℕ → ℕ → ℝ × ℝ)
    (hframe : ∀ i, i < N → ∀ k : Fin n, (frame i k).1 = pos k + x k (i * h) + ∑ l, (z i l : ℝ) * cell l k)
    (hnear : ∀ i, i < N → ∃ f, HasFrac n cell (fun k => x k (i * h)) f ∧ ∀ l, |f l| < 1 / 2) (k : Fin n) :
    ∃ v, columnVelocity n cell pos ((List.range N).map frame) h k = some v ∧ v.length = N ∧
      ∀ (i : ℕ) (y : ℝ), v[i]? = some y →
        |y - x1 k (i * h)| ≤ if i = 0 ∨ i = N - 1 then M2 * h / 2 else M3 * h ^ 2 / 6 := by
  have he := columnVelocity_eq n hn cell hc pos (fun i k => x k (i * h)) h N z frame hframe hnear k
  obtain ⟨v, hv, hl, hv0, hv1, hvi⟩ := npGradient_get N hN (fun (i : ℕ) => x k (i * h)) h
  refine ⟨v, he.trans hv, hl, ?_⟩
  intro i y hy
  have hiN : i < N := by rw [← hl]; exact (List.getElem?_eq_some_iff.1 hy).1
  by_cases h0 : i = 0
  · subst h0
    rw [hv0, Option.some.injEq] at hy
    rw [if_pos (Or.inl rfl), ← hy]
    have := forward_difference (x k) (x1 k) (x2 k) (h1 k) (h2 k) M2 (hM2 k) 0 h hh.ne'
    rw [abs_of_pos hh] at this
    simpa using this
  by_cases hlast : i = N - 1
  · rw [hlast, hv1, Option.some.injEq] at hy
    rw [if_pos (Or.inr hlast), ← hy]
    have := forward_difference (x k) (x1 k) (x2 k) (h1 k) (h2 k) M2 (hM2 k) (i * h) (-h) (by linarith)
    rw [abs_neg, abs_of_pos hh] at this
    have e1 : ((N - 1 : ℕ) : ℝ) * h = i * h := by rw [hlast]
    have e2 : ((N - 2 : ℕ) : ℝ) * h = i * h + -h := by
      rw [show N - 2 = i - 1 by omega, Nat.cast_sub (by omega)]
      push_cast
      ring
    simp only [e1, e2]
    rw [show (x k (i * h) - x k (i * h + -h)) / h = (x k (i * h + -h) - x k (i * h)) / -h by rw [div_neg, ← neg_div]; congr 1; ring]
    exact this
  · rw [hvi i (by omega) (by omega), Option.some.injEq] at hy
    rw [if_neg (by omega), ← hy]
    have := central_difference (x k) (x1 k) (x2 k) (x3 k) (h1 k) (h2 k) (h3 k) M3 (hM3 k) (i * h) h hh
    have e1 : ((i + 1 : ℕ) : ℝ) * h = i * h + h := by push_cast; ring
    have e2 : ((i - 1 : ℕ) : ℝ) * h = i * h - h := by rw [Nat.cast_sub (by omega)]; push_cast; ring
    simp only [e1, e2]
    exact this

/-- C17: an oscillation `X k cos(ω t + φ k)`. At the inner steps the velocity calculated from the positions is the true one, times `sin(ω h) / (ω h)`: never
too large, and in phase. -/
theorem C17_harmonic (n : ℕ) (hn : 2 ≤ n) (cell : ℕ → ℕ → ℝ) (hc : (toMatrix n cell).det ≠ 0) (pos X φ : ℕ → ℝ) (ω : ℝ) (hω : ω ≠ 0)
    (h : ℝ) (hh : h ≠ 0) (N : ℕ) (hN : 2 ≤ N) (z : ℕ → Fin n → ℤ) (frame : ℕ → ℕ → ℝ × ℝ)
    (hframe : ∀ i, i < N → ∀ k : Fin n, (frame i k).1 = pos k + X k * Real.cos (ω * (i * h) + φ k) + ∑ l, (z i l : ℝ) * cell l k)
    (hnear : ∀ i, i < N → ∃ f, HasFrac n cell (fun k => X k * Real.cos (ω * (i * h) + φ k)) f ∧ ∀ l, |f l| < 1 / 2) (k : Fin n) :
    ∃ v, columnVelocity n cell pos ((List.range N).map frame) h k = some v ∧
      ∀ i, 0 < i → i < N - 1 → v[i]? = some (-ω * X k * Real.sin (ω * (i * h) + φ k) * (Real.sin (ω * h) / (ω * h))) := by
  have he := columnVelocity_eq n hn cell hc pos (fun i k => X k * Real.cos (ω * (i * h) + φ k)) h N z frame hframe hnear k
  obtain ⟨v, hv, -, -, -, hvi⟩ := npGradient_get N hN (fun (i : ℕ) => X k * Real.cos (ω * (i * h) + φ k)) h
  refine ⟨v, he.trans hv, ?_⟩
  intro i h0 h1
  rw [hvi i h0 h1]
  congr 1
  have e1 : ω * (((i + 1 : ℕ) : ℝ) * h) + φ k = (ω * (i * h) + φ k) + ω * h := by push_cast; ring
  have e2 : ω * (((i - 1 : ℕ) : ℝ) * h) + φ k = (ω * (i * h) + φ k) - ω * h := by rw [Nat.cast_sub (by omega)]; push_cast; ring
  rw [e1, e2, Real.cos_add, Real.cos_sub]
  field_simp
  ring

/-- A case of `C17_accuracy` and `C17_harmonic`: an oscillation of a tenth of a cell along x in the unit square. -/
example : ∃ f, HasFrac 2 (fun i j => if i = j then (1 : ℝ) else 0) (fun k => (if k = 0 then 1 / 10 else 0) * Real.cos (1 * ((3 : ℕ) * (1 / 2)) + 0)) f ∧
    ∀ l, |f l| < 1 / 2 := by
  refine ⟨fun l => (if (l : ℕ) = 0 then 1 / 10 else 0) * Real.cos (1 * ((3 : ℕ) * (1 / 2)) + 0), ?_, ?_⟩
  · intro k
    fin_cases k <;> simp
  · intro l
    have h := Real.abs_cos_le_one (1 * ((3 : ℕ) * (1 / 2)) + 0)
    rw [abs_mul]
    have : |(if (l : ℕ) = 0 then (1 / 10 : ℝ) else 0)| ≤ 1 / 10 := by split <;> norm_num
    nlinarith [abs_nonneg (if (l : ℕ) = 0 then (1 / 10 : ℝ) else 0), abs_nonneg (Real.cos (1 * ((3 : ℕ) * (1 / 2)) + 0))]

end Verif
