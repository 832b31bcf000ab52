import Verif.Model.Correlation
import Verif.Util
import Mathlib.Analysis.SpecialFunctions.Trigonometric.Bounds
import Mathlib.Analysis.Complex.Trigonometric
import Mathlib.Analysis.Real.Pi.Bounds

/-! # C28 -/

set_option autoImplicit false

namespace Verif

open Complex

/-- Specification: `Σ_l Σ_j f (l*inc) j` over all lags `l*inc < N` and all origins `j` with `j + l*inc + inc < N`. -/
noncomputable def lagSum (N inc : ℕ) (f : ℕ → ℕ → ℂ) : ℂ :=
  ∑ l ∈ (Finset.range N).filter (fun l => l * inc < N), ∑ j ∈ Finset.range (N - l * inc - inc), f (l * inc) j

theorem cRead_ok (a : List ℂ) (i : ℕ) (h : i < a.length) : cRead a i = .ok (a.getD i 0) := by
  unfold cRead; simp [h]

/-- The value the inner loop adds. -/
noncomputable def corrVal (v : List ℂ) (ω dt : ℝ) (inc method i j : ℕ) : ℂ :=
  if method = 0 then
    starRingEnd ℂ (v.getD j 0) * v.getD (j + i) 0 * exp ((ω * (i * dt) : ℝ) + I)
      + (starRingEnd ℂ (v.getD j 0) * v.getD (j + i + inc) 0 * exp ((ω * (((i + inc : ℕ) : ℝ) * dt) : ℝ) + I)
        + starRingEnd ℂ (v.getD j 0) * v.getD (j + i) 0 * exp ((ω * ((i + inc : ℕ) : ℝ) : ℝ) + I))
  else 2 * (starRingEnd ℂ (v.getD j 0) * v.getD (j + i) 0 * exp ((ω * (i * dt) : ℝ) + I))

theorem corrTerm_ok (v : List ℂ) (ω dt : ℝ) (inc method i j : ℕ) (h : j + i + inc < v.length) :
    corrTerm v ω dt inc method i j = .ok (corrVal v ω dt inc method i j) := by
  unfold corrTerm corrVal
  rw [cRead_ok v j (by omega), cRead_ok v (j + i) (by omega), cRead_ok v (j + i + inc) h]
  by_cases hm : method = 0
  · simp only [hm, if_true, one_mul]; rfl
  · simp only [hm, if_false, one_mul, two_mul]; rfl

theorem corrInner_ok (v : List ℂ) (ω dt : ℝ) (inc method i : ℕ) (acc : ℂ) :
    corrInner v ω dt inc method i acc
      = .ok (acc + ∑ j ∈ Finset.range (v.length - i - inc), corrVal v ω dt inc method i j) := by
  unfold corrInner
  have key : ∀ n ≤ v.length - i - inc,
      (List.range n).foldlM (fun acc j => do return acc + (← corrTerm v ω dt inc method i j)) acc
        = (Except.ok (acc + ∑ j ∈ Finset.range n, corrVal v ω dt inc method i j) : Except CErr ℂ) := by
    intro n
    induction n with
    | zero => intro _; simp [pure, Except.pure]
    | succ n ih =>
      intro hn
      rw [List.range_succ, List.foldlM_append, ih (by omega), Finset.sum_range_succ]
      simp only [bind, Except.bind, List.foldlM_cons, List.foldlM_nil,
        corrTerm_ok v ω dt inc method i n (by omega), pure, Except.pure, add_assoc]
  exact key _ le_rfl

theorem corrOuter_ok (v : List ℂ) (ω dt : ℝ) (inc method : ℕ) (hinc : 0 < inc) (d : ℕ) :
    ∀ (fuel l : ℕ) (acc : ℂ), v.length ≤ l + d → d < fuel → l ≤ v.length →
    corrOuter v ω dt inc method fuel (l * inc) acc
      = .ok (acc + ∑ m ∈ (Finset.Ico l v.length).filter (fun m => m * inc < v.length),
          ∑ j ∈ Finset.range (v.length - m * inc - inc), corrVal v ω dt inc method (m * inc) j) := by
  induction d with
  | zero =>
    intro fuel l acc hd hf hl
    obtain ⟨f, rfl⟩ : ∃ f, fuel = f + 1 := ⟨fuel - 1, by omega⟩
    have : ¬ l * inc < v.length := by nlinarith
    rw [corrOuter, if_neg this, Finset.Ico_eq_empty (by omega)]; simp
  | succ d ih =>
    intro fuel l acc hd hf hl
    obtain ⟨f, rfl⟩ : ∃ f, fuel = f + 1 := ⟨fuel - 1, by omega⟩
    rw [corrOuter]
    by_cases h : l * inc < v.length
    · have hl' : l < v.length := by nlinarith
      rw [if_pos h, corrInner_ok]
      simp only [bind, Except.bind]
      rw [show l * inc + inc = (l + 1) * inc by ring, ih f (l + 1) _ (by omega) (by omega) (by omega)]
      rw [← Finset.insert_Ico_add_one_left_eq_Ico hl', Finset.filter_insert, if_pos h, Finset.sum_insert (by simp)]
      simp only [add_assoc]
    · rw [if_neg h, Finset.filter_false_of_mem, Finset.sum_empty, add_zero]
      intro m hm
      rw [Finset.mem_Ico] at hm
      have : l * inc ≤ m * inc := Nat.mul_le_mul_right _ hm.1
      omega

/-- C28 (memory safety and termination, and what the routine computes). For every velocity, every positive step, both
integration methods and every frequency the routine ends (after at most `N + 1` passes of the outer loop), reads only inside
the velocity array, and returns `time_step / (N / step)` times the real part of a sum over lags and origins. With rectangular
integration the summand is *twice* `conj(v[j]) v[j+i]` times `exp(w t_i + i)`, the real exponential times a constant phase.
What is missing for C28 is `exp(i w t_i)`; see C28_violated. -/
theorem C28_partial (fuel : ℕ) (ω : ℝ) (v : List ℂ) (dt : ℝ) (inc : ℕ) (hinc : 0 < inc) (hfuel : v.length < fuel) :
    (∃ r, evaluateCorrelation fuel ω v dt inc 0 = .ok r) ∧
    evaluateCorrelation fuel ω v dt inc 1 = .ok (dt / ((v.length / inc : ℕ) : ℝ) *
      (lagSum v.length inc fun i j =>
        2 * (starRingEnd ℂ (v.getD j 0) * v.getD (j + i) 0 * exp ((ω * (i * dt) : ℝ) + I))).re) := by
  have key := fun m => corrOuter_ok v ω dt inc m hinc v.length fuel 0 0 (by omega) hfuel (by omega)
  simp only [Nat.zero_mul] at key
  constructor
  · unfold evaluateCorrelation; rw [key]; exact ⟨_, rfl⟩
  · unfold evaluateCorrelation; rw [key]
    simp only [bind, Except.bind, pure, Except.pure, corrVal, lagSum, zero_add, one_ne_zero, if_false,
      Finset.range_eq_Ico]
    congr 1
    ring

/-- C28: `correlation_par` returns one value per frequency for every positive step and integration method 0 or 1; with method 1 the value for frequency `f` is the sum of `C28_partial` at the angular
frequency `2 π f`. -/
theorem C28_returns (fuel : ℕ) (freqs : List ℝ) (v : List ℂ) (dt : ℝ) (inc : ℕ) (hinc : 0 < inc)
    (hfuel : v.length < fuel) (method : ℤ) (hm : method = 0 ∨ method = 1) :
    ∃ r, correlationPar fuel freqs v dt inc method = .ok r ∧ r.length = freqs.length ∧
      ∀ (k : ℕ) (f : ℝ), freqs[k]? = some f → ∃ y, r[k]? = some y ∧ (method = 1 → y = dt / ((v.length / inc : ℕ) : ℝ) *
        (lagSum v.length inc fun i j => 2 * (starRingEnd ℂ (v.getD j 0) * v.getD (j + i) 0 * exp ((2 * Real.pi * f * (i * dt) : ℝ) + I))).re) := by
  unfold correlationPar
  rw [if_neg (by omega)]
  have hok : ∀ f : ℝ, ∃ r, evaluateCorrelation fuel (f * 2 * Real.pi) v dt inc method.toNat = .ok r ∧ (method = 1 → r = dt / ((v.length / inc : ℕ) : ℝ) *
        (lagSum v.length inc fun i j => 2 * (starRingEnd ℂ (v.getD j 0) * v.getD (j + i) 0 * exp ((2 * Real.pi * f * (i * dt) : ℝ) + I))).re) := by
    intro f
    have := C28_partial fuel (f * 2 * Real.pi) v dt inc hinc hfuel
    rcases hm with rfl | rfl
    · obtain ⟨r, hr⟩ := this.1
      exact ⟨r, hr, by simp⟩
    · refine ⟨_, this.2, fun _ => ?_⟩
      rw [show f * 2 * Real.pi = 2 * Real.pi * f by ring]
  induction freqs with
  | nil => exact ⟨[], rfl, rfl, by simp⟩
  | cons f fs ih =>
    obtain ⟨r, hr, hl, hv⟩ := ih
    obtain ⟨x, hx, hx'⟩ := hok f
    refine ⟨x :: r, ?_, by simp [hl], ?_⟩
    · rw [List.mapM_cons, hx, hr]; rfl
    · intro k g hk
      cases k with
      | zero =>
        simp only [List.getElem?_cons_zero, Option.some.injEq] at hk
        subst hk
        exact ⟨x, rfl, hx'⟩
      | succ k => simpa using hv k g (by simpa using hk)

/-- C28: other integration methods are refused. -/
theorem C28_method (fuel : ℕ) (freqs : List ℝ) (v : List ℂ) (dt : ℝ) (inc : ℕ) (method : ℤ) (h0 : method ≠ 0) (h1 : method ≠ 1) :
    correlationPar fuel freqs v dt inc method = .error .noMethod := by
  rw [correlationPar, if_pos (by omega)]

/-- C28, why the step must be positive: with `step=0` the loop never ends on non-empty data. -/
theorem C28_step_zero (fuel : ℕ) (ω : ℝ) (v : List ℂ) (hv : v ≠ []) (dt : ℝ) (method : ℕ) :
    evaluateCorrelation fuel ω v dt 0 method = .error .diverges := by
  have hlen : 0 < v.length := List.length_pos_iff.2 hv
  have : ∀ fuel acc, corrOuter v ω dt 0 method fuel 0 acc = .error .diverges := by
    intro fuel
    induction fuel with
    | zero => intro acc; rfl
    | succ f ih =>
      intro acc
      rw [corrOuter, if_pos hlen, corrInner_ok]
      simp only [bind, Except.bind, Nat.add_zero]
      exact ih _
  unfold evaluateCorrelation; rw [this]; rfl

/-- C28, negation: for the velocity 1, 1, 1 at rest frequency 0 with unit step the documented formula gives
`(1/3) (2 + 1) = 1`, the routine returns `2 cos 1 ≠ 1`; the phase factor is missing and the terms are counted twice. -/
theorem C28_violated : ∃ (v : List ℂ) (ω dt : ℝ), ∀ fuel, 3 < fuel →
    evaluateCorrelation fuel ω v dt 1 1 ≠ .ok (dt / ((v.length / 1 : ℕ) : ℝ) *
      (lagSum v.length 1 fun i j => starRingEnd ℂ (v.getD j 0) * v.getD (j + i) 0 * exp (I * (ω * (i * dt) : ℝ))).re) := by
  refine ⟨[1, 1, 1], 0, 1, fun fuel hf => ?_⟩
  rw [(C28_partial fuel 0 [1, 1, 1] 1 1 one_pos (by simpa using hf)).2]
  have hS : ∀ f : ℕ → ℕ → ℂ, lagSum ([1, 1, 1] : List ℂ).length 1 f = f 0 0 + f 0 1 + f 1 0 := by
    intro f
    unfold lagSum
    simp [Finset.sum_range_succ, Finset.sum_filter]
  rw [hS, hS]
  intro h
  rw [Except.ok.injEq] at h
  have h2 : 1 / 2 < Real.cos 1 := by
    have hpi := Real.pi_gt_three
    rw [← Real.cos_pi_div_three]
    exact Real.cos_lt_cos_of_nonneg_of_le_pi_div_two (by norm_num) (by linarith) (by linarith)
  simp [exp_re] at h
  norm_num at h h2
  linarith

/-- C28: the spectrum of a rescaled (or phase shifted) velocity: multiplying the velocity by `c` multiplies the result by
`|c|^2`, for both methods. -/
theorem C28_scale (fuel : ℕ) (ω : ℝ) (v : List ℂ) (dt : ℝ) (inc : ℕ) (hinc : 0 < inc) (hfuel : v.length < fuel) (c : ℂ)
    (method : ℕ) : ∃ r, evaluateCorrelation fuel ω v dt inc method = .ok r ∧
      evaluateCorrelation fuel ω (v.map (c * ·)) dt inc method = .ok (‖c‖ ^ 2 * r) := by
  have key := fun w hw => corrOuter_ok w ω dt inc method hinc w.length fuel 0 0 (by omega) hw (by omega)
  simp only [Nat.zero_mul] at key
  unfold evaluateCorrelation
  rw [key v hfuel, key (v.map (c * ·)) (by simpa using hfuel)]
  refine ⟨_, rfl, ?_⟩
  have hget : ∀ k, (v.map (c * ·)).getD k 0 = c * v.getD k 0 := by
    intro k
    simp only [List.getD_eq_getElem?_getD, List.getElem?_map]
    cases v[k]? <;> simp
  have hc : starRingEnd ℂ c * c = ((‖c‖ ^ 2 : ℝ) : ℂ) := by
    rw [mul_comm, mul_conj, normSq_eq_norm_sq]
  have hval : ∀ i j, corrVal (v.map (c * ·)) ω dt inc method i j
      = ((‖c‖ ^ 2 : ℝ) : ℂ) * corrVal v ω dt inc method i j := by
    intro i j
    unfold corrVal
    simp only [hget, map_mul, ← hc]
    split_ifs <;> ring
  simp only [bind, Except.bind, pure, Except.pure, List.length_map, hval, ← Finset.mul_sum, zero_add,
    re_ofReal_mul]
  congr 1
  ring

/-- The hypotheses are met: three data, step 2. -/
example : ∃ r, evaluateCorrelation 4 1 [1, I, -1] 0.5 2 1 = .ok r :=
  ⟨_, (C28_partial 4 1 [1, I, -1] 0.5 2 (by norm_num) (by simp)).2⟩

end Verif
