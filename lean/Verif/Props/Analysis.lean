import Verif.Model.Analysis
import Verif.Props.Arrangement
import Mathlib.Analysis.SpecialFunctions.Sqrt

/-! # C86-C89: temperature, displacement distributions, MEM scan, drawings of the modes -/

set_option autoImplicit false
set_option linter.unusedSectionVars false

namespace Verif

/-! ## C86 -/

section temperature

theorem log_maxwellPdf (a x : ℝ) (ha : 0 < a) (hx : 0 < x) :
    Real.log (maxwellPdf a x) = (Real.log (√(2 / Real.pi)) + 2 * Real.log x) - (3 * Real.log a + x ^ 2 / (2 * a ^ 2)) := by
  have hpi : √(2 / Real.pi) ≠ 0 := (Real.sqrt_pos.2 (by positivity)).ne'
  have hxa : x / a ≠ 0 := (div_pos hx ha).ne'
  rw [maxwellPdf, Real.log_div (by positivity) ha.ne', Real.log_mul (by positivity) (Real.exp_pos _).ne', Real.log_mul hpi (by positivity), Real.log_exp, Real.log_pow,
    Real.log_div hx.ne' ha.ne']
  field_simp
  push_cast
  ring

theorem loglik_eq (data : List ℝ) (hpos : ∀ x ∈ data, 0 < x) (a : ℝ) (ha : 0 < a) :
    (data.map fun x => Real.log (maxwellPdf a x)).sum =
      (data.map fun x => Real.log (√(2 / Real.pi)) + 2 * Real.log x).sum - (3 * data.length * Real.log a + (data.map (· ^ 2)).sum / (2 * a ^ 2)) := by
  induction data with
  | nil => simp
  | cons x l ih =>
    have h1 := ih fun y hy => hpos y (List.mem_cons_of_mem _ hy)
    simp only [List.map_cons, List.sum_cons, List.length_cons, h1, log_maxwellPdf a x ha (hpos x List.mem_cons_self)]
    push_cast
    ring

theorem sum_sq_pos (data : List ℝ) (hne : data ≠ []) (hpos : ∀ x ∈ data, 0 < x) : 0 < (data.map (· ^ 2)).sum := by
  cases data with
  | nil => exact absurd rfl hne
  | cons x l =>
    rw [List.map_cons, List.sum_cons]
    have h1 : 0 < x ^ 2 := pow_pos (hpos x List.mem_cons_self) 2
    have h2 : 0 ≤ (l.map (· ^ 2)).sum := List.sum_nonneg (by simp only [List.mem_map]; rintro _ ⟨y, -, rfl⟩; positivity)
    linarith

/-- The fit of a Maxwell distribution exists and is unique: its squared scale is a third of the mean of the squared data. -/
theorem C86_fit (data : List ℝ) (hne : data ≠ []) (hpos : ∀ x ∈ data, 0 < x) (a : ℝ) :
    IsMaxwellFit data a ↔ 0 < a ∧ a ^ 2 = (data.map (· ^ 2)).sum / (3 * data.length) := by
  set S := (data.map (· ^ 2)).sum with hS
  have hSpos : 0 < S := sum_sq_pos data hne hpos
  have hS0 : S ≠ 0 := hSpos.ne'
  have hn : (0 : ℝ) < data.length := by exact_mod_cast List.length_pos_iff.2 hne
  set n : ℝ := (data.length : ℝ)
  set c := √(S / (3 * n)) with hc
  have hcpos : 0 < c := Real.sqrt_pos.2 (by positivity)
  have hcsq : c ^ 2 = S / (3 * n) := Real.sq_sqrt (by positivity)
  -- the gap of the likelihood between the best scale and any other one
  have gap : ∀ b, 0 < b → (3 * n * Real.log b + S / (2 * b ^ 2)) - (3 * n * Real.log c + S / (2 * c ^ 2)) = 3 * n / 2 * ((c / b) ^ 2 - 1 - Real.log ((c / b) ^ 2)) := by
    intro b hb
    rw [Real.log_pow, Real.log_div hcpos.ne' hb.ne', div_pow, hcsq]
    field_simp
    push_cast
    ring
  constructor
  · rintro ⟨ha, h⟩
    refine ⟨ha, ?_⟩
    have h1 := h c hcpos
    rw [loglik_eq data hpos a ha, loglik_eq data hpos c hcpos] at h1
    have h2 := gap a ha
    have h3 : 3 * n / 2 * ((c / a) ^ 2 - 1 - Real.log ((c / a) ^ 2)) ≤ 0 := by rw [← h2]; linarith
    have h4 : (c / a) ^ 2 = 1 := by
      by_contra hne1
      have h5 := Real.log_lt_sub_one_of_pos (pow_pos (div_pos hcpos ha) 2) hne1
      have : 0 < 3 * n / 2 * ((c / a) ^ 2 - 1 - Real.log ((c / a) ^ 2)) := mul_pos (by positivity) (by linarith)
      linarith
    rw [div_pow, div_eq_one_iff_eq (by positivity)] at h4
    rw [← h4, hcsq]
  · rintro ⟨ha, h⟩
    have hac : a = c := by
      rw [← hcsq] at h
      exact (sq_eq_sq₀ ha.le hcpos.le).1 h
    rw [hac]
    refine ⟨hcpos, fun b hb => ?_⟩
    rw [loglik_eq data hpos c hcpos, loglik_eq data hpos b hb]
    have h2 := gap b hb
    have h5 := Real.log_le_sub_one_of_pos (pow_pos (div_pos hcpos hb) 2)
    have : 0 ≤ 3 * n / 2 * ((c / b) ^ 2 - 1 - Real.log ((c / b) ^ 2)) := mul_nonneg (by positivity) (by linarith)
    linarith

theorem sum_sq_massSpeeds {N : ℕ} (frames : List (Fin N → Fin 3 → ℂ)) (masses : Fin N → ℝ) (hm : ∀ i, 0 ≤ masses i) :
    ((massSpeeds frames masses).map (· ^ 2)).sum = (frames.map fun v => ∑ i, masses i * ∑ j, ‖v i j‖ ^ 2).sum := by
  induction frames with
  | nil => simp [massSpeeds]
  | cons v l ih =>
    rw [massSpeeds, List.flatMap_cons, List.map_append, List.sum_append, ← massSpeeds, ih, List.map_cons, List.sum_cons, List.map_ofFn, List.sum_ofFn]
    congr 1
    refine Finset.sum_congr rfl fun i _ => ?_
    simp only [Function.comp]
    rw [Real.sq_sqrt (by positivity), Finset.mul_sum]
    refine Finset.sum_congr rfl fun j _ => ?_
    rw [norm_mul, mul_pow, Complex.norm_real, Real.norm_of_nonneg (Real.sqrt_nonneg _), Real.sq_sqrt (hm i)]
    ring

theorem massSpeeds_length {N : ℕ} (frames : List (Fin N → Fin 3 → ℂ)) (masses : Fin N → ℝ) : (massSpeeds frames masses).length = frames.length * N := by
  induction frames with
  | nil => simp [massSpeeds]
  | cons v l ih => rw [massSpeeds, List.flatMap_cons, List.length_append, ← massSpeeds, ih, List.length_ofFn, List.length_cons]; ring

/-- **C86**: the temperature returned is the one of the equipartition theorem: three halves of `k_B T` per atom is the mean kinetic energy (in the units of the code), whenever no atom is at rest in any frame. -/
theorem C86_equipartition {N : ℕ} (frames : List (Fin N → Fin 3 → ℂ)) (masses : Fin N → ℝ) (hm : ∀ i, 0 < masses i) (hN : 0 < N) (hf : frames ≠ [])
    (hv : ∀ v ∈ frames, ∀ i, ∃ j, v i j ≠ 0) (a : ℝ) (hfit : IsMaxwellFit (massSpeeds frames masses) a) :
    3 / 2 * 0.831446 * boltzmannTemperature a = (frames.map fun v => ∑ i, 1 / 2 * masses i * ∑ j, ‖v i j‖ ^ 2).sum / (frames.length * N) := by
  have hpos : ∀ x ∈ massSpeeds frames masses, 0 < x := by
    intro x hx
    simp only [massSpeeds, List.mem_flatMap, List.mem_ofFn] at hx
    obtain ⟨v, hvm, i, rfl⟩ := hx
    obtain ⟨j, hj⟩ := hv v hvm i
    refine Real.sqrt_pos.2 (Finset.sum_pos' (fun k _ => by positivity) ⟨j, Finset.mem_univ _, ?_⟩)
    have : v i j * (√(masses i) : ℂ) ≠ 0 := mul_ne_zero hj (by exact_mod_cast (Real.sqrt_pos.2 (hm i)).ne')
    have := norm_pos_iff.2 this
    positivity
  have hne : massSpeeds frames masses ≠ [] := by
    rw [← List.length_pos_iff, massSpeeds_length]
    exact Nat.mul_pos (List.length_pos_iff.2 hf) hN
  have h := ((C86_fit _ hne hpos a).1 hfit).2
  rw [sum_sq_massSpeeds frames masses (fun i => (hm i).le), massSpeeds_length] at h
  have hsum : (frames.map fun v => ∑ i, 1 / 2 * masses i * ∑ j, ‖v i j‖ ^ 2).sum = 1 / 2 * (frames.map fun v => ∑ i, masses i * ∑ j, ‖v i j‖ ^ 2).sum := by
    rw [← List.sum_map_mul_left]
    congr 1
    refine List.map_congr_left fun v _ => ?_
    rw [Finset.mul_sum]
    exact Finset.sum_congr rfl fun i _ => by ring
  rw [hsum, boltzmannTemperature, kbEnergy, h]
  have h1 : (0 : ℝ) < frames.length := by exact_mod_cast List.length_pos_iff.2 hf
  have h2 : (0 : ℝ) < N := by exact_mod_cast hN
  push_cast
  field_simp

theorem speedDeviation_sq (data : List ℝ) (hne : data ≠ []) : speedDeviation data ^ 2 = (data.map (· ^ 2)).sum / data.length - speedAverage data ^ 2 := by
  have hn : (0 : ℝ) < data.length := by exact_mod_cast List.length_pos_iff.2 hne
  have h0 : 0 ≤ (data.map fun x => (x - speedAverage data) ^ 2).sum := List.sum_nonneg fun y hy => by
    obtain ⟨x, _, rfl⟩ := List.mem_map.1 hy
    positivity
  have h1 : ∀ (l : List ℝ) (c : ℝ), (l.map fun x => (x - c) ^ 2).sum = (l.map (· ^ 2)).sum - 2 * c * l.sum + l.length * c ^ 2 := by
    intro l c
    induction l with
    | nil => simp
    | cons x l ih => simp only [List.map_cons, List.sum_cons, ih, List.length_cons]; push_cast; ring
  rw [speedDeviation, Real.sq_sqrt (by positivity), h1]
  have hs : data.sum = data.length * speedAverage data := by rw [speedAverage]; field_simp
  rw [hs]
  field_simp
  ring

/-- **C86**: the numbers that the analysis of the velocities prints belong together: the square of the average plus the square of the deviation is three times the square of the distribution parameter, which is
three times `k_B T` for the printed temperature; and at least 8/9 of the data lie within the axis of the plot (from 0 to the average plus three deviations). -/
theorem C86_printed (data : List ℝ) (hne : data ≠ []) (hpos : ∀ x ∈ data, 0 < x) (a : ℝ) (hfit : IsMaxwellFit data a) :
    speedAverage data ^ 2 + speedDeviation data ^ 2 = 3 * a ^ 2 ∧ a ^ 2 = 0.831446 * boltzmannTemperature a ∧
    8 / 9 * (data.length : ℝ) ≤ (data.filter fun x => decide (0 ≤ x ∧ x ≤ speedAxisEnd data)).length := by
  have hn : (0 : ℝ) < data.length := by exact_mod_cast List.length_pos_iff.2 hne
  refine ⟨?_, by rw [boltzmannTemperature, kbEnergy]; field_simp, ?_⟩
  · rw [speedDeviation_sq data hne, ((C86_fit data hne hpos a).1 hfit).2]
    field_simp
    ring
  · set c := speedAverage data with hc
    set s := speedDeviation data with hs
    have hs0 : 0 ≤ s := Real.sqrt_nonneg _
    have hsq : (data.map fun x => (x - c) ^ 2).sum = data.length * s ^ 2 := by
      have h0 : 0 ≤ (data.map fun x => (x - c) ^ 2).sum := List.sum_nonneg fun y hy => by
        obtain ⟨x, _, rfl⟩ := List.mem_map.1 hy
        positivity
      rw [hs, speedDeviation, Real.sq_sqrt (by positivity), ← hc]
      field_simp
    have cheb : ∀ l : List ℝ, (∀ x ∈ l, 0 < x) → 9 * s ^ 2 * ((l.length : ℝ) - (l.filter fun x => decide (0 ≤ x ∧ x ≤ c + 3 * s)).length) ≤ (l.map fun x => (x - c) ^ 2).sum := by
      intro l
      induction l with
      | nil => intro _; simp
      | cons x l ih =>
        intro h
        have ih := ih fun y hy => h y (List.mem_cons_of_mem _ hy)
        have hx := h x (by simp)
        rw [List.map_cons, List.sum_cons, List.length_cons, List.filter_cons]
        by_cases hin : x ≤ c + 3 * s
        · rw [if_pos (by simp [hin, hx.le]), List.length_cons]
          push_cast
          nlinarith [sq_nonneg (x - c)]
        · rw [if_neg (by simp [hin])]
          push_cast
          have : 9 * s ^ 2 ≤ (x - c) ^ 2 := by nlinarith [not_le.1 hin]
          linarith
    have hcheb := cheb data hpos
    rw [hsq] at hcheb
    simp only [speedAxisEnd, ← hc, ← hs]
    rcases eq_or_lt_of_le hs0 with h0 | h0
    · have hall : data.filter (fun x => decide (0 ≤ x ∧ x ≤ c + 3 * s)) = data := by
        rw [List.filter_eq_self]
        intro x hx
        have hz : (x - c) ^ 2 ≤ (data.map fun x => (x - c) ^ 2).sum := List.single_le_sum (fun y hy => by
          obtain ⟨x, _, rfl⟩ := List.mem_map.1 hy
          positivity) _ (List.mem_map.2 ⟨x, hx, rfl⟩)
        rw [hsq, ← h0] at hz
        have : x - c = 0 := by nlinarith [sq_nonneg (x - c)]
        have hxp := hpos x hx
        simp only [decide_eq_true_eq]
        exact ⟨hxp.le, by rw [← h0]; linarith⟩
      rw [hall]
      linarith
    · have h9 : 0 < s ^ 2 := by positivity
      have : 9 * ((data.length : ℝ) - (data.filter fun x => decide (0 ≤ x ∧ x ≤ c + 3 * s)).length) ≤ data.length := by
        by_contra hcon
        nlinarith [not_le.1 hcon]
      linarith

/-- One atom of mass 4 with velocity (1, 0, 0): a fit exists, so the theorem applies. -/
example : IsMaxwellFit (massSpeeds [fun _ : Fin 1 => ![1, 0, 0]] fun _ => 4) (√(4 / 3)) := by
  have hl : massSpeeds [fun _ : Fin 1 => ![1, 0, 0]] (fun _ => 4) = [2] := by
    have : √(4 : ℝ) = 2 := by rw [show (4 : ℝ) = 2 ^ 2 by norm_num]; exact Real.sqrt_sq (by norm_num)
    simp [massSpeeds, Fin.sum_univ_three, this]
  rw [hl, C86_fit _ (by simp) (by simp)]
  refine ⟨Real.sqrt_pos.2 (by norm_num), ?_⟩
  rw [Real.sq_sqrt (by norm_num)]
  norm_num

variable {K : Type*} [Zero K] [DecidableEq K]

/-- **C86** (caching): a temperature other than zero that was set is returned, by all later calls; without one, the fitted value is computed once and kept; the flag `silent` is as before. -/
theorem C86_cache (fit : K) (s : TempState K) (t : K) (ht : t ≠ 0) :
    (getTemperature fit (setTemperature t s)).2 = t ∧ (getTemperature fit (getTemperature fit (setTemperature t s)).1).2 = t ∧
    (s.temperature = none → (getTemperature fit s).2 = fit ∧ (getTemperature fit (getTemperature fit s).1).2 = fit) ∧
    (getTemperature fit s).1.silent = s.silent := by
  refine ⟨by simp [getTemperature, setTemperature, ht], by simp [getTemperature, setTemperature, ht], ?_, ?_⟩
  · intro h
    by_cases hf : fit = 0 <;> simp [getTemperature, h, hf]
  · rcases h : s.temperature with _ | t' <;> simp [getTemperature, h]
    split <;> rfl

/-- **C86 fails for 0 K**: a temperature of zero that was set is replaced by the fitted one. -/
theorem C86_zero_violated : ¬ ∀ (fit t : ℚ) (s : TempState ℚ), (getTemperature fit (setTemperature t s)).2 = t := by
  intro h
  have := h 300 0 { silent := true }
  revert this
  decide +kernel

end temperature

/-! ## C88 -/

section histogram
variable {K : Type*} [Field K] [LinearOrder K] [IsStrictOrderedRing K]

theorem histRange_lt (lo hi : K) (h : lo ≤ hi) : (histRange lo hi).1 < (histRange lo hi).2 ∧ (histRange lo hi).1 ≤ lo ∧ hi ≤ (histRange lo hi).2 := by
  rw [histRange]
  split
  · subst_vars; refine ⟨?_, ?_, ?_⟩ <;> simp only [] <;> linarith [one_half_pos (α := K)]
  · rename_i hne; exact ⟨lt_of_le_of_ne h hne, le_refl _, le_refl _⟩

theorem histEdge_succ (n : ℕ) (r : K × K) (k : ℕ) : histEdge n r (k + 1) = histEdge n r k + (r.2 - r.1) / n := by
  simp only [histEdge]; push_cast; ring

theorem histEdge_last (n : ℕ) (hn : 0 < n) (r : K × K) : histEdge n r n = r.2 := by
  have : (n : K) ≠ 0 := by exact_mod_cast hn.ne'
  rw [histEdge]; field_simp; ring

theorem one_bin (n : ℕ) (hn : 0 < n) (r : K × K) (hr : r.1 < r.2) (x : K) (h1 : r.1 ≤ x) (h2 : x ≤ r.2) :
    (∑ k ∈ Finset.range n, if histEdge n r k ≤ x ∧ (x < histEdge n r (k + 1) ∨ (k + 1 = n ∧ x ≤ histEdge n r (k + 1))) then 1 else 0 : ℕ) = 1 := by
  obtain ⟨m, rfl⟩ : ∃ m, n = m + 1 := ⟨n - 1, by omega⟩
  have hw : (0 : K) < (r.2 - r.1) / (m + 1 : ℕ) := by
    have : (0 : K) < (m + 1 : ℕ) := by exact_mod_cast hn
    exact div_pos (by linarith) this
  have key : ∀ j ≤ m, (∑ k ∈ Finset.range j, if histEdge (m + 1) r k ≤ x ∧ (x < histEdge (m + 1) r (k + 1) ∨ (k + 1 = m + 1 ∧ x ≤ histEdge (m + 1) r (k + 1))) then 1 else 0 : ℕ) =
      if x < histEdge (m + 1) r j then 1 else 0 := by
    intro j hj
    induction j with
    | zero =>
      have : ¬ x < histEdge (m + 1) r 0 := by simp only [histEdge, not_lt]; push_cast; linarith
      simp [this]
    | succ j ih =>
      rw [Finset.sum_range_succ, ih (by omega)]
      have hs := histEdge_succ (m + 1) r j
      have hjm : ¬ (j + 1 = m + 1) := by omega
      simp only [hjm, false_and, or_false]
      rcases lt_or_ge x (histEdge (m + 1) r j) with h | h
      · have h' : ¬ histEdge (m + 1) r j ≤ x := not_le.2 h
        have h'' : x < histEdge (m + 1) r (j + 1) := by rw [hs]; linarith
        simp [h, h', h'']
      · simp [not_lt.2 h, h]
  rw [Finset.sum_range_succ, key m le_rfl]
  have hl := histEdge_last (m + 1) hn r
  rcases lt_or_ge x (histEdge (m + 1) r m) with h | h
  · simp [h, not_le.2 h]
  · simp [not_lt.2 h, h, hl, h2]

theorem sum_histCount (n : ℕ) (hn : 0 < n) (r : K × K) (hr : r.1 < r.2) (data : List K) (hd : ∀ x ∈ data, r.1 ≤ x ∧ x ≤ r.2) :
    ∑ k ∈ Finset.range n, histCount n r data k = data.length := by
  induction data with
  | nil => simp [histCount]
  | cons x l ih =>
    have h1 := ih fun y hy => hd y (List.mem_cons_of_mem _ hy)
    have h2 := one_bin n hn r hr x (hd x List.mem_cons_self).1 (hd x List.mem_cons_self).2
    rw [List.length_cons, ← h1, ← h2, ← Finset.sum_add_distrib]
    refine Finset.sum_congr rfl fun k _ => ?_
    unfold histCount
    rw [List.filter_cons]
    split_ifs with h3 h4 h4
    · rw [List.length_cons]
    · exact absurd (by simpa using h3) h4
    · exact absurd (by simpa using h4) h3
    · rfl

theorem foldl_min_le (l : List K) (x : K) : l.foldl min x ≤ x ∧ ∀ y ∈ l, l.foldl min x ≤ y := by
  induction l generalizing x with
  | nil => simp
  | cons z l ih =>
    obtain ⟨h1, h2⟩ := ih (min x z)
    refine ⟨h1.trans (min_le_left _ _), fun y hy => ?_⟩
    rcases List.mem_cons.1 hy with rfl | hy
    · exact h1.trans (min_le_right _ _)
    · exact h2 y hy

theorem le_foldl_max (l : List K) (x : K) : x ≤ l.foldl max x ∧ ∀ y ∈ l, y ≤ l.foldl max x := by
  induction l generalizing x with
  | nil => simp
  | cons z l ih =>
    obtain ⟨h1, h2⟩ := ih (max x z)
    refine ⟨(le_max_left _ _).trans h1, fun y hy => ?_⟩
    rcases List.mem_cons.1 hy with rfl | hy
    · exact (le_max_right _ _).trans h1
    · exact h2 y hy

theorem foldl_min_mem (l : List K) (x : K) : l.foldl min x ∈ x :: l := by
  induction l generalizing x with
  | nil => simp
  | cons z l ih =>
    rw [List.foldl_cons]
    rcases List.mem_cons.1 (ih (min x z)) with h | h
    · rw [h]; rcases min_choice x z with h | h <;> rw [h] <;> simp
    · exact List.mem_cons_of_mem _ (List.mem_cons_of_mem _ h)

theorem foldl_max_mem (l : List K) (x : K) : l.foldl max x ∈ x :: l := by
  induction l generalizing x with
  | nil => simp
  | cons z l ih =>
    rw [List.foldl_cons]
    rcases List.mem_cons.1 (ih (max x z)) with h | h
    · rw [h]; rcases max_choice x z with h | h <;> rw [h] <;> simp
    · exact List.mem_cons_of_mem _ (List.mem_cons_of_mem _ h)

/-- What a successful `get_atomic_displacements` did. -/
theorem atomicDisplacements_some (n : ℕ) (projections : List (List K)) (D : List (List K)) (x : List K) (h : atomicDisplacements n projections = some (D, x)) :
    0 < n ∧ (∀ p ∈ projections, p ≠ []) ∧ ∃ r : K × K, r.1 < r.2 ∧ (∀ p ∈ projections, ∀ y ∈ p, r.1 ≤ y ∧ y ≤ r.2) ∧
      ((r.1 ∈ projections.flatten ∧ r.2 ∈ projections.flatten) ∨ ∃ c, (∀ y ∈ projections.flatten, y = c) ∧ r = (c - 1 / 2, c + 1 / 2)) ∧ D = projections.map (histDensity n r) ∧
      x = (List.range (n + 1)).map fun k => histEdge n r k - (r.2 - r.1) / n / 2 := by
  unfold atomicDisplacements at h
  cases projections with
  | nil => simp at h
  | cons p ps =>
    simp only at h
    cases hfl : (p :: ps).flatten with
    | nil => rw [hfl] at h; simp at h
    | cons y ys =>
      rw [hfl] at h
      simp only at h
      split_ifs at h with hc
      simp only [Option.some.injEq, Prod.mk.injEq] at h
      simp only [not_or, not_exists, not_and, not_not] at hc
      have hmem : ∀ q ∈ p :: ps, ∀ z ∈ q, z ∈ y :: ys := by
        intro q hq z hz
        rw [← hfl]; exact List.mem_flatten.2 ⟨q, hq, hz⟩
      have hlohi : ys.foldl min y ≤ ys.foldl max y := (foldl_min_le ys y).1.trans (le_foldl_max ys y).1
      obtain ⟨hr1, hr2, hr3⟩ := histRange_lt _ _ hlohi
      refine ⟨by omega, ?_, histRange (ys.foldl min y) (ys.foldl max y), hr1, ?_, ?_, h.1.symm, ?_⟩
      · have hlen : ∀ q ∈ p :: ps, q.length = p.length := by
          intro q hq
          rcases List.mem_cons.1 hq with rfl | hq
          · rfl
          · exact hc.2 q hq
        intro q hq hq0
        have h0 : p.length = 0 := by rw [← hlen q hq, hq0]; rfl
        have : (p :: ps).flatten = [] := by
          rw [List.flatten_eq_nil_iff]
          intro l hl
          exact List.length_eq_zero_iff.1 ((hlen l hl).trans h0)
        rw [hfl] at this
        exact absurd this (by simp)
      · intro q hq z hz
        have := hmem q hq z hz
        refine ⟨hr2.trans ?_, le_trans ?_ hr3⟩
        · rcases List.mem_cons.1 this with rfl | hz'
          · exact (foldl_min_le ys z).1
          · exact (foldl_min_le ys y).2 z hz'
        · rcases List.mem_cons.1 this with rfl | hz'
          · exact (le_foldl_max ys z).1
          · exact (le_foldl_max ys y).2 z hz'
      · unfold histRange
        have hmin := foldl_min_mem ys y
        have hmax := foldl_max_mem ys y
        split_ifs with heq
        · refine Or.inr ⟨ys.foldl min y, fun z hz => ?_, by rw [← heq]⟩
          rcases List.mem_cons.1 hz with rfl | hz
          · exact le_antisymm ((le_foldl_max ys z).1.trans heq.ge) (foldl_min_le ys z).1
          · exact le_antisymm (((le_foldl_max ys y).2 z hz).trans heq.ge) ((foldl_min_le ys y).2 z hz)
        · exact Or.inl ⟨hmin, hmax⟩
      · rw [← h.2]
        refine List.map_congr_left fun k _ => ?_
        simp only [histEdge]; push_cast; ring

/-- **C88**: the distribution of each atom type is a probability density over the bins: bin `k` (of width `w`, starting at `lo + k w`; closed below, open above, the last bin closed) holds the fraction of the samples of that type that are inside it, divided
by `w`; the values times `w` add up to one; and the bins cover all samples of all atom types and nothing else: they begin at the smallest sample and end at the largest, or, if all samples are equal, half a unit below and above. The values of `distance` are half a bin below the lower edges. -/
theorem C88_density_partial (n : ℕ) (projections : List (List K)) (D : List (List K)) (x : List K) (h : atomicDisplacements n projections = some (D, x)) :
    ∃ lo w : K, 0 < w ∧ (∀ p ∈ projections, ∀ y ∈ p, lo ≤ y ∧ y ≤ lo + n * w) ∧
      ((lo ∈ projections.flatten ∧ lo + n * w ∈ projections.flatten) ∨ ∃ c, (∀ y ∈ projections.flatten, y = c) ∧ lo = c - 1 / 2 ∧ lo + n * w = c + 1 / 2) ∧ D.length = projections.length ∧
      x = (List.range (n + 1)).map (fun k : ℕ => lo + k * w - w / 2) ∧
      ∀ (i : ℕ) (p d : List K), projections[i]? = some p → D[i]? = some d → d.length = n ∧ (d.map (· * w)).sum = 1 ∧
        ∀ k < n, d[k]? = some (((p.filter fun y => lo + k * w ≤ y ∧ (y < lo + (k + 1) * w ∨ (k + 1 = n ∧ y = lo + (k + 1) * w))).length : K) / p.length / w) := by
  obtain ⟨hn, hne, r, hr, hin, hends, rfl, rfl⟩ := atomicDisplacements_some n projections D x h
  have hnK : (0 : K) < n := by exact_mod_cast hn
  have hlast : r.1 + n * ((r.2 - r.1) / n) = r.2 := histEdge_last n hn r
  refine ⟨r.1, (r.2 - r.1) / n, div_pos (by linarith) hnK, ?_, ?_, by simp, rfl, ?_⟩
  rotate_left
  · rw [hlast]
    rcases hends with h | ⟨c, hc, rfl⟩
    · exact Or.inl h
    · exact Or.inr ⟨c, hc, rfl, rfl⟩
  rotate_left
  · intro p hp y hy
    have := hin p hp y hy
    refine ⟨this.1, ?_⟩
    have : r.1 + n * ((r.2 - r.1) / n) = r.2 := histEdge_last n hn r
    rw [this]; exact (hin p hp y hy).2
  intro i p d hp hd
  rw [List.getElem?_map, hp, Option.map_some, Option.some.injEq] at hd
  subst hd
  have hpm := List.mem_of_getElem? hp
  have hplen : (0 : K) < p.length := by exact_mod_cast List.length_pos_iff.2 (hne p hpm)
  have hw : (0 : K) < (r.2 - r.1) / n := div_pos (by linarith) hnK
  have hsum : ((List.range n).map (histCount n r p)).sum = p.length := by
    rw [← sum_histCount n hn r hr p (hin p hpm), Finset.sum_range]
    rw [← List.sum_ofFn, List.ofFn_eq_map, ← List.map_coe_finRange_eq_range, List.map_map]
    rfl
  have hwid : ∀ k, histEdge n r (k + 1) - histEdge n r k = (r.2 - r.1) / n := by intro k; rw [histEdge_succ]; ring
  refine ⟨by simp [histDensity], ?_, ?_⟩
  · simp only [histDensity, hsum, hwid, List.map_map]
    have : (fun k : ℕ => (histCount n r p k : K) / ((r.2 - r.1) / n) / (p.length : ℕ) * ((r.2 - r.1) / n)) = fun k => (histCount n r p k : K) / p.length := by
      funext k; field_simp
    rw [show ((fun y : K => y * ((r.2 - r.1) / n)) ∘ fun k : ℕ => (histCount n r p k : K) / ((r.2 - r.1) / n) / (p.length : ℕ)) =
      fun k : ℕ => (histCount n r p k : K) / p.length from this]
    have h2 : ((List.range n).map fun k => (histCount n r p k : K) / p.length).sum = (((List.range n).map (histCount n r p)).sum : ℕ) / (p.length : K) := by
      simp only [div_eq_mul_inv, List.sum_map_mul_right, Nat.cast_list_sum, List.map_map]; rfl
    rw [h2, hsum, div_self hplen.ne']
  · intro k hk
    simp only [histDensity, hsum, hwid, List.getElem?_map, List.getElem?_range hk, Option.map_some, Option.some.injEq]
    have hcount : histCount n r p k = (p.filter fun y => r.1 + k * ((r.2 - r.1) / n) ≤ y ∧ (y < r.1 + (k + 1) * ((r.2 - r.1) / n) ∨ (k + 1 = n ∧ y = r.1 + (k + 1) * ((r.2 - r.1) / n)))).length := by
      unfold histCount
      congr 1
      refine List.filter_congr fun y hy => ?_
      simp only [histEdge]
      push_cast
      refine decide_eq_decide.2 ?_
      constructor
      · rintro ⟨h1, h2 | ⟨h2, h3⟩⟩
        · exact ⟨h1, Or.inl h2⟩
        · rcases lt_or_eq_of_le h3 with h | h
          · exact ⟨h1, Or.inl h⟩
          · exact ⟨h1, Or.inr ⟨h2, h⟩⟩
      · rintro ⟨h1, h2 | ⟨h2, h3⟩⟩
        · exact ⟨h1, Or.inl h2⟩
        · exact ⟨h1, Or.inr ⟨h2, h3.le⟩⟩
    rw [hcount]; ring

/-- **C88** (plot): the places used for the bars and for the Gaussian fit are the centres of the bins. -/
theorem C88_plot_centres (n : ℕ) (projections : List (List K)) (D : List (List K)) (x : List K) (h : atomicDisplacements n projections = some (D, x)) :
    ∃ lo w : K, x = (List.range (n + 1)).map (fun k : ℕ => lo + k * w - w / 2) ∧ (∀ p ∈ projections, ∀ y ∈ p, lo ≤ y ∧ y ≤ lo + n * w) ∧
      ∀ k < n, plotCenters x k = (lo + (k + 1 / 2) * w, lo + (k + 1 / 2) * w) := by
  obtain ⟨lo, w, -, hin, -, -, hx, -⟩ := C88_density_partial n projections D x h
  refine ⟨lo, w, hx, hin, fun k hk => ?_⟩
  rw [hx]
  have hget : ∀ j ≤ n, ((List.range (n + 1)).map (fun k : ℕ => lo + k * w - w / 2)).getD j 0 = lo + j * w - w / 2 := by
    intro j hj
    simp [List.getD_eq_getElem?_getD, Nat.lt_succ_of_le hj]
  simp only [plotCenters, hget 1 (by omega), hget 0 (by omega), hget k (by omega), hget (k + 1) (by omega), Prod.mk.injEq]
  push_cast
  constructor <;> ring

/-- **C88 fails for the file** written by `write_atomic_displacements`: in every file, the displacement written in row `i` is not inside bin `i`, whose density follows in that row; it is one bin width below its centre. -/
theorem C88_file_violated (n : ℕ) (projections : List (List K)) (F : List (List K)) (h : displacementFile n projections = some F) :
    ∃ lo w : K, 0 < w ∧ F.length = n ∧ ∃ D x, atomicDisplacements n projections = some (D, x) ∧ x = (List.range (n + 1)).map (fun k : ℕ => lo + k * w - w / 2) ∧
      ∀ i < n, ∃ row, F[i]? = some ((lo + (i + 1 / 2) * w - w) :: row) ∧ lo + (i + 1 / 2) * w - w < lo + i * w ∧
        ∀ (j : ℕ) (d : List K), D[j]? = some d → row[j]? = d[i]? := by
  rw [displacementFile, Option.map_eq_some_iff] at h
  obtain ⟨⟨D, x⟩, h, rfl⟩ := h
  obtain ⟨lo, w, hw, -, -, -, hx, hD⟩ := C88_density_partial n projections D x h
  obtain ⟨-, -, r, -, -, -, hDr, -⟩ := atomicDisplacements_some n projections D x h
  refine ⟨lo, w, hw, by simp [curveRows], D, x, h, hx, fun i hi => ?_⟩
  refine ⟨D.map fun c => c.getD i 0, ?_, by nlinarith, ?_⟩
  · simp only [curveRows, List.getElem?_map, List.getElem?_range hi, Option.map_some, Option.some.injEq, List.cons.injEq, and_true]
    rw [hx]
    simp only [List.getD_eq_getElem?_getD, List.getElem?_map, List.getElem?_range (show i < n + 1 by omega), Option.map_some, Option.getD_some]
    ring
  · intro j d hd
    rw [List.getElem?_map, hd, Option.map_some]
    have hlen : d.length = n := by
      rw [hDr] at hd
      rw [List.getElem?_map, Option.map_eq_some_iff] at hd
      obtain ⟨p, -, rfl⟩ := hd
      simp [histDensity]
    rw [List.getD_eq_getElem?_getD, List.getElem?_eq_getElem (by omega), Option.getD_some]

end histogram

/-- Two atom types with three samples each, two bins: the densities, `distance`, and the file. -/
example : atomicDisplacements (K := ℚ) 2 [[-1, 0, 1], [1 / 2, 1 / 4, 1 / 3]] = some ([[1 / 3, 2 / 3], [0, 1]], [-3 / 2, -1 / 2, 1 / 2]) ∧
    displacementFile (K := ℚ) 2 [[-1, 0, 1], [1 / 2, 1 / 4, 1 / 3]] = some [[-3 / 2, 1 / 3, 0], [-1 / 2, 2 / 3, 1]] := by decide +kernel

/-- Atom types with different numbers of atoms (possible for types set by hand) have no distribution at all. -/
example : atomicDisplacements (K := ℚ) 2 [[-1, 0, 1], [1 / 2, 1 / 4]] = none := by decide +kernel

/-! ## C87 -/

section scan
variable {V : Type*} [Inhabited V]

/-- The accepted numbers of coefficients: the spectrum is a number everywhere and the fit is good. -/
def scanAccepted (spectrum : ℕ → V) (hasNan : V → Bool) (fit : V → ScanFit) (m : ℕ) : Bool := !hasNan (spectrum m) && (fit (spectrum m)).good

theorem scan_foldl (range : List ℕ) (spectrum : ℕ → V) (hasNan : V → Bool) (fit : V → ScanFit) (st : List (ℕ × ℝ × ℝ × ℝ) × List (List ℝ) × List V) :
    range.foldl (scanStep spectrum hasNan fit) st =
      let acc := range.filter (scanAccepted spectrum hasNan fit)
      (st.1 ++ acc.map (fun m => (m, (fit (spectrum m)).width, (fit (spectrum m)).error, (fit (spectrum m)).area)),
       st.2.1 ++ acc.map (fun m => (fit (spectrum m)).params), st.2.2 ++ acc.map spectrum) := by
  induction range generalizing st with
  | nil => simp
  | cons m l ih =>
    rw [List.foldl_cons, ih, scanStep]
    by_cases h1 : hasNan (spectrum m)
    · simp [scanAccepted, h1, List.filter_cons]
    · by_cases h2 : (fit (spectrum m)).good
      · simp [scanAccepted, h1, h2, List.filter_cons]
      · simp [scanAccepted, h1, h2, List.filter_cons]

theorem argmin_spec (n : ℕ) (hn : 0 < n) (f : ℕ → ℝ) : argmin n f < n ∧ ∀ i < n, f (argmin n f) ≤ f i := by
  suffices h : ∀ l : List ℕ, ∀ b, (∀ i ∈ l, i < n) → b < n → (l.foldl (fun best i => if f i < f best then i else best) b) < n ∧
      f (l.foldl (fun best i => if f i < f best then i else best) b) ≤ f b ∧ ∀ i ∈ l, f (l.foldl (fun best i => if f i < f best then i else best) b) ≤ f i by
    have := h (List.range n) 0 (fun i hi => List.mem_range.1 hi) hn
    exact ⟨this.1, fun i hi => this.2.2 i (List.mem_range.2 hi)⟩
  intro l
  induction l with
  | nil => intro b _ hb; exact ⟨hb, le_refl _, by simp⟩
  | cons a l ih =>
    intro b hl hb
    rw [List.foldl_cons]
    have hb' : (if f a < f b then a else b) < n := by split; exacts [hl a List.mem_cons_self, hb]
    obtain ⟨h1, h2, h3⟩ := ih _ (fun i hi => hl i (List.mem_cons_of_mem _ hi)) hb'
    refine ⟨h1, h2.trans ?_, fun i hi => ?_⟩
    · split
      · rename_i h; exact h.le
      · exact le_refl _
    · rcases List.mem_cons.1 hi with rfl | hi
      · refine h2.trans ?_
        split
        · exact le_refl _
        · rename_i h; exact not_lt.1 h
      · exact h3 i hi

/-- **C87**: the scan has no result iff no number of coefficients of the range is accepted; otherwise what is printed (position, area, number of coefficients, error) and the spectrum drawn all belong to one accepted
number of coefficients `m`, the one with the smallest fitting error, and the table drawn lists exactly the accepted numbers of coefficients, in the order of the range, with their own widths, errors and areas. -/
theorem C87_best (range : List ℕ) (spectrum : ℕ → V) (hasNan : V → Bool) (fit : V → ScanFit) :
    (memScan range spectrum hasNan fit = none ↔ ∀ m ∈ range, scanAccepted spectrum hasNan fit m = false) ∧
    ∀ r, memScan range spectrum hasNan fit = some r →
      r.fitData = (range.filter (scanAccepted spectrum hasNan fit)).map (fun m => (m, (fit (spectrum m)).width, (fit (spectrum m)).error, (fit (spectrum m)).area)) ∧
      ∃ m ∈ range, scanAccepted spectrum hasNan fit m = true ∧ r.spectrum = spectrum m ∧
        scanPrint r = ((fit (spectrum m)).params.getD 0 0, (fit (spectrum m)).area, m, (fit (spectrum m)).error) ∧
        ∀ m' ∈ range, scanAccepted spectrum hasNan fit m' = true → (fit (spectrum m)).error ≤ (fit (spectrum m')).error := by
  set acc := range.filter (scanAccepted spectrum hasNan fit) with hacc
  have hfold := scan_foldl range spectrum hasNan fit ([], [], [])
  simp only [List.nil_append, ← hacc] at hfold
  have hE : memScan range spectrum hasNan fit = if acc = [] then none else
      some { spectrum := (acc.map spectrum).getD (argmin acc.length fun i => ((acc.map (fun m => (m, (fit (spectrum m)).width, (fit (spectrum m)).error, (fit (spectrum m)).area))).getD i (0, 0, 0, 0)).2.2.1) default,
             bestWidth := scanWidth (acc.map (fun m => (m, (fit (spectrum m)).width, (fit (spectrum m)).error, (fit (spectrum m)).area))),
             bestIndex := argmin acc.length fun i => ((acc.map (fun m => (m, (fit (spectrum m)).width, (fit (spectrum m)).error, (fit (spectrum m)).area))).getD i (0, 0, 0, 0)).2.2.1,
             fitData := acc.map (fun m => (m, (fit (spectrum m)).width, (fit (spectrum m)).error, (fit (spectrum m)).area)),
             scanParams := acc.map fun m => (fit (spectrum m)).params } := by
    rw [memScan, hfold]
    simp only [List.isEmpty_iff, List.map_eq_nil_iff, List.length_map]
  constructor
  · rw [hE]
    constructor
    · intro h
      split_ifs at h with h0
      intro m hm
      rw [hacc, List.filter_eq_nil_iff] at h0
      simpa using h0 m hm
    · intro h
      rw [if_pos]
      rw [hacc, List.filter_eq_nil_iff]
      intro m hm
      simp [h m hm]
  · intro r hr
    rw [hE] at hr
    split_ifs at hr with h0
    rw [Option.some.injEq] at hr
    subst hr
    refine ⟨rfl, ?_⟩
    have hlen : 0 < acc.length := List.length_pos_iff.2 h0
    obtain ⟨h1, h2⟩ := argmin_spec acc.length hlen fun i => ((acc.map (fun m => (m, (fit (spectrum m)).width, (fit (spectrum m)).error, (fit (spectrum m)).area))).getD i (0, 0, 0, 0)).2.2.1
    set b := argmin acc.length fun i => ((acc.map (fun m => (m, (fit (spectrum m)).width, (fit (spectrum m)).error, (fit (spectrum m)).area))).getD i (0, 0, 0, 0)).2.2.1
    have hget : ∀ i (hi : i < acc.length), (acc.map (fun m => (m, (fit (spectrum m)).width, (fit (spectrum m)).error, (fit (spectrum m)).area))).getD i (0, 0, 0, 0) =
        (acc[i], (fit (spectrum acc[i])).width, (fit (spectrum acc[i])).error, (fit (spectrum acc[i])).area) := by
      intro i hi
      simp [List.getD_eq_getElem?_getD, hi]
    have hm : acc[b] ∈ acc := List.getElem_mem h1
    have hm' := List.mem_filter.1 hm
    refine ⟨acc[b], hm'.1, hm'.2, ?_, ?_, ?_⟩
    · simp [List.getD_eq_getElem?_getD, h1]
    · simp only [scanPrint, hget b h1]
      simp [List.getD_eq_getElem?_getD, h1]
    · intro m' hr' ha'
      have : m' ∈ acc := List.mem_filter.2 ⟨hr', ha'⟩
      obtain ⟨i, hi, rfl⟩ := List.getElem_of_mem this
      have := h2 i hi
      rw [hget i hi, hget b h1] at this
      exact this

/-- **C87** (width): for positive fitting errors the estimated width is a weighted mean: it lies between any bounds of the accepted widths. -/
theorem C87_width (range : List ℕ) (spectrum : ℕ → V) (hasNan : V → Bool) (fit : V → ScanFit) (r : ScanResult V) (hr : memScan range spectrum hasNan fit = some r) (lo hi : ℝ)
    (h : ∀ e ∈ r.fitData, 0 < e.2.2.1 ∧ lo ≤ e.2.1 ∧ e.2.1 ≤ hi) : lo ≤ r.bestWidth ∧ r.bestWidth ≤ hi := by
  have hne : r.fitData ≠ [] ∧ r.bestWidth = scanWidth r.fitData := by
    rw [memScan] at hr
    simp only at hr
    split_ifs at hr with h0
    rw [Option.some.injEq] at hr
    subst hr
    exact ⟨by simpa [List.isEmpty_iff] using h0, rfl⟩
  rw [hne.2]
  have key : ∀ l : List (ℕ × ℝ × ℝ × ℝ), (∀ e ∈ l, 0 < e.2.2.1 ∧ lo ≤ e.2.1 ∧ e.2.1 ≤ hi) →
      0 ≤ (l.map fun e => √(1 / e.2.2.1)).sum ∧ (l ≠ [] → 0 < (l.map fun e => √(1 / e.2.2.1)).sum) ∧
      lo * (l.map fun e => √(1 / e.2.2.1)).sum ≤ (l.map fun e => e.2.1 * √(1 / e.2.2.1)).sum ∧
      (l.map fun e => e.2.1 * √(1 / e.2.2.1)).sum ≤ hi * (l.map fun e => √(1 / e.2.2.1)).sum := by
    intro l
    induction l with
    | nil => intro _; simp
    | cons e l ih =>
      intro h
      obtain ⟨h1, -, h3, h4⟩ := ih fun e he => h e (List.mem_cons_of_mem _ he)
      obtain ⟨he, hlo, hhi⟩ := h e List.mem_cons_self
      have hs : 0 < √(1 / e.2.2.1) := Real.sqrt_pos.2 (by positivity)
      simp only [List.map_cons, List.sum_cons]
      refine ⟨by linarith, fun _ => by linarith, ?_, ?_⟩
      · have := mul_le_mul_of_nonneg_right hlo hs.le
        linarith
      · have := mul_le_mul_of_nonneg_right hhi hs.le
        linarith
  obtain ⟨-, h2, h3, h4⟩ := key r.fitData h
  have hp := h2 hne.1
  rw [scanWidth]
  exact ⟨(le_div_iff₀ hp).2 h3, (div_le_iff₀ hp).2 h4⟩

/-- A scan over 10, 20, 30 coefficients in which 10 gives a bad fit: a result exists and the table has two rows. -/
example : ∃ r, memScan (V := ℕ) [10, 20, 30] id (fun _ => false) (fun v => ⟨decide (10 < v), 1, v, 2, [5]⟩) = some r ∧ r.fitData = [(20, 1, 20, 2), (30, 1, 30, 2)] := by
  have h := C87_best (V := ℕ) [10, 20, 30] id (fun _ => false) (fun v => ⟨decide (10 < v), 1, v, 2, [5]⟩)
  cases hr : memScan (V := ℕ) [10, 20, 30] id (fun _ => false) (fun v => ⟨decide (10 < v), 1, v, 2, [5]⟩) with
  | none =>
    have := h.1.1 hr 20 (by simp)
    simp [scanAccepted] at this
  | some r => exact ⟨r, rfl, by rw [(h.2 r hr).1]; simp [scanAccepted, List.filter_cons]⟩

end scan

/-! ## C89 -/

section arrows

/-- **C89**: if the atom whose number is the type of atom `i` has the mass of atom `i`, the arrow is the displacement of atom `i` in the mode, `Re (e_i exp(i q·r_i)) / √m_i`, times the scale. -/
theorem C89_arrow_partial (types : List ℕ) (masses : List ℝ) (positions : List (Fin 3 → ℝ)) (eigenvector : ℕ → Fin 3 → ℂ) (q : Fin 3 → ℝ) (scale : ℝ) (i : ℕ)
    (hm : masses.getD (types.getD i 0) 0 = masses.getD i 0) (j : Fin 3) :
    modeArrow types masses positions eigenvector q scale i j =
      scale / √(masses.getD i 0) * (eigenvector (types.getD i 0) j * Complex.exp (Complex.I * ∑ k, positions.getD i 0 k * q k)).re := by
  simp only [modeArrow, hm]
  have : (eigenvector (types.getD i 0) j / ((√(masses.getD i 0) : ℝ) : ℂ) * Complex.exp (Complex.I * (∑ k, positions.getD i 0 k * q k : ℝ)) * (scale : ℂ)) =
      ((scale / √(masses.getD i 0) : ℝ) : ℂ) * (eigenvector (types.getD i 0) j * Complex.exp (Complex.I * ∑ k, positions.getD i 0 k * q k)) := by
    push_cast; ring
  rw [this, Complex.re_ofReal_mul]

/-- **C89, exactly**: for positive masses the arrows of atom `i` are right for every mode, wave vector and scale if and only if the atom whose number is the type of atom `i` has the mass of atom `i`. -/
theorem C89_iff (types : List ℕ) (masses : List ℝ) (positions : List (Fin 3 → ℝ)) (i : ℕ) (hi : 0 < masses.getD i 0) (ht : 0 < masses.getD (types.getD i 0) 0) :
    (∀ (eigenvector : ℕ → Fin 3 → ℂ) (q : Fin 3 → ℝ) (scale : ℝ) (j : Fin 3), modeArrow types masses positions eigenvector q scale i j =
      scale / √(masses.getD i 0) * (eigenvector (types.getD i 0) j * Complex.exp (Complex.I * ∑ k, positions.getD i 0 k * q k)).re) ↔
    masses.getD (types.getD i 0) 0 = masses.getD i 0 := by
  refine ⟨fun h => ?_, fun hm e q s j => C89_arrow_partial types masses positions e q s i hm j⟩
  have h1 := h (fun _ _ => 1) 0 1 0
  simp only [modeArrow, Pi.zero_apply, mul_zero, Finset.sum_const_zero, Complex.ofReal_zero, Complex.exp_zero, mul_one, Complex.ofReal_one, Complex.one_re] at h1
  rw [← Complex.ofReal_one, ← Complex.ofReal_div, Complex.ofReal_re, one_div, one_div, inv_inj, Real.sqrt_inj ht.le hi.le] at h1
  exact h1

/-- The hypothesis holds for a primitive cell with two atoms (types 0, 1). -/
example : ∀ i < 2, ([28, 16] : List ℝ).getD (([0, 1] : List ℕ).getD i 0) 0 = ([28, 16] : List ℝ).getD i 0 := by
  intro i hi; interval_cases i <;> rfl

/-- **C89 fails in conventional cells**: in a unit cell with two primitive cells, atoms of masses 1, 1, 4, 4 and types 0, 0, 1, 1, the arrows of the heavy atoms are drawn with the mass of the light ones. -/
theorem C89_mass_violated : ¬ ∀ (types : List ℕ) (masses : List ℝ) (positions : List (Fin 3 → ℝ)) (eigenvector : ℕ → Fin 3 → ℂ) (q : Fin 3 → ℝ) (scale : ℝ) (i : ℕ),
    types.length = masses.length → i < types.length → (∀ a b, types.getD a 0 = types.getD b 0 → a < types.length → b < types.length → masses.getD a 0 = masses.getD b 0) → ∀ j,
    modeArrow types masses positions eigenvector q scale i j =
      scale / √(masses.getD i 0) * (eigenvector (types.getD i 0) j * Complex.exp (Complex.I * ∑ k, positions.getD i 0 k * q k)).re := by
  intro h
  have hmass : ∀ a b, ([0, 0, 1, 1] : List ℕ).getD a 0 = ([0, 0, 1, 1] : List ℕ).getD b 0 → a < 4 → b < 4 → ([1, 1, 4, 4] : List ℝ).getD a 0 = ([1, 1, 4, 4] : List ℝ).getD b 0 := by
    clear h
    intro a b hab ha hb
    interval_cases a <;> interval_cases b <;> first | rfl | exact absurd hab (by decide)
  have := h [0, 0, 1, 1] [1, 1, 4, 4] [0, 0, 0, 0] (fun _ _ => 1) 0 1 2 rfl (by simp) hmass 0
  have h4 : √(4 : ℝ) = 2 := by rw [show (4 : ℝ) = 2 ^ 2 by norm_num]; exact Real.sqrt_sq (by norm_num)
  simp [modeArrow, h4] at this

end arrows

end Verif
