import Verif.Model.Simpson
import Verif.Props.Thermal
import Mathlib.Analysis.SpecialFunctions.Integrals.Basic

/-! # C126: integrals over the frequencies -/

set_option autoImplicit false

namespace Verif

open Finset

/-! ## Linearity -/

theorem simpsonSeg_add (x y z : ℕ → ℝ) (i : ℕ) : simpsonSeg x (fun i => y i + z i) i = simpsonSeg x y i + simpsonSeg x z i := by
  unfold simpsonSeg; ring

theorem simpsonSeg_mul (x y : ℕ → ℝ) (c : ℝ) (i : ℕ) : simpsonSeg x (fun i => c * y i) i = c * simpsonSeg x y i := by
  unfold simpsonSeg; ring

theorem basicSimpson_add (x y z : ℕ → ℝ) (s m : ℕ) : basicSimpson x (fun i => y i + z i) s m = basicSimpson x y s m + basicSimpson x z s m := by
  unfold basicSimpson; rw [← sum_add_distrib]; exact sum_congr rfl fun k _ => simpsonSeg_add ..

theorem basicSimpson_mul (x y : ℕ → ℝ) (c : ℝ) (s m : ℕ) : basicSimpson x (fun i => c * y i) s m = c * basicSimpson x y s m := by
  unfold basicSimpson; rw [mul_sum]; exact sum_congr rfl fun k _ => simpsonSeg_mul ..

theorem trapezoid_add (x y z : ℕ → ℝ) (i : ℕ) : trapezoid x (fun i => y i + z i) i = trapezoid x y i + trapezoid x z i := by
  unfold trapezoid; ring

theorem trapezoid_mul (x y : ℕ → ℝ) (c : ℝ) (i : ℕ) : trapezoid x (fun i => c * y i) i = c * trapezoid x y i := by
  unfold trapezoid; ring

theorem basicSimpson_congr (x x' y z : ℕ → ℝ) (s m : ℕ) (hx : ∀ i, i ≤ s + 2 * m → x i = x' i) (h : ∀ i, i ≤ s + 2 * m → y i = z i) : basicSimpson x y s m = basicSimpson x' z s m := by
  unfold basicSimpson
  apply sum_congr rfl
  intro k hk
  have hk := mem_range.mp hk
  unfold simpsonSeg
  rw [h (s + 2 * k) (by omega), h (s + 2 * k + 1) (by omega), h (s + 2 * k + 2) (by omega), hx (s + 2 * k) (by omega), hx (s + 2 * k + 1) (by omega), hx (s + 2 * k + 2) (by omega)]

/-- The two versions of the rule (specification: the set of rules about which the theorems speak). -/
def IsSimpson (n : ℕ) (rule : (ℕ → ℝ) → (ℕ → ℝ) → ℝ) : Prop := rule = simpsAvg n ∨ rule = simpsCartwright n

theorem rule_add {n : ℕ} {rule : (ℕ → ℝ) → (ℕ → ℝ) → ℝ} (h : IsSimpson n rule) (x y z : ℕ → ℝ) : rule x (fun i => y i + z i) = rule x y + rule x z := by
  rcases h with rfl | rfl
  · unfold simpsAvg
    split_ifs
    · exact basicSimpson_add ..
    · simp
    · simp only [basicSimpson_add, trapezoid_add]; ring
  · unfold simpsCartwright
    split_ifs
    · exact basicSimpson_add ..
    · simp
    · exact trapezoid_add ..
    · simp only [basicSimpson_add]; ring

theorem rule_mul {n : ℕ} {rule : (ℕ → ℝ) → (ℕ → ℝ) → ℝ} (h : IsSimpson n rule) (x y : ℕ → ℝ) (c : ℝ) : rule x (fun i => c * y i) = c * rule x y := by
  rcases h with rfl | rfl
  · unfold simpsAvg
    split_ifs
    · exact basicSimpson_mul ..
    · simp
    · simp only [basicSimpson_mul, trapezoid_mul]; ring
  · unfold simpsCartwright
    split_ifs
    · exact basicSimpson_mul ..
    · simp
    · exact trapezoid_mul ..
    · simp only [basicSimpson_mul]; ring

theorem rule_congr {n : ℕ} {rule : (ℕ → ℝ) → (ℕ → ℝ) → ℝ} (h : IsSimpson n rule) (x x' y z : ℕ → ℝ) (hx : ∀ i < n, x i = x' i) (hyz : ∀ i < n, y i = z i) : rule x y = rule x' z := by
  rcases h with rfl | rfl
  · unfold simpsAvg
    split_ifs with h1 h2
    · exact basicSimpson_congr x x' y z _ _ (fun i hi => hx i (by omega)) (fun i hi => hyz i (by omega))
    · rfl
    · simp only
      rw [basicSimpson_congr x x' y z 0 _ (fun i hi => hx i (by omega)) (fun i hi => hyz i (by omega)), basicSimpson_congr x x' y z 1 _ (fun i hi => hx i (by omega)) (fun i hi => hyz i (by omega))]
      unfold trapezoid
      rw [hyz (n - 2) (by omega), hyz (n - 2 + 1) (by omega), hyz 0 (by omega), hyz (0 + 1) (by omega), hx (n - 2) (by omega), hx (n - 2 + 1) (by omega), hx 0 (by omega), hx (0 + 1) (by omega)]
  · unfold simpsCartwright
    split_ifs with h1 h2 h3
    · exact basicSimpson_congr x x' y z _ _ (fun i hi => hx i (by omega)) (fun i hi => hyz i (by omega))
    · rfl
    · unfold trapezoid
      rw [hyz 0 (by omega), hyz (0 + 1) (by omega), hx 0 (by omega), hx (0 + 1) (by omega)]
    · simp only
      rw [basicSimpson_congr x x' y z 0 _ (fun i hi => hx i (by omega)) (fun i hi => hyz i (by omega)), hyz (n - 1) (by omega), hyz (n - 2) (by omega), hyz (n - 3) (by omega),
        hx (n - 1) (by omega), hx (n - 2) (by omega), hx (n - 3) (by omega)]

theorem rule_sum {n : ℕ} {rule : (ℕ → ℝ) → (ℕ → ℝ) → ℝ} (h : IsSimpson n rule) (x : ℕ → ℝ) (c : ℕ → ℝ) (e : ℕ → ℕ → ℝ) : ∀ m, rule x (fun i => ∑ j ∈ range m, c j * e j i) = ∑ j ∈ range m, c j * rule x (e j)
  | 0 => by
    simp only [range_zero, sum_empty]
    have := rule_mul h x (fun _ => 0) 0
    simpa using this
  | m + 1 => by
    simp only [sum_range_succ]
    rw [rule_add h, rule_sum h x c e m, rule_mul h]

/-- C126: an integral is a weighted sum of the values, with weights that depend on the frequencies only (this is what the theorems about the thermal properties, C40-C43 and C75, assume). -/
theorem C126_weights {n : ℕ} {rule : (ℕ → ℝ) → (ℕ → ℝ) → ℝ} (h : IsSimpson n rule) (x y : ℕ → ℝ) : rule x y = simps (ruleWeight rule x) n y := by
  unfold simps
  rw [rule_congr h x x y (fun i => ∑ j ∈ range n, y j * (if i = j then 1 else 0)) (fun _ _ => rfl) ?_, rule_sum h]
  · exact sum_congr rfl fun j _ => mul_comm _ _
  · intro i hi
    simp [hi]

/-! ## Evenly spaced frequencies -/

theorem simpsonSeg_even {x : ℕ → ℝ} {h : ℝ} (hh : h ≠ 0) (hx : ∀ i, x (i + 1) - x i = h) (y : ℕ → ℝ) (i : ℕ) : simpsonSeg x y i = h / 3 * (y i + 4 * y (i + 1) + y (i + 2)) := by
  unfold simpsonSeg
  simp only [hx, show i + 2 = (i + 1) + 1 from rfl]
  field_simp
  ring

theorem basicSimpson_nonneg {x : ℕ → ℝ} {h : ℝ} (hh : 0 < h) (hx : ∀ i, x (i + 1) - x i = h) (y : ℕ → ℝ) (hy : ∀ i, 0 ≤ y i) (s m : ℕ) : 0 ≤ basicSimpson x y s m := by
  unfold basicSimpson
  refine sum_nonneg fun k _ => ?_
  rw [simpsonSeg_even hh.ne' hx]
  have := hy (s + 2 * k); have := hy (s + 2 * k + 1); have := hy (s + 2 * k + 2)
  positivity

theorem trapezoid_nonneg {x : ℕ → ℝ} {h : ℝ} (hh : 0 < h) (hx : ∀ i, x (i + 1) - x i = h) (y : ℕ → ℝ) (hy : ∀ i, 0 ≤ y i) (i : ℕ) : 0 ≤ trapezoid x y i := by
  unfold trapezoid
  rw [hx]
  have := hy i; have := hy (i + 1)
  positivity

/-- C126: on evenly spaced frequencies the integral of non-negative values is not negative, for every number of frequencies. -/
theorem C126_nonneg {n : ℕ} {rule : (ℕ → ℝ) → (ℕ → ℝ) → ℝ} (hr : IsSimpson n rule) (x y : ℕ → ℝ) (a h : ℝ) (hh : 0 < h) (hx : ∀ i < n, x i = a + i * h) (hy : ∀ i < n, 0 ≤ y i) : 0 ≤ rule x y := by
  set X : ℕ → ℝ := fun i => a + i * h with hX
  set Y : ℕ → ℝ := fun i => if i < n then y i else 0 with hY
  have hXd : ∀ i, X (i + 1) - X i = h := by intro i; simp only [hX]; push_cast; ring
  have hYn : ∀ i, 0 ≤ Y i := by
    intro i; simp only [hY]; split_ifs with hi
    · exact hy i hi
    · exact le_rfl
  rw [rule_congr hr x X y Y hx (fun i hi => by simp only [hY]; rw [if_pos hi])]
  rcases hr with rfl | rfl
  · unfold simpsAvg
    split_ifs
    · exact basicSimpson_nonneg hh hXd Y hYn ..
    · exact le_rfl
    · have h1 := basicSimpson_nonneg hh hXd Y hYn 0 ((n - 2) / 2)
      have h2 := basicSimpson_nonneg hh hXd Y hYn 1 ((n - 2) / 2)
      have h3 := trapezoid_nonneg hh hXd Y hYn 0
      have h4 := trapezoid_nonneg hh hXd Y hYn (n - 2)
      simp only
      positivity
  · unfold simpsCartwright
    split_ifs with h1 h2 h3
    · exact basicSimpson_nonneg hh hXd Y hYn ..
    · exact le_rfl
    · exact trapezoid_nonneg hh hXd Y hYn ..
    · obtain ⟨m, rfl⟩ : ∃ m, n = 2 * m + 4 := ⟨(n - 4) / 2, by omega⟩
      have e1 : (2 * m + 2) / 2 = m + 1 := by omega
      have e2 : 2 * m + 4 - 1 = 2 * m + 3 := by omega
      have e3 : 2 * m + 4 - 2 = 2 * m + 2 := by omega
      have e4 : 2 * m + 4 - 3 = 2 * m + 1 := by omega
      have d1 : X (2 * m + 3) - X (2 * m + 2) = h := hXd _
      have d2 : X (2 * m + 2) - X (2 * m + 1) = h := hXd _
      simp only [e1, e2, e3, e4, d1, d2]
      have hb : basicSimpson X Y 0 (m + 1) = basicSimpson X Y 0 m + h / 3 * (Y (2 * m) + 4 * Y (2 * m + 1) + Y (2 * m + 2)) := by
        unfold basicSimpson
        rw [sum_range_succ, simpsonSeg_even hh.ne' hXd, zero_add]
      have h5 := basicSimpson_nonneg hh hXd Y hYn 0 m
      have c1 := hYn (2 * m); have c2 := hYn (2 * m + 1); have c3 := hYn (2 * m + 2); have c4 := hYn (2 * m + 3)
      rw [hb]
      have e5 : (2 * h ^ 2 + 3 * h * h) / (6 * (h + h)) = 5 / 12 * h := by field_simp; ring
      have e6 : (h ^ 2 + 3 * h * h) / (6 * h) = 2 / 3 * h := by field_simp; ring
      have e7 : (1 * h ^ 3) / (6 * h * (h + h)) = 1 / 12 * h := by field_simp; ring
      rw [e5, e6, e7]
      have p1 := mul_nonneg hh.le c1; have p2 := mul_nonneg hh.le c2; have p3 := mul_nonneg hh.le c3; have p4 := mul_nonneg hh.le c4
      nlinarith

/-- C126: on evenly spaced frequencies no weight is negative. -/
theorem C126_weights_nonneg {n : ℕ} {rule : (ℕ → ℝ) → (ℕ → ℝ) → ℝ} (hr : IsSimpson n rule) (x : ℕ → ℝ) (a h : ℝ) (hh : 0 < h) (hx : ∀ i < n, x i = a + i * h) (j : ℕ) : 0 ≤ ruleWeight rule x j :=
  C126_nonneg hr x _ a h hh hx fun i _ => by split_ifs <;> norm_num

/-! ## Exactness -/

theorem simpsonSeg_parabola {x : ℕ → ℝ} {i : ℕ} (h0 : x i < x (i + 1)) (h1 : x (i + 1) < x (i + 2)) (a b c : ℝ) :
    simpsonSeg x (fun i => a + b * x i + c * x i ^ 2) i = (a * x (i + 2) + b / 2 * x (i + 2) ^ 2 + c / 3 * x (i + 2) ^ 3) - (a * x i + b / 2 * x i ^ 2 + c / 3 * x i ^ 3) := by
  unfold simpsonSeg
  simp only
  generalize x i = u at *
  generalize x (i + 1) = v at *
  generalize x (i + 2) = w at *
  have e1 : v - u ≠ 0 := by linarith
  have e2 : w - v ≠ 0 := by linarith
  field_simp
  ring

theorem basicSimpson_parabola {x : ℕ → ℝ} {n : ℕ} (hx : ∀ i, i + 1 < n → x i < x (i + 1)) (a b c : ℝ) (s : ℕ) : ∀ m, s + 2 * m < n →
    basicSimpson x (fun i => a + b * x i + c * x i ^ 2) s m = (a * x (s + 2 * m) + b / 2 * x (s + 2 * m) ^ 2 + c / 3 * x (s + 2 * m) ^ 3) - (a * x s + b / 2 * x s ^ 2 + c / 3 * x s ^ 3)
  | 0, _ => by simp [basicSimpson]
  | m + 1, hm => by
    have ih := basicSimpson_parabola hx a b c s m (by omega)
    unfold basicSimpson at ih ⊢
    rw [sum_range_succ, ih, simpsonSeg_parabola (hx _ (by omega)) (hx _ (by omega))]
    rw [show s + 2 * (m + 1) = s + 2 * m + 2 by ring]
    ring

theorem integral_parabola (u v a b c : ℝ) : ∫ t in u..v, (a + b * t + c * t ^ 2) = (a * v + b / 2 * v ^ 2 + c / 3 * v ^ 3) - (a * u + b / 2 * u ^ 2 + c / 3 * u ^ 3) := by
  rw [intervalIntegral.integral_eq_sub_of_hasDerivAt (f := fun t => a * t + b / 2 * t ^ 2 + c / 3 * t ^ 3)]
  · intro t _
    have := (((hasDerivAt_id t).const_mul a).add ((hasDerivAt_pow 2 t).const_mul (b / 2))).add ((hasDerivAt_pow 3 t).const_mul (c / 3))
    refine (this.congr_deriv ?_)
    push_cast; ring
  · apply Continuous.intervalIntegrable
    continuity

/-- C126: with frequencies in increasing order (evenly spaced or not), the integral of a parabola is exact for an odd number of frequencies, and with the newer version of SciPy for every number from 3 on. -/
theorem C126_parabola {n : ℕ} {rule : (ℕ → ℝ) → (ℕ → ℝ) → ℝ} (hr : IsSimpson n rule) (hn : n % 2 = 1 ∨ (rule = simpsCartwright n ∧ 3 ≤ n)) (x : ℕ → ℝ)
    (hx : ∀ i, i + 1 < n → x i < x (i + 1)) (a b c : ℝ) : rule x (fun i => a + b * x i + c * x i ^ 2) = ∫ t in x 0..x (n - 1), (a + b * t + c * t ^ 2) := by
  rw [integral_parabola]
  by_cases hodd : n % 2 = 1
  · have h : rule x (fun i => a + b * x i + c * x i ^ 2) = basicSimpson x (fun i => a + b * x i + c * x i ^ 2) 0 ((n - 1) / 2) := by
      rcases hr with rfl | rfl
      · unfold simpsAvg; rw [if_pos hodd]
      · unfold simpsCartwright; rw [if_pos hodd]
    rw [h, basicSimpson_parabola hx a b c 0 _ (by omega)]
    rw [show 0 + 2 * ((n - 1) / 2) = n - 1 by omega]
  · obtain ⟨rfl, h3⟩ := hn.resolve_left hodd
    unfold simpsCartwright
    rw [if_neg hodd, if_neg (by omega), if_neg (by omega)]
    simp only
    rw [basicSimpson_parabola hx a b c 0 _ (by omega), show 0 + 2 * ((n - 2) / 2) = n - 2 by omega]
    have g0 := hx (n - 3) (by omega)
    have g1 := hx (n - 2) (by omega)
    rw [show n - 3 + 1 = n - 2 by omega] at g0
    rw [show n - 2 + 1 = n - 1 by omega] at g1
    generalize x (n - 3) = u at *
    generalize x (n - 2) = v at *
    generalize x (n - 1) = w at *
    have e1 : v - u ≠ 0 := by linarith
    have e2 : w - v + (v - u) ≠ 0 := by linarith
    have e3 : v - u + (w - v) ≠ 0 := by linarith
    have e4 : w - u ≠ 0 := by linarith
    have e5 : w - v + (v - u) = w - u := by ring
    have e6 : v - u + (w - v) = w - u := by ring
    rw [e5, e6]
    field_simp
    ring

/-- C126: with frequencies in increasing order the integral of a straight line is exact for every number of frequencies from 1 on, with both versions of SciPy. -/
theorem C126_line {n : ℕ} {rule : (ℕ → ℝ) → (ℕ → ℝ) → ℝ} (hr : IsSimpson n rule) (hn : 1 ≤ n) (x : ℕ → ℝ) (hx : ∀ i, i + 1 < n → x i < x (i + 1)) (a b : ℝ) :
    rule x (fun i => a + b * x i) = ∫ t in x 0..x (n - 1), (a + b * t) := by
  have hz : (fun i => a + b * x i) = fun i => a + b * x i + 0 * x i ^ 2 := by funext i; ring
  have hi : ∫ t in x 0..x (n - 1), (a + b * t) = ∫ t in x 0..x (n - 1), (a + b * t + 0 * t ^ 2) := by
    congr 1; funext t; ring
  by_cases hodd : n % 2 = 1
  · rw [hz, hi]; exact C126_parabola hr (Or.inl hodd) x hx a b 0
  · by_cases h2 : n = 2
    · subst h2
      rw [hi, integral_parabola]
      rcases hr with rfl | rfl
      · unfold simpsAvg trapezoid basicSimpson; norm_num; ring
      · unfold simpsCartwright trapezoid; norm_num; ring
    · rcases hr with rfl | rfl
      · rw [hi, integral_parabola]
        unfold simpsAvg
        rw [if_neg hodd, if_neg (by omega)]
        simp only
        rw [hz, basicSimpson_parabola hx a b 0 0 _ (by omega), basicSimpson_parabola hx a b 0 1 _ (by omega), show 0 + 2 * ((n - 2) / 2) = n - 2 by omega, show 1 + 2 * ((n - 2) / 2) = n - 1 by omega]
        unfold trapezoid
        rw [show n - 2 + 1 = n - 1 by omega, zero_add]
        norm_num
        ring
      · rw [hz, hi]; exact C126_parabola (Or.inr rfl) (Or.inr ⟨rfl, by omega⟩) x hx a b 0

/-- C126: with an even number of frequencies the older version is not exact for parabolas: four frequencies 0, 1, 2, 3 and `t²`. So the two versions of SciPy give different areas and thermal properties. -/
theorem C126_parabola_violated : ∃ x : ℕ → ℝ, (∀ i, x i < x (i + 1)) ∧ simpsAvg 4 x (fun i => x i ^ 2) ≠ ∫ t in x 0..x 3, t ^ 2 ∧ simpsAvg 4 x (fun i => x i ^ 2) ≠ simpsCartwright 4 x (fun i => x i ^ 2) := by
  refine ⟨fun i => i, fun i => by push_cast; linarith, ?_, ?_⟩
  · rw [integral_pow]
    norm_num [simpsAvg, basicSimpson, simpsonSeg, trapezoid]
  · norm_num [simpsAvg, simpsCartwright, basicSimpson, simpsonSeg, trapezoid]

/-- C126: the thermal properties with the actual integration rule: for evenly spaced frequencies (as phonopy gives them) and a non-negative density of states the heat capacity is between 0 and `k_B N_A` times the
number of states, and the entropy is not negative. -/
theorem C126_thermal {n : ℕ} {rule : (ℕ → ℝ) → (ℕ → ℝ) → ℝ} (hr : IsSimpson n rule) (T a h : ℝ) (frequency dos : ℕ → ℝ) (hT : 0 < T) (hh : 0 < h) (ha : 0 ≤ a) (hx : ∀ i < n, frequency i = a + i * h)
    (hd : ∀ i < n, 0 ≤ dos i) :
    0 ≤ getCv (ruleWeight rule frequency) n T frequency dos ∧ getCv (ruleWeight rule frequency) n T frequency dos ≤ kB * NA * rule frequency dos ∧
      0 ≤ getEntropy (ruleWeight rule frequency) n T frequency dos := by
  have := C42_bounds (w := ruleWeight rule frequency) (n := n) (T := T) (frequency := frequency) (dos := dos) hT (fun i hi => by rw [hx i hi]; positivity) hd
    (fun i _ => C126_weights_nonneg hr frequency a h hh hx i)
  rw [C126_weights hr]
  exact this

/-- The weights may be negative for frequencies that are not evenly spaced (0, 1, 10). -/
example : simpsAvg 3 (fun i => if i = 0 then 0 else if i = 1 then 1 else 10) (fun i => if i = 0 then 1 else 0) < 0 := by
  norm_num [simpsAvg, basicSimpson, simpsonSeg]

/-- Example: 401 frequencies from 0 in steps of 0.05, both versions. -/
example : IsSimpson 401 (simpsAvg 401) ∧ IsSimpson 401 (simpsCartwright 401) ∧ (∀ i < 401, (fun i : ℕ => (0 : ℝ) + i * 0.05) i = 0 + i * 0.05) ∧ (0 : ℝ) < 0.05 :=
  ⟨Or.inl rfl, Or.inr rfl, fun _ _ => rfl, by norm_num⟩

end Verif
