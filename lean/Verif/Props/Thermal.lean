import Verif.Model.Thermal
import Mathlib.Analysis.SpecialFunctions.Log.Deriv
import Mathlib.Analysis.SpecialFunctions.ExpDeriv
import Mathlib.Analysis.Calculus.Deriv.Inv
import Mathlib.Analysis.Calculus.Deriv.Add
import Mathlib.Algebra.BigOperators.Ring.Finset
import Mathlib.Algebra.BigOperators.Field
import Mathlib.Tactic.FieldSimp
import Mathlib.Tactic.Linarith
import Mathlib.Tactic.Positivity
import Mathlib.Tactic.NormNum
import Mathlib.Tactic.LinearCombination

/-! # C40-C43, C75 -/

set_option autoImplicit false

namespace Verif

open Real Finset

theorem kB_pos : 0 < kB := by unfold kB; norm_num
theorem hBar_pos : 0 < hBar := by unfold hBar; norm_num
theorem NA_pos : 0 < NA := by unfold NA; norm_num

section mode
variable {T f : ℝ}

/-- The Bose-Einstein factor with half the argument. -/
theorem bose_eq (hT : 0 < T) (hf : 0 < f) :
    let x := hBar * f / (2 * kB * T)
    0 < x ∧ f * hBar / (kB * T) = 2 * x ∧ hBar * f / (kB * T) = 2 * x ∧ 0 < sinh x ∧
      bose T f = exp (-x) / (2 * sinh x) ∧ exp (2 * x) - 1 = 2 * sinh x * exp x := by
  have hk := kB_pos
  have hh := hBar_pos
  intro x
  have hx : 0 < x := by positivity
  have h1 : f * hBar / (kB * T) = 2 * x := by simp only [x]; field_simp
  have h2 : hBar * f / (kB * T) = 2 * x := by simp only [x]; field_simp
  have hs : 0 < sinh x := sinh_pos_iff.2 hx
  have h3 : exp (2 * x) - 1 = 2 * sinh x * exp x := by
    rw [sinh_eq]
    have e1 : exp (2 * x) = exp x * exp x := by rw [← exp_add]; ring_nf
    have e2 : exp (-x) * exp x = 1 := by rw [← exp_add]; simp
    rw [e1]
    linear_combination e2
  refine ⟨hx, h1, h2, hs, ?_, h3⟩
  unfold bose
  rw [h1, h3, exp_neg]
  have := exp_pos x
  field_simp

theorem cosh_eq_sinh_add (x : ℝ) : cosh x = sinh x + exp (-x) := by rw [cosh_eq, sinh_eq]; ring

/-- C40, mode by mode: energy = free energy + temperature * entropy. -/
theorem energyTerm_eq (hT : 0 < T) (hf : 0 < f) (dos : ℝ) : energyTerm T f dos = freeTerm T f dos + T * entropyTerm T f dos := by
  obtain ⟨hx, h1, h2, hs, hb, -⟩ := bose_eq hT hf
  set x := hBar * f / (2 * kB * T) with hxdef
  unfold energyTerm freeTerm entropyTerm coth
  rw [hb, ← hxdef, cosh_eq_sinh_add x]
  field_simp
  norm_num
  ring

/-- C41, mode by mode: the heat capacity is the temperature derivative of the energy. -/
theorem hasDerivAt_energyTerm (hT : 0 < T) (hf : 0 < f) (dos : ℝ) :
    HasDerivAt (fun T => energyTerm T f dos) (cvTerm T f dos) T := by
  have hk := kB_pos
  have hh := hBar_pos
  obtain ⟨hx, h1, h2, hs, hb, h3⟩ := bose_eq hT hf
  have hE : exp (f * hBar / (kB * T)) - 1 ≠ 0 := by
    rw [h1, h3]; have := exp_pos (hBar * f / (2 * kB * T)); positivity
  have d1 : HasDerivAt (fun T : ℝ => f * hBar / (kB * T)) (-(f * hBar / (kB * T ^ 2))) T := by
    have := (hasDerivAt_inv hT.ne').const_mul (f * hBar / kB)
    have hfun : (fun T : ℝ => f * hBar / (kB * T)) = fun y => f * hBar / kB * y⁻¹ := by
      funext t; rw [div_mul_eq_div_div, div_eq_mul_inv (f * hBar / kB)]
    rw [hfun]
    exact this.congr_deriv (by field_simp)
  have d2 := (d1.exp.sub_const 1).inv hE
  have d3 := (d2.const_add 0.5).const_mul (dos * hBar * f)
  refine d3.congr_deriv ?_
  unfold cvTerm
  have e : hBar * f / (kB * T) = f * hBar / (kB * T) := by rw [mul_comm hBar f]
  rw [e]
  field_simp

/-- C41, mode by mode: the entropy is minus the temperature derivative of the free energy. -/
theorem hasDerivAt_freeTerm (hT : 0 < T) (hf : 0 < f) (dos : ℝ) :
    HasDerivAt (fun T => freeTerm T f dos) (-entropyTerm T f dos) T := by
  have hk := kB_pos
  have hh := hBar_pos
  obtain ⟨hx, h1, h2, hs, hb, h3⟩ := bose_eq hT hf
  have d1 : HasDerivAt (fun T : ℝ => hBar * f / (2 * kB * T)) (-(hBar * f / (2 * kB * T ^ 2))) T := by
    have := (hasDerivAt_inv hT.ne').const_mul (hBar * f / (2 * kB))
    have hfun : (fun T : ℝ => hBar * f / (2 * kB * T)) = fun y => hBar * f / (2 * kB) * y⁻¹ := by
      funext t; rw [div_mul_eq_div_div, div_eq_mul_inv (hBar * f / (2 * kB))]
    rw [hfun]
    exact this.congr_deriv (by field_simp)
  have d2 := (d1.sinh.const_mul 2).log (by positivity)
  have d3 := ((hasDerivAt_id T).const_mul (dos * kB)).mul d2
  refine d3.congr_deriv ?_
  unfold entropyTerm coth
  simp only [id]
  field_simp
  ring

/-- C42, mode by mode: `0 ≤ c_v ≤ k_B` per state. -/
theorem cvTerm_bounds (hT : 0 < T) (hf : 0 < f) {dos : ℝ} (hd : 0 ≤ dos) : 0 ≤ cvTerm T f dos ∧ cvTerm T f dos ≤ dos * kB := by
  have hk := kB_pos
  obtain ⟨hx, h1, h2, hs, hb, h3⟩ := bose_eq hT hf
  set x := hBar * f / (2 * kB * T)
  unfold cvTerm
  rw [h2, h3]
  have he := exp_pos x
  have e1 : exp (2 * x) = exp x * exp x := by rw [← exp_add]; ring_nf
  have heq : dos * kB * (2 * x) ^ 2 * exp (2 * x) / (2 * sinh x * exp x) ^ 2 = dos * kB * (x / sinh x) ^ 2 := by
    rw [e1]; field_simp
  rw [heq]
  refine ⟨by positivity, ?_⟩
  have h4 : x / sinh x ≤ 1 := (div_le_one hs).2 (self_le_sinh_iff.2 hx.le)
  have h5 : 0 ≤ x / sinh x := by positivity
  have h6 : (x / sinh x) ^ 2 ≤ 1 := by nlinarith
  have := mul_le_mul_of_nonneg_left h6 (mul_nonneg hd hk.le)
  linarith

/-- C42, mode by mode: the entropy is not negative. -/
theorem entropyTerm_nonneg (hT : 0 < T) (hf : 0 < f) {dos : ℝ} (hd : 0 ≤ dos) : 0 ≤ entropyTerm T f dos := by
  have hk := kB_pos
  obtain ⟨hx, h1, h2, hs, hb, h3⟩ := bose_eq hT hf
  set x := hBar * f / (2 * kB * T) with hxdef
  unfold entropyTerm
  rw [← hxdef]
  refine mul_nonneg hd ?_
  have e0 : 1 / (2 * T) * hBar * f = kB * x := by rw [hxdef]; field_simp
  rw [e0, mul_assoc, ← mul_sub]
  refine mul_nonneg hk.le (sub_nonneg.2 ?_)
  have h4 : log (2 * sinh x) ≤ x := by
    rw [log_le_iff_le_exp (by positivity), sinh_eq]
    have := exp_pos (-x)
    linarith
  have h5 : x ≤ x * coth x := by
    unfold coth
    have h6 : 1 ≤ cosh x / sinh x := by
      rw [one_le_div hs, cosh_eq_sinh_add]
      have := exp_pos (-x); linarith
    nlinarith
  linarith

/-- C42, mode by mode: the two formulas for the entropy agree. -/
theorem entropy2Term_eq (hT : 0 < T) (hf : 0 < f) (dos : ℝ) : entropy2Term T f dos = entropyTerm T f dos := by
  have hk := kB_pos
  obtain ⟨hx, h1, h2, hs, hb, h3⟩ := bose_eq hT hf
  set x := hBar * f / (2 * kB * T) with hxdef
  unfold entropy2Term entropyTerm coth
  rw [← hxdef]
  have e0 : 1 / (2 * T) * hBar * f = kB * x := by rw [hxdef]; field_simp
  have hep := exp_pos x
  have hem := exp_pos (-x)
  have hn1 : bose T f + 1 = exp x / (2 * sinh x) := by
    rw [hb]
    have : exp x = 2 * sinh x + exp (-x) := by rw [sinh_eq]; ring
    rw [this]; field_simp
    ring
  rw [e0, hn1, hb, log_div hep.ne' (by positivity), log_div hem.ne' (by positivity), log_exp, log_exp]
  have hc : cosh x = (exp x + exp (-x)) / 2 := cosh_eq x
  have hsd : exp x - exp (-x) = 2 * sinh x := by rw [sinh_eq]; ring
  rw [hc]
  field_simp
  linear_combination (-(dos * log (2 * sinh x))) * hsd

end mode

/-- The terms at frequency 0 (where NumPy gives nan and `nan_to_num` gives 0). -/
theorem terms_zero (T dos : ℝ) : energyTerm T 0 dos = 0 ∧ entropyTerm T 0 dos = 0 ∧ entropy2Term T 0 dos = 0 ∧ cvTerm T 0 dos = 0 ∧
    freeTerm T 0 dos = 0 := by
  unfold energyTerm entropyTerm entropy2Term cvTerm freeTerm bose
  simp

variable (w : ℕ → ℝ) (n : ℕ) (T : ℝ) (frequency dos : ℕ → ℝ)

theorem simps_add (y z : ℕ → ℝ) : simps w n (fun i => y i + z i) = simps w n y + simps w n z := by
  unfold simps; rw [← sum_add_distrib]; exact sum_congr rfl fun i _ => by ring
theorem simps_sub (y z : ℕ → ℝ) : simps w n (fun i => y i - z i) = simps w n y - simps w n z := by
  unfold simps; rw [← sum_sub_distrib]; exact sum_congr rfl fun i _ => by ring
theorem simps_mul (c : ℝ) (y : ℕ → ℝ) : simps w n (fun i => c * y i) = c * simps w n y := by
  unfold simps; rw [mul_sum]; exact sum_congr rfl fun i _ => by ring
theorem simps_congr (y z : ℕ → ℝ) (h : ∀ i < n, y i = z i) : simps w n y = simps w n z := by
  unfold simps; exact sum_congr rfl fun i hi => by rw [h i (mem_range.1 hi)]

/-- C40, what holds in general: total energy = free energy + temperature * entropy (kJ and J) up to the first point of the
free energy, which the code sets to 0. -/
theorem C40_general (hT : 0 < T) (hf : ∀ i < n, 0 < frequency i) (hn : 0 < n) :
    getTotalEnergy w n T frequency dos = getFreeEnergy w n T frequency dos + T * getEntropy w n T frequency dos / 1000 +
      w 0 * freeTerm T (frequency 0) (dos 0) * NA / 1000 := by
  have h1 : simps w n (fun i => energyTerm T (frequency i) (dos i)) =
      simps w n (fun i => freeTerm T (frequency i) (dos i)) + T * simps w n (fun i => entropyTerm T (frequency i) (dos i)) := by
    rw [← simps_mul, ← simps_add]
    exact simps_congr w n _ _ fun i hi => energyTerm_eq hT (hf i hi) _
  have h2 : simps w n (fun i => freeTerm T (frequency i) (dos i)) =
      simps w n (fun i => if i = 0 then 0 else freeTerm T (frequency i) (dos i)) + w 0 * freeTerm T (frequency 0) (dos 0) := by
    obtain ⟨m, rfl⟩ : ∃ m, n = m + 1 := ⟨n - 1, by omega⟩
    unfold simps
    rw [sum_range_succ', sum_range_succ' (fun i => w i * if i = 0 then 0 else freeTerm T (frequency i) (dos i))]
    simp
  unfold getTotalEnergy getFreeEnergy getEntropy
  rw [h1, h2]
  ring

/-- C40 (part): total energy = free energy + temperature * entropy when the frequencies start at 0 or the density of states is 0
at the first point. Missing, and false: a first point with positive frequency and density of states (`C40_violated`). -/
theorem C40_partial (hT : 0 < T) (hf : ∀ i < n, 0 < i → 0 < frequency i) (h0 : frequency 0 = 0 ∨ (0 < frequency 0 ∧ dos 0 = 0)) :
    getTotalEnergy w n T frequency dos = getFreeEnergy w n T frequency dos + T * getEntropy w n T frequency dos / 1000 := by
  have h1 : simps w n (fun i => energyTerm T (frequency i) (dos i)) =
      simps w n (fun i => if i = 0 then 0 else freeTerm T (frequency i) (dos i)) +
        T * simps w n (fun i => entropyTerm T (frequency i) (dos i)) := by
    rw [← simps_mul, ← simps_add]
    refine simps_congr w n _ _ fun i hi => ?_
    by_cases hi0 : i = 0
    · subst hi0
      rw [if_pos rfl]
      rcases h0 with h0 | ⟨-, h0⟩
      · rw [h0, (terms_zero T _).1, (terms_zero T _).2.1]; ring
      · rw [h0]; unfold energyTerm entropyTerm; ring
    · rw [if_neg hi0]; exact energyTerm_eq hT (hf i hi (by omega)) _
  unfold getTotalEnergy getFreeEnergy getEntropy
  rw [h1]
  ring

/-- C40, violated: with a positive first frequency (`get_thermal_properties` starts at 0.01) and weight the first point of the free
energy is lost; the identity fails for every density of states with one state at the first point, unless the free energy of
that mode happens to be 0. -/
theorem C40_violated : ∃ (w : ℕ → ℝ) (n : ℕ) (T : ℝ) (frequency dos : ℕ → ℝ), 0 < T ∧ (∀ i < n, 0 < frequency i) ∧ (∀ i, 0 ≤ dos i) ∧
    getTotalEnergy w n T frequency dos ≠ getFreeEnergy w n T frequency dos + T * getEntropy w n T frequency dos / 1000 := by
  have hk := kB_pos
  have hh := hBar_pos
  refine ⟨fun _ => 1, 3, hBar / (2 * kB), fun i => i + 1, fun i => if i = 0 then 1 else 0, by positivity, fun i _ => by positivity,
    fun i => by dsimp only; split <;> norm_num, ?_⟩
  rw [C40_general _ _ _ _ _ (by positivity) (fun i _ => by positivity) (by norm_num)]
  intro h
  have h1 : freeTerm (hBar / (2 * kB)) ((0 : ℕ) + 1) 1 * NA / 1000 = 0 := by
    simp only [if_true, one_mul] at h
    linarith
  have hNA := NA_pos
  have h2 : freeTerm (hBar / (2 * kB)) ((0 : ℕ) + 1) 1 = 0 := by
    rcases div_eq_zero_iff.1 h1 with h | h
    · rcases mul_eq_zero.1 h with h | h
      · exact h
      · exact absurd h hNA.ne'
    · norm_num at h
  unfold freeTerm at h2
  have h3 : hBar * ((0 : ℕ) + 1) / (2 * kB * (hBar / (2 * kB))) = 1 := by push_cast; field_simp; norm_num
  rw [h3] at h2
  have h4 : 0 < log (2 * sinh 1) := by
    apply log_pos
    have : (1 : ℝ) ≤ sinh 1 := self_le_sinh_iff.2 zero_le_one
    linarith
  have : 0 < 1 * kB * (hBar / (2 * kB)) * log (2 * sinh 1) := by positivity
  linarith

theorem hasDerivAt_simps {y : ℝ → ℕ → ℝ} {y' : ℕ → ℝ} (h : ∀ i < n, HasDerivAt (fun T => y T i) (y' i) T) :
    HasDerivAt (fun T => simps w n (y T)) (simps w n y') T := by
  unfold simps
  exact HasDerivAt.fun_sum fun i hi => (h i (mem_range.1 hi)).const_mul (w i)

/-- C41: `get_cv` is the temperature derivative of `get_total_energy` (J and kJ), for frequencies that are not negative. -/
theorem C41_cv (hT : 0 < T) (hf : ∀ i < n, 0 ≤ frequency i) :
    HasDerivAt (fun T => getTotalEnergy w n T frequency dos) (getCv w n T frequency dos / 1000) T := by
  have h : ∀ i < n, HasDerivAt (fun T => energyTerm T (frequency i) (dos i)) (cvTerm T (frequency i) (dos i)) T := by
    intro i hi
    rcases (hf i hi).eq_or_lt with h0 | h0
    · rw [← h0, (terms_zero T _).2.2.2.1]
      have : (fun T => energyTerm T 0 (dos i)) = fun _ => 0 := by funext t; exact (terms_zero t _).1
      rw [this]; exact hasDerivAt_const T 0
    · exact hasDerivAt_energyTerm hT h0 _
  have := ((hasDerivAt_simps w n T h).mul_const NA).div_const 1000
  unfold getTotalEnergy getCv
  exact this

/-- C41: `get_entropy` is minus the temperature derivative of `get_free_energy` (J and kJ) when the frequencies start at 0. -/
theorem C41_entropy (hT : 0 < T) (hf : ∀ i < n, 0 < i → 0 < frequency i) (h0 : frequency 0 = 0) :
    HasDerivAt (fun T => getFreeEnergy w n T frequency dos) (-(getEntropy w n T frequency dos / 1000)) T := by
  have h : ∀ i < n, HasDerivAt (fun T => if i = 0 then 0 else freeTerm T (frequency i) (dos i))
      (-entropyTerm T (frequency i) (dos i)) T := by
    intro i hi
    by_cases hi0 : i = 0
    · subst hi0
      simp only [if_true]
      rw [h0, (terms_zero T _).2.1, neg_zero]
      exact hasDerivAt_const T 0
    · simp only [if_neg hi0]
      exact hasDerivAt_freeTerm hT (hf i hi (by omega)) _
  have h1 := ((hasDerivAt_simps w n T h).mul_const NA).div_const 1000
  unfold getFreeEnergy getEntropy
  refine h1.congr_deriv ?_
  have : simps w n (fun i => -entropyTerm T (frequency i) (dos i)) = -simps w n (fun i => entropyTerm T (frequency i) (dos i)) := by
    unfold simps; rw [← sum_neg_distrib]; exact sum_congr rfl fun i _ => by ring
  rw [this]; ring

/-- C42: with a non-negative density of states and integration weights, the heat capacity is between 0 and `k_B N_A` times the number of
states (Dulong-Petit), and the entropy is not negative. -/
theorem C42_bounds (hT : 0 < T) (hf : ∀ i < n, 0 ≤ frequency i) (hd : ∀ i < n, 0 ≤ dos i) (hw : ∀ i < n, 0 ≤ w i) :
    0 ≤ getCv w n T frequency dos ∧ getCv w n T frequency dos ≤ kB * NA * simps w n dos ∧ 0 ≤ getEntropy w n T frequency dos := by
  have hNA := NA_pos
  have hk := kB_pos
  have hcv : ∀ i < n, 0 ≤ cvTerm T (frequency i) (dos i) ∧ cvTerm T (frequency i) (dos i) ≤ dos i * kB := by
    intro i hi
    rcases (hf i hi).eq_or_lt with h0 | h0
    · rw [← h0, (terms_zero T _).2.2.2.1]; exact ⟨le_rfl, mul_nonneg (hd i hi) hk.le⟩
    · exact cvTerm_bounds hT h0 (hd i hi)
  have hS : ∀ i < n, 0 ≤ entropyTerm T (frequency i) (dos i) := by
    intro i hi
    rcases (hf i hi).eq_or_lt with h0 | h0
    · rw [← h0, (terms_zero T _).2.1]
    · exact entropyTerm_nonneg hT h0 (hd i hi)
  unfold getCv getEntropy
  refine ⟨?_, ?_, ?_⟩
  · exact mul_nonneg (sum_nonneg fun i hi => mul_nonneg (hw i (mem_range.1 hi)) (hcv i (mem_range.1 hi)).1) hNA.le
  · have : simps w n (fun i => cvTerm T (frequency i) (dos i)) ≤ kB * simps w n dos := by
      rw [← simps_mul]
      unfold simps
      refine sum_le_sum fun i hi => mul_le_mul_of_nonneg_left ?_ (hw i (mem_range.1 hi))
      dsimp only; rw [mul_comm kB]; exact (hcv i (mem_range.1 hi)).2
    calc simps w n (fun i => cvTerm T (frequency i) (dos i)) * NA ≤ kB * simps w n dos * NA := mul_le_mul_of_nonneg_right this hNA.le
      _ = kB * NA * simps w n dos := by ring
  · exact mul_nonneg (sum_nonneg fun i hi => mul_nonneg (hw i (mem_range.1 hi)) (hS i (mem_range.1 hi))) hNA.le

/-- C42: every mode contributes between 0 and `k_B` per state to the heat capacity and a non-negative amount to the entropy. -/
theorem C42_modes (hT : 0 < T) (f d : ℝ) (hf : 0 < f) (hd : 0 ≤ d) :
    0 ≤ cvTerm T f d ∧ cvTerm T f d ≤ d * kB ∧ 0 ≤ entropyTerm T f d :=
  ⟨(cvTerm_bounds hT hf hd).1, (cvTerm_bounds hT hf hd).2, entropyTerm_nonneg hT hf hd⟩

/-- C42: `get_entropy` and `get_entropy2` give the same. -/
theorem C42_entropy2 (hT : 0 < T) (hf : ∀ i < n, 0 ≤ frequency i) :
    getEntropy2 w n T frequency dos = getEntropy w n T frequency dos := by
  unfold getEntropy2 getEntropy
  congr 1
  refine simps_congr w n _ _ fun i hi => ?_
  rcases (hf i hi).eq_or_lt with h0 | h0
  · rw [← h0, (terms_zero T _).2.1, (terms_zero T _).2.2.1]
  · exact entropy2Term_eq hT h0 _

/-- C43: the correction vanishes when both densities of states coincide, changes sign when they are exchanged, and is additive
along a chain of densities of states. -/
theorem C43_correction (dosR dosS : ℕ → ℝ) :
    getFreeEnergyCorrectionDos w n T frequency dos dos = 0 ∧
    getFreeEnergyCorrectionDos w n T frequency dosR dos = -getFreeEnergyCorrectionDos w n T frequency dos dosR ∧
    getFreeEnergyCorrectionDos w n T frequency dos dosR + getFreeEnergyCorrectionDos w n T frequency dosR dosS =
      getFreeEnergyCorrectionDos w n T frequency dos dosS := by
  unfold getFreeEnergyCorrectionDos
  simp only [simps_sub]
  refine ⟨by ring, by ring, by ring⟩

/-- C43: the correction is minus half the difference of the total energies of the two densities of states. -/
theorem C43_energy (dosR : ℕ → ℝ) :
    getFreeEnergyCorrectionDos w n T frequency dos dosR =
      -(getTotalEnergy w n T frequency dosR - getTotalEnergy w n T frequency dos) / 2 := by
  have h : ∀ d : ℕ → ℝ, simps w n (fun i => dosTerm T (frequency i) (d i)) =
      -(1 / 2) * simps w n (fun i => energyTerm T (frequency i) (d i)) := by
    intro d
    rw [← simps_mul]
    refine simps_congr w n _ _ fun i _ => ?_
    unfold dosTerm energyTerm
    norm_num
    ring
  unfold getFreeEnergyCorrectionDos getTotalEnergy
  rw [simps_sub, h, h]
  ring

/-- C43: the correction for a uniform shift is proportional to the shift. -/
theorem C43_shift (a s t : ℝ) :
    getFreeEnergyCorrectionShift w n T frequency dos (a * s + t) =
      a * getFreeEnergyCorrectionShift w n T frequency dos s + getFreeEnergyCorrectionShift w n T frequency dos t := by
  unfold getFreeEnergyCorrectionShift
  have : simps w n (fun i => shiftTerm T (frequency i) (dos i) (a * s + t)) =
      a * simps w n (fun i => shiftTerm T (frequency i) (dos i) s) + simps w n (fun i => shiftTerm T (frequency i) (dos i) t) := by
    rw [← simps_mul, ← simps_add]
    refine simps_congr w n _ _ fun i _ => ?_
    unfold shiftTerm; ring
  rw [this]; ring

/-- C43: the correction for a uniform shift, with each state weighted by its frequency, is minus half the shift times the total energy. -/
theorem C43_shift_energy (s : ℝ) :
    getFreeEnergyCorrectionShift w n T frequency (fun i => frequency i * dos i) s = -(s / 2) * getTotalEnergy w n T frequency dos := by
  unfold getFreeEnergyCorrectionShift getTotalEnergy
  have : simps w n (fun i => shiftTerm T (frequency i) (frequency i * dos i) s) = -(s / 2) * simps w n (fun i => energyTerm T (frequency i) (dos i)) := by
    rw [← simps_mul]
    refine simps_congr w n _ _ fun i _ => ?_
    unfold shiftTerm energyTerm
    norm_num
    ring
  rw [this]; ring

/-- A range from 0 with three frequencies meets the hypotheses of the theorems above. -/
example : ∃ (frequency dos w : ℕ → ℝ), frequency 0 = 0 ∧ (∀ i < 3, 0 < i → 0 < frequency i) ∧ (∀ i < 3, 0 ≤ dos i) ∧
    (∀ i < 3, 0 ≤ w i) ∧ 0 < dos 2 :=
  ⟨fun i => i, fun i => i, fun _ => 1, by simp, fun i _ h => by dsimp only; exact_mod_cast h, fun i _ => by positivity, fun _ _ => by norm_num,
    by norm_num⟩

/-! ## C75: get_thermal_properties -/

/-- C75: the correction is added to both the free energy and the total energy, so for positive frequencies the returned values obey
`U = F + T S` if there are no states at the first frequency (the first point of the free energy is dropped, see C40). -/
theorem C75_identity {F : Type*} (dosOf : Option F → ℕ → ℝ) (modes : ℝ) (projected : Option ℝ) (fc : Option F) (normalize : Bool)
    (hT : 0 < T) (hf : ∀ i < n, 0 < frequency i) (h0 : dosOf fc 0 = 0) (r : ThermalProps)
    (hr : getThermalProperties w n T frequency dosOf modes projected fc normalize = r) :
    r.totalEnergy = r.freeEnergy + T * r.entropy / 1000 := by
  rcases Nat.eq_zero_or_pos n with rfl | hn
  · subst hr
    unfold getThermalProperties getTotalEnergy getFreeEnergy getEntropy simps
    simp
  · have key : ∀ d : ℕ → ℝ, d 0 = 0 →
        getTotalEnergy w n T frequency d = getFreeEnergy w n T frequency d + T * getEntropy w n T frequency d / 1000 := fun d hd =>
      C40_partial w n T frequency d hT (fun i hi _ => hf i hi) (Or.inr ⟨hf 0 hn, hd⟩)
    subst hr
    unfold getThermalProperties
    dsimp only
    rw [key _ ?_]
    · ring
    · cases normalize <;> cases projected <;> simp [h0]

/-- C75: with `normalize_dos` the density of states that is used integrates to the number of modes; in the output the correction and the
thermal functions are those of this density of states. -/
theorem C75_normalized {F : Type*} (dosOf : Option F → ℕ → ℝ) (modes : ℝ) (hm : modes ≠ 0) (fc : Option F)
    (h0 : simps w n (dosOf fc) ≠ 0) : ∃ dos : ℕ → ℝ, simps w n dos = modes ∧
      let r := getThermalProperties w n T frequency dosOf modes none fc true
      r.integration = 1 ∧ r.cv = getCv w n T frequency dos ∧ r.entropy = getEntropy w n T frequency dos := by
  refine ⟨fun i => dosOf fc i / (simps w n (dosOf fc) / modes), ?_, rfl, rfl, rfl⟩
  have : (fun i => dosOf fc i / (simps w n (dosOf fc) / modes)) = fun i => (modes / simps w n (dosOf fc)) * dosOf fc i := by
    funext i; field_simp
  rw [this, simps_mul]
  field_simp

/-- C75 (part): without normalisation, force constants with the harmonic density of states give the harmonic thermal
properties. Missing, and false: the same with `normalize_dos` (`C75_violated`). -/
theorem C75_harmonic_partial {F : Type*} (dosOf : Option F → ℕ → ℝ) (modes : ℝ) (projected : Option ℝ) (fc : F)
    (h : dosOf (some fc) = dosOf none) :
    getThermalProperties w n T frequency dosOf modes projected (some fc) false =
      getThermalProperties w n T frequency dosOf modes projected none false := by
  unfold getThermalProperties
  simp only [h, Bool.false_eq_true, if_false]
  rw [(C43_correction w n T frequency (dosOf none) (dosOf none) (dosOf none)).1]

/-- C75, violated: with `normalize_dos` the renormalized density of states is normalized before the correction but the harmonic
one is not, so renormalized properties of an unchanged crystal differ from the harmonic ones. -/
theorem C75_violated : ∃ (w : ℕ → ℝ) (n : ℕ) (T : ℝ) (frequency : ℕ → ℝ) (dosOf : Option Unit → ℕ → ℝ) (modes : ℝ), 0 < T ∧
    (∀ i < n, 0 < frequency i) ∧ (∀ fc i, 0 ≤ dosOf fc i) ∧ dosOf (some ()) = dosOf none ∧
    (getThermalProperties w n T frequency dosOf modes none (some ()) true).freeEnergy ≠
      (getThermalProperties w n T frequency dosOf modes none none true).freeEnergy := by
  have hk := kB_pos
  have hh := hBar_pos
  have hNA := NA_pos
  refine ⟨fun _ => 1, 1, 1, fun _ => 1, fun _ _ => 2, 1, by norm_num, fun _ _ => by norm_num, fun _ _ => by norm_num, rfl, ?_⟩
  unfold getThermalProperties
  simp only [if_true, add_zero]
  intro h
  have h1 := add_eq_left.1 h
  rw [C43_energy] at h1
  have hb := (bose_eq (T := 1) (f := 1) one_pos one_pos).2.2.2
  have hbp : 0 < bose 1 1 := by
    rw [hb.2.1]; have := exp_pos (-(hBar * 1 / (2 * kB * 1))); have := hb.1; positivity
  have hpos : 0 < hBar * (0.5 + bose 1 1) * NA := by positivity
  unfold getTotalEnergy simps energyTerm at h1
  simp only [Finset.sum_range_one, one_mul, mul_one, div_one] at h1
  have h2 : (2 : ℝ) / 2 = 1 := by norm_num
  rw [h2] at h1
  linarith

end Verif
