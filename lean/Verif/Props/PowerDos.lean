import Verif.Model.PowerDos
import Verif.Props.Units
import Verif.Props.Thermal

/-! # C127: thermal properties from the power spectrum -/

set_option autoImplicit false

namespace Verif

open Finset Real

variable (w : ℕ → ℝ) (n : ℕ) (T : ℝ) (frequency P : ℕ → ℝ) (nSize modes : ℝ)

/-- The charge of the electron in `get_dos`: J in one eV. -/
noncomputable def jPerEv : ℝ := 1.60217662e-19

theorem getDos_classical (i : ℕ) : getDos T frequency P nSize false i = 2 * jPerEv / (kB * T * nSize) * P i := by
  unfold getDos jPerEv
  simp only [Bool.false_eq_true, if_false]
  norm_num
  ring

/-- `2 tanh (y / 2) ≤ y`, without hyperbolic functions. -/
theorem two_mul_exp_sub_one_le (y : ℝ) (hy : 0 ≤ y) : 2 * (exp y - 1) ≤ y * (exp y + 1) := by
  have hd : ∀ z : ℝ, HasDerivAt (fun z => z * (exp z + 1) - 2 * (exp z - 1)) (1 * (exp z + 1) + z * exp z - 2 * exp z) z := fun z =>
    ((hasDerivAt_id z).mul ((hasDerivAt_exp z).add_const 1)).sub (((hasDerivAt_exp z).sub_const 1).const_mul 2)
  have hmono : Monotone fun z : ℝ => z * (exp z + 1) - 2 * (exp z - 1) := by
    refine monotone_of_deriv_nonneg (fun z => (hd z).differentiableAt) fun z => ?_
    rw [(hd z).deriv]
    have h1 := add_one_le_exp (-z)
    have h2 : exp (-z) * exp z = 1 := by rw [← exp_add]; simp
    nlinarith [exp_pos z]
  have := hmono hy
  simp only [zero_mul, exp_zero, sub_self, mul_zero] at this
  linarith

theorem simps_getDos : simps w n (getDos T frequency P nSize false) = 2 * jPerEv / (kB * T * nSize) * simps w n P := by
  have : getDos T frequency P nSize false = fun i => 2 * jPerEv / (kB * T * nSize) * P i := funext fun i => getDos_classical T frequency P nSize i
  rw [this, simps_mul]

/-- C127: the number of states from the power spectrum. The reported integral is the kinetic energy of the molecular dynamics (the area of the spectrum, printed in eV) divided by that of equipartition at
the temperature, `modes * cells * k_B T / 2`; in particular it is 1 exactly for equipartition. -/
theorem C127_integration (hT : 0 < T) (hN : 0 < nSize) (hm : 0 < modes) (projected : Option ℝ) :
    (thermalFromPower w n T frequency P nSize modes projected false).integration = jPerEv * simps w n P / (modes * nSize * (kB * T / 2)) ∧
    ((thermalFromPower w n T frequency P nSize modes projected false).integration = 1 ↔ jPerEv * simps w n P = modes * nSize * (kB * T / 2)) := by
  have hk := kB_pos
  have h1 : (thermalFromPower w n T frequency P nSize modes projected false).integration = jPerEv * simps w n P / (modes * nSize * (kB * T / 2)) := by
    unfold thermalFromPower powerDos
    simp only [Bool.false_eq_true, if_false]
    rw [simps_getDos]
    field_simp
  refine ⟨h1, ?_⟩
  rw [h1, div_eq_one_iff_eq (by positivity)]

/-- C127: without normalisation the density of states, entropy and heat capacity are proportional to the spectrum: an error of the unit of the spectrum by a factor shows up as that factor. -/
theorem C127_scale (projected : Option ℝ) (c : ℝ) (r r' : ThermalProps) (hr : thermalFromPower w n T frequency P nSize modes projected false = r)
    (hr' : thermalFromPower w n T frequency (fun i => c * P i) nSize modes projected false = r') :
    r'.freeEnergy = c * r.freeEnergy ∧ r'.entropy = c * r.entropy ∧ r'.cv = c * r.cv ∧ r'.totalEnergy = c * r.totalEnergy ∧ r'.integration = c * r.integration := by
  have hd : getDos T frequency (fun i => c * P i) nSize false = fun i => c * getDos T frequency P nSize false i := by
    funext i; rw [getDos_classical, getDos_classical]; ring
  subst hr hr'
  unfold thermalFromPower powerDos
  simp only [Bool.false_eq_true, if_false, hd]
  refine ⟨?_, ?_, ?_, ?_, ?_⟩
  · unfold getFreeEnergy
    rw [show (fun i => if i = 0 then 0 else freeTerm T (frequency i) (c * getDos T frequency P nSize false i)) =
      fun i => c * (if i = 0 then 0 else freeTerm T (frequency i) (getDos T frequency P nSize false i)) by
        funext i; split_ifs
        · ring
        · unfold freeTerm; ring, simps_mul]
    ring
  · unfold getEntropy
    rw [show (fun i => entropyTerm T (frequency i) (c * getDos T frequency P nSize false i)) = fun i => c * entropyTerm T (frequency i) (getDos T frequency P nSize false i) by
      funext i; unfold entropyTerm; ring, simps_mul]
    ring
  · unfold getCv
    rw [show (fun i => cvTerm T (frequency i) (c * getDos T frequency P nSize false i)) = fun i => c * cvTerm T (frequency i) (getDos T frequency P nSize false i) by
      funext i; unfold cvTerm; ring, simps_mul]
    ring
  · unfold getTotalEnergy
    rw [show (fun i => energyTerm T (frequency i) (c * getDos T frequency P nSize false i)) = fun i => c * energyTerm T (frequency i) (getDos T frequency P nSize false i) by
      funext i; unfold energyTerm; ring, simps_mul]
    ring
  · rw [simps_mul]; ring

/-- C127: with `normalize_dos` the density of states integrates to the number of modes (divided by the number of primitive atoms if projected onto an atom), the reported integral is 1 (divided likewise), and it is
the spectrum up to a constant: supercell, temperature and the unit of the spectrum do not matter for it. -/
theorem C127_normalized (hT : 0 < T) (hN : 0 < nSize) (hm : 0 < modes) (hP : simps w n P ≠ 0) (projected : Option ℝ) (hp : ∀ p, projected = some p → p ≠ 0) :
    let d := powerDos w n T frequency P nSize modes projected true
    simps w n d.1 = modes / projected.getD 1 ∧ d.2 = 1 / projected.getD 1 ∧ ∀ i, d.1 i = modes / projected.getD 1 * (P i / simps w n P) := by
  have hk := kB_pos
  have hj : 0 < jPerEv := by unfold jPerEv; norm_num
  have key : ∀ i, getDos T frequency P nSize false i / (simps w n (getDos T frequency P nSize false) / modes) = modes * (P i / simps w n P) := by
    intro i
    rw [simps_getDos, getDos_classical]
    field_simp
  cases projected with
  | none =>
    simp only [powerDos, if_true, Option.getD_none, div_one, key, implies_true, and_true]
    rw [show (fun i => modes * (P i / simps w n P)) = fun i => modes / simps w n P * P i by funext i; ring, simps_mul]
    field_simp
  | some p =>
    have hp0 := hp p rfl
    simp only [powerDos, if_true, Option.getD_some, key, true_and]
    constructor
    · rw [show (fun i => modes * (P i / simps w n P) / p) = fun i => modes / simps w n P / p * P i by funext i; ring, simps_mul]
      field_simp
    · intro i; ring

/-- C127: hence the law of Dulong and Petit bounds the heat capacity: with normalisation it lies between 0 and `3 N R` (`modes * N_A k_B`) for every non-negative spectrum. -/
theorem C127_dulong_petit (hT : 0 < T) (hN : 0 < nSize) (hm : 0 < modes) (hf : ∀ i < n, 0 ≤ frequency i) (hw : ∀ i < n, 0 ≤ w i) (hP : ∀ i < n, 0 ≤ P i) (hP0 : simps w n P ≠ 0) :
    0 ≤ (thermalFromPower w n T frequency P nSize modes none true).cv ∧
    (thermalFromPower w n T frequency P nSize modes none true).cv ≤ kB * NA * modes ∧ 0 ≤ (thermalFromPower w n T frequency P nSize modes none true).entropy := by
  obtain ⟨h1, -, h3⟩ := C127_normalized w n T frequency P nSize modes hT hN hm hP0 none (by simp)
  have hS : 0 < simps w n P := lt_of_le_of_ne (by
    unfold simps; exact Finset.sum_nonneg fun i hi => mul_nonneg (hw i (mem_range.1 hi)) (hP i (mem_range.1 hi))) (Ne.symm hP0)
  have hd : ∀ i < n, 0 ≤ (powerDos w n T frequency P nSize modes none true).1 i := by
    intro i hi
    rw [h3 i]
    have := hP i hi
    simp only [Option.getD_none, div_one]
    positivity
  have := C42_bounds w n T frequency _ hT hf hd hw
  rw [h1] at this
  simpa [thermalFromPower] using this

/-- C127, violated: for molecular dynamics in equipartition (mean square mass weighted velocities `p k`, one for each coordinate of the MD cell, whose sum is `modes * cells * k_B T` in the units of the velocities) the
number of states should be 1; the unit of the spectra makes it 1.0213 to 1.0214, for every temperature and crystal. -/
theorem C127_integration_violated (hT : 0 < T) (hN : 0 < nSize) (hm : 0 < modes) (projected : Option ℝ) (K : ℕ) (p : ℕ → ℝ)
    (heq : ∑ k ∈ range K, p k = modes * nSize * (kbEnergy * T)) (harea : simps w n P = unitConversion * (∑ k ∈ range K, p k) / 2) :
    1.02129 ≤ (thermalFromPower w n T frequency P nSize modes projected false).integration ∧
    (thermalFromPower w n T frequency P nSize modes projected false).integration ≤ 1.02141 := by
  rw [(C127_integration w n T frequency P nSize modes hT hN hm projected).1, harea, heq]
  have hk := kB_pos
  have e : jPerEv * (unitConversion * (modes * nSize * (kbEnergy * T)) / 2) / (modes * nSize * (kB * T / 2)) = jPerEv * unitConversion * kbEnergy / kB := by
    field_simp
  rw [e]
  unfold jPerEv unitConversion kbEnergy kB
  constructor <;> norm_num

/-- C127: with Bose-Einstein statistics (`bose_einstein_statistics=True`) the density of states is the classical one times `k_B T` over the energy `h f (1/2 + n)` of the oscillator, so it is never larger and never negative
for a non-negative spectrum. -/
theorem C127_bose (hT : 0 < T) (hN : 0 < nSize) (i : ℕ) (hf : 0 < frequency i) :
    getDos T frequency P nSize true i * (hBar * frequency i * (1 / 2 + bose T (frequency i))) = getDos T frequency P nSize false i * (kB * T) ∧
    (0 ≤ P i → 0 ≤ getDos T frequency P nSize true i ∧ getDos T frequency P nSize true i ≤ getDos T frequency P nSize false i) := by
  have hk := kB_pos
  have hh := hBar_pos
  have hb := (bose_eq (T := T) (f := frequency i) hT hf).2.2.2
  have hbp : 0 < bose T (frequency i) := by
    rw [hb.2.1]; have := exp_pos (-(hBar * frequency i / (2 * kB * T))); have := hb.1; positivity
  have hE : 0 < hBar * frequency i * (0.5 + bose T (frequency i)) := by positivity
  have e5 : (0.5 : ℝ) = 1 / 2 := by norm_num
  have hge : kB * T ≤ hBar * frequency i * (1 / 2 + bose T (frequency i)) := by
    set y := frequency i * hBar / (kB * T) with hy
    have hy0 : 0 < y := by positivity
    have hfy : hBar * frequency i = y * (kB * T) := by rw [hy]; field_simp
    have hexp : 0 < exp y - 1 := by have := add_one_lt_exp hy0.ne'; linarith
    have hbe : bose T (frequency i) = (exp y - 1)⁻¹ := rfl
    rw [hbe, hfy]
    have h1 := two_mul_exp_sub_one_le y hy0.le
    have h2 : y * (1 / 2 + (exp y - 1)⁻¹) = y * (exp y + 1) / (2 * (exp y - 1)) := by field_simp; ring
    have h3 : 1 ≤ y * (1 / 2 + (exp y - 1)⁻¹) := by rw [h2, le_div_iff₀ (by positivity)]; linarith
    nlinarith [mul_pos hk hT]
  refine ⟨?_, fun hP => ?_⟩
  · unfold getDos
    simp only [Bool.false_eq_true, if_false, if_true]
    rw [e5] at hE ⊢
    field_simp
  · unfold getDos
    simp only [Bool.false_eq_true, if_false, if_true]
    rw [e5] at hE ⊢
    constructor
    · positivity
    · gcongr

/-- C75: with `normalize_dos` and a projection onto an atom the density of states that is used integrates to the number of modes divided by the number of primitive atoms, and so does the reported integral. -/
theorem C75_projected {F : Type*} (dosOf : Option F → ℕ → ℝ) (hm : modes ≠ 0) (p : ℝ) (hp : p ≠ 0) (fc : Option F) (h0 : simps w n (dosOf fc) ≠ 0) :
    ∃ dos : ℕ → ℝ, simps w n dos = modes / p ∧ (∀ i, dos i = modes / p * (dosOf fc i / simps w n (dosOf fc))) ∧
      let r := getThermalProperties w n T frequency dosOf modes (some p) fc true
      r.integration = 1 / p ∧ r.cv = getCv w n T frequency dos ∧ r.entropy = getEntropy w n T frequency dos := by
  refine ⟨fun i => dosOf fc i / (simps w n (dosOf fc) / modes) / p, ?_, fun i => by field_simp, rfl, rfl, rfl⟩
  have : (fun i => dosOf fc i / (simps w n (dosOf fc) / modes) / p) = fun i => (modes / p / simps w n (dosOf fc)) * dosOf fc i := by
    funext i; field_simp
  rw [this, simps_mul]
  field_simp

/-- The hypotheses of the theorems are met: two frequencies, a crystal with three modes in eight cells in equipartition at 300 K. -/
example : ∃ (w frequency P p : ℕ → ℝ), (∀ i < 2, 0 ≤ w i) ∧ (∀ i < 2, 0 < frequency i) ∧ (∀ i < 2, 0 ≤ P i) ∧ simps w 2 P ≠ 0 ∧
    ∑ k ∈ range 24, p k = 3 * 8 * (kbEnergy * 300) ∧ simps w 2 P = unitConversion * (∑ k ∈ range 24, p k) / 2 := by
  have hk : 0 < kbEnergy := by unfold kbEnergy; norm_num
  have hu : 0 < unitConversion := by unfold unitConversion; norm_num
  refine ⟨fun _ => 1, fun i => i + 1, fun _ => unitConversion * (3 * 8 * (kbEnergy * 300)) / 4, fun _ => kbEnergy * 300, fun _ _ => by norm_num, fun i _ => by positivity, fun _ _ => by positivity, ?_, ?_, ?_⟩
  · unfold simps
    simp
    exact ⟨hu.ne', hk.ne'⟩
  · rw [sum_const, card_range, nsmul_eq_mul]; norm_num
  · unfold simps; rw [sum_const, sum_const, card_range, card_range, nsmul_eq_mul, nsmul_eq_mul]; push_cast; ring

end Verif
