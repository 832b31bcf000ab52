import Verif.Model.Orthonormal
import Verif.Props.PhonopyLink
import Mathlib.LinearAlgebra.Matrix.ConjTranspose
import Mathlib.Analysis.Complex.Norm
import Mathlib.Tactic.NormNum
import Mathlib.Tactic.Ring
import Mathlib.Algebra.BigOperators.Field
import Mathlib.Tactic.FinCases
import Mathlib.Algebra.BigOperators.Fin

/-! # C139: the test of orthonormality of the eigenvectors -/

set_option autoImplicit false

namespace Verif

/-! ## Specification -/

/-- The scalar product of the modes `a` and `b`, which are columns: the sum over the coordinates of one component times the conjugate of the other. -/
noncomputable def modeProduct {n : ℕ} (E : Matrix (Fin n) (Fin n) ℂ) (a b : Fin n) : ℂ := ∑ i, E i a * (starRingEnd ℂ) (E i b)

/-- The modes are orthonormal. -/
def OrthonormalModes {n : ℕ} (E : Matrix (Fin n) (Fin n) ℂ) : Prop := ∀ a b, modeProduct E a b = if a = b then 1 else 0

theorem printedProducts_apply {n : ℕ} (E : Matrix (Fin n) (Fin n) ℂ) (a b : Fin n) : printedProducts E a b = (modeProduct E a b).re := by
  simp [printedProducts, modeProduct, Matrix.mul_apply]

theorem orthonormalModes_iff {n : ℕ} (E : Matrix (Fin n) (Fin n) ℂ) : OrthonormalModes E ↔ E.conjTranspose * E = 1 := by
  constructor
  · intro h
    ext b a
    have := h a b
    rw [Matrix.mul_apply, Matrix.one_apply]
    simp only [Matrix.conjTranspose_apply]
    rw [show (if b = a then (1 : ℂ) else 0) = if a = b then 1 else 0 by simp only [eq_comm], ← this]
    unfold modeProduct
    exact Finset.sum_congr rfl fun i _ => by rw [mul_comm]; rfl
  · intro h a b
    have := congrFun (congrFun h b) a
    rw [Matrix.mul_apply, Matrix.one_apply] at this
    simp only [Matrix.conjTranspose_apply] at this
    rw [show (if a = b then (1 : ℂ) else 0) = if b = a then 1 else 0 by simp only [eq_comm], ← this]
    unfold modeProduct
    exact Finset.sum_congr rfl fun i _ => by rw [mul_comm]; rfl

theorem evRowNorm_of_orthonormal {n : ℕ} (E : Matrix (Fin n) (Fin n) ℂ) (h : OrthonormalModes E) (i : Fin n) : evRowNorm E i = 1 := by
  have h1 : E * E.conjTranspose = 1 := mul_eq_one_comm.mp ((orthonormalModes_iff E).1 h)
  have h2 := congrFun (congrFun h1 i) i
  rw [Matrix.mul_apply, Matrix.one_apply_eq] at h2
  have h3 : ((∑ j, ‖E i j‖ ^ 2 : ℝ) : ℂ) = 1 := by
    rw [← h2]
    push_cast
    refine Finset.sum_congr rfl fun j _ => ?_
    rw [Matrix.conjTranspose_apply, Complex.star_def, Complex.mul_conj']
  have h4 : (∑ j, ‖E i j‖ ^ 2 : ℝ) = 1 := by exact_mod_cast h3
  rw [evRowNorm, h4, Real.sqrt_one]

/-- **C139**: with orthonormal modes the test changes nothing and prints the unit matrix: the returned eigenvectors are the same with the test and without it. For all numbers of atoms and dimensions. -/
theorem C139_orthonormal (na nd : ℕ) (E : Matrix (Fin (na * nd)) (Fin (na * nd)) ℂ) (h : OrthonormalModes E) :
    (obtainEigenvectors na nd true E).1 = some 1 ∧ (obtainEigenvectors na nd true E).2 = (obtainEigenvectors na nd false E).2 := by
  have hn : normalizeRows E = E := by
    ext i j
    simp [normalizeRows, evRowNorm_of_orthonormal E h i]
  simp only [obtainEigenvectors, if_true, hn, Bool.false_eq_true, if_false, and_true, Option.some.injEq]
  ext a b
  rw [printedProducts_apply, h a b, Matrix.one_apply]
  split <;> simp

/-- **C139**: the returned eigenvectors are the modes of phonopy, component by component, without the test for every matrix, and with the test if the modes are orthonormal: the component of mode `m` on atom
`j` along the axis `k`. -/
theorem C139_components (na nd : ℕ) (test : Bool) (E : Matrix (Fin (na * nd)) (Fin (na * nd)) ℂ) (h : test = false ∨ OrthonormalModes E) (m : Fin (na * nd)) (j k : ℕ) (hj : j < na) (hk : k < nd)
    (hjk : j * nd + k < na * nd) :
    ((((obtainEigenvectors na nd test E).2[m.1]?).bind (·[j]?)).bind (·[k]?)) = some (E ⟨j * nd + k, hjk⟩ m) := by
  have e : (obtainEigenvectors na nd test E).2 = (obtainEigenvectors na nd false E).2 := by
    cases test with
    | false => rfl
    | true =>
      rcases h with h | h
      · exact absurd h (by decide)
      · exact (C139_orthonormal na nd E h).2
  rw [e]
  have := (C64_roundtrip na nd (tableOf E) m.1 m.1 m.2 m.2).2 m.1 j k m.2 hj hk
  simp only [obtainEigenvectors, Bool.false_eq_true, if_false]
  rw [this, tableOf, dif_pos ⟨hjk, m.2⟩]

theorem normalizeRows_unit {n : ℕ} (E : Matrix (Fin n) (Fin n) ℂ) (i : Fin n) (h : ∃ j, E i j ≠ 0) : ∑ j, ‖normalizeRows E i j‖ ^ 2 = 1 := by
  have hpos : 0 < ∑ j, ‖E i j‖ ^ 2 := by
    obtain ⟨j, hj⟩ := h
    exact Finset.sum_pos' (fun _ _ => by positivity) ⟨j, Finset.mem_univ j, by positivity⟩
  have hs : evRowNorm E i ^ 2 = ∑ j, ‖E i j‖ ^ 2 := Real.sq_sqrt hpos.le
  simp only [normalizeRows, Matrix.of_apply, norm_div, Complex.norm_real, div_pow, Real.norm_eq_abs, sq_abs]
  rw [← Finset.sum_div, hs, div_self hpos.ne']

/-- **C139**: the trace of the printed matrix is the number of modes whatever the eigenvectors are (no coordinate of which is zero in all modes), so that it carries no information. -/
theorem C139_trace (na nd : ℕ) (E : Matrix (Fin (na * nd)) (Fin (na * nd)) ℂ) (h : ∀ i, ∃ j, E i j ≠ 0) (P : Matrix (Fin (na * nd)) (Fin (na * nd)) ℝ)
    (hP : (obtainEigenvectors na nd true E).1 = some P) : ∑ a, P a a = na * nd := by
  simp only [obtainEigenvectors, if_true, Option.some.injEq] at hP
  subst hP
  have : ∀ a, printedProducts (normalizeRows E) a a = ∑ i, ‖normalizeRows E i a‖ ^ 2 := by
    intro a
    rw [printedProducts_apply, modeProduct, Complex.re_sum]
    refine Finset.sum_congr rfl fun i _ => ?_
    rw [Complex.mul_conj']
    rw [← Complex.ofReal_pow, Complex.ofReal_re]
  rw [Finset.sum_congr rfl fun a _ => this a, Finset.sum_comm, Finset.sum_congr rfl fun i _ => normalizeRows_unit E i (h i)]
  simp

/-- **C139**: for real eigenvectors the test is exact: it prints the unit matrix exactly if the modes it returns are orthonormal. -/
theorem C139_real (na nd : ℕ) (E : Matrix (Fin (na * nd)) (Fin (na * nd)) ℝ) :
    (obtainEigenvectors na nd true (E.map (fun x => (x : ℂ)))).1 = some 1 ↔ OrthonormalModes (normalizeRows (E.map (fun x => (x : ℂ)))) := by
  have him : ∀ a b, (modeProduct (normalizeRows (E.map (fun x => (x : ℂ)))) a b).im = 0 := by
    intro a b
    rw [modeProduct, Complex.im_sum]
    refine Finset.sum_eq_zero fun i _ => ?_
    simp only [normalizeRows, Matrix.of_apply, Matrix.map_apply, ← Complex.ofReal_div, Complex.conj_ofReal, ← Complex.ofReal_mul, Complex.ofReal_im]
  simp only [obtainEigenvectors, if_true, Option.some.injEq]
  constructor
  · intro h a b
    have h1 := congrFun (congrFun h a) b
    rw [printedProducts_apply, Matrix.one_apply] at h1
    apply Complex.ext
    · rw [h1]; split <;> simp
    · rw [him]; split <;> simp
  · intro h
    ext a b
    rw [printedProducts_apply, h a b, Matrix.one_apply]
    split <;> simp

/-- Two modes that are orthogonal, the first of length `2 * sqrt 2`, the second of length `sqrt 2`. -/
def scaledModes : Matrix (Fin (1 * 2)) (Fin (1 * 2)) ℂ := Matrix.of ![![2, 1], ![2, -1]]

theorem evRowNorm_scaledModes (i : Fin (1 * 2)) : evRowNorm scaledModes i = Real.sqrt 5 := by
  unfold evRowNorm scaledModes
  congr 1
  fin_cases i <;> simp [Fin.sum_univ_two] <;> norm_num

/-- **C139** fails: "making sure eigenvectors are orthonormal" is not what the normalization does, because it divides the rows (coordinates) and not the columns (modes): orthogonal modes that are not of unit
length are returned with lengths that are not one, and the relative amplitudes within the test are not those of the modes. -/
theorem C139_scaled_violated : modeProduct scaledModes 0 1 = 0 ∧ ¬ OrthonormalModes (normalizeRows scaledModes) ∧ modeProduct (normalizeRows scaledModes) 0 0 = 8 / 5 := by
  have h5 : ((Real.sqrt 5 : ℝ) : ℂ) ^ 2 = 5 := by
    rw [← Complex.ofReal_pow, Real.sq_sqrt (by norm_num)]; norm_num
  have h : modeProduct (normalizeRows scaledModes) 0 0 = 8 / 5 := by
    simp only [modeProduct, normalizeRows, Matrix.of_apply, evRowNorm_scaledModes]
    rw [Fin.sum_univ_two]
    simp only [scaledModes, Matrix.of_apply, Matrix.cons_val_zero, Matrix.cons_val_one, map_div₀, Complex.conj_ofReal, map_ofNat, ← sq, div_pow, h5]
    norm_num
  refine ⟨?_, fun ho => ?_, h⟩
  · simp [modeProduct, scaledModes, Fin.sum_univ_two]
  · have := ho 0 0
    rw [h] at this
    norm_num at this

/-- Twice the same mode, the second multiplied by the imaginary unit. -/
noncomputable def sameModes : Matrix (Fin (1 * 2)) (Fin (1 * 2)) ℂ := Matrix.of ![![1, Complex.I], ![1, Complex.I]]

theorem evRowNorm_sameModes (i : Fin (1 * 2)) : evRowNorm sameModes i = Real.sqrt 2 := by
  unfold evRowNorm sameModes
  congr 1
  fin_cases i <;> simp [Fin.sum_univ_two] <;> norm_num

/-- **C139** fails: only the real part of the products is printed, so the unit matrix does not mean that the modes are orthonormal: for two modes that are the same up to a phase the unit matrix is printed. -/
theorem C139_phase_violated : (obtainEigenvectors 1 2 true sameModes).1 = some 1 ∧ (∀ i, normalizeRows sameModes i 1 = Complex.I * normalizeRows sameModes i 0) ∧
    ¬ OrthonormalModes (normalizeRows sameModes) := by
  have h2 : ((Real.sqrt 2 : ℝ) : ℂ) ^ 2 = 2 := by
    rw [← Complex.ofReal_pow, Real.sq_sqrt (by norm_num)]; norm_num
  have hp : ∀ a b, modeProduct (normalizeRows sameModes) a b = sameModes 0 a * (starRingEnd ℂ) (sameModes 0 b) := by
    intro a b
    simp only [modeProduct, normalizeRows, Matrix.of_apply, evRowNorm_sameModes]
    rw [Fin.sum_univ_two]
    have : sameModes 1 = sameModes 0 := by
      ext j; fin_cases j <;> simp [sameModes]
    rw [this]
    simp only [map_div₀, Complex.conj_ofReal, div_mul_div_comm, ← sq, h2]
    ring
  refine ⟨?_, ?_, fun ho => ?_⟩
  · simp only [obtainEigenvectors, if_true, Option.some.injEq]
    ext a b
    rw [printedProducts_apply, hp]
    fin_cases a <;> fin_cases b <;> simp [sameModes]
  · intro i
    simp only [normalizeRows, Matrix.of_apply, evRowNorm_sameModes]
    fin_cases i <;> simp [sameModes] <;> ring
  · have := ho 0 1
    rw [hp] at this
    simp [sameModes] at this

/-- The hypothesis of `C139_orthonormal` with complex modes. -/
noncomputable def circularModes : Matrix (Fin (1 * 2)) (Fin (1 * 2)) ℂ := Matrix.of ![![(3 / 5 : ℂ), 4 / 5 * Complex.I], ![4 / 5 * Complex.I, (3 / 5 : ℂ)]]

example : OrthonormalModes circularModes := by
  intro a b
  fin_cases a <;> fin_cases b <;> simp [modeProduct, circularModes, Fin.sum_univ_two, map_ofNat] <;> ring_nf <;> norm_num [Complex.I_sq]

end Verif
