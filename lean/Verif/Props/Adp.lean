import Verif.Model.Adp
import Verif.Props.Averages
import Mathlib.Tactic.FieldSimp
import Mathlib.Tactic.Ring
import Mathlib.Tactic.Linarith
import Mathlib.LinearAlgebra.Matrix.PosDef
import Mathlib.LinearAlgebra.Matrix.Notation
import Mathlib.Tactic.FinCases

/-! # C67: anisotropic displacement parameters -/

set_option autoImplicit false
set_option linter.unusedSectionVars false

namespace Verif

/-- The average of the products of the displacements `d` (the tensor in the basis in which they are given). -/
noncomputable def covariance (ds : List (Fin 3 → ℝ)) : Matrix (Fin 3) (Fin 3) ℝ :=
  Matrix.of fun i j => (ds.map fun d => d i * d j).sum / ds.length

/-- `f` are the fractional coordinates of the cartesian vector `v`: `v = f 0 • a + f 1 • b + f 2 • c`. -/
def IsFractional (cell : Matrix (Fin 3) (Fin 3) ℝ) (f v : Fin 3 → ℝ) : Prop := ∀ k, v k = ∑ i, f i * cell i k

theorem covariance_mul (A : Matrix (Fin 3) (Fin 3) ℝ) (ds : List (Fin 3 → ℝ)) : covariance (ds.map fun d => A.mulVec d) = A * covariance ds * A.transpose := by
  ext i j
  unfold covariance
  simp only [Matrix.of_apply, List.map_map, List.length_map, Function.comp_def, Matrix.mul_apply, Matrix.transpose_apply, Matrix.mulVec, dotProduct, Fin.sum_univ_three]
  have : ∀ ds : List (Fin 3 → ℝ), (ds.map fun d => (A i 0 * d 0 + A i 1 * d 1 + A i 2 * d 2) * (A j 0 * d 0 + A j 1 * d 1 + A j 2 * d 2)).sum =
      (A i 0 * (ds.map fun d => d 0 * d 0).sum + A i 1 * (ds.map fun d => d 1 * d 0).sum + A i 2 * (ds.map fun d => d 2 * d 0).sum) * A j 0 +
      (A i 0 * (ds.map fun d => d 0 * d 1).sum + A i 1 * (ds.map fun d => d 1 * d 1).sum + A i 2 * (ds.map fun d => d 2 * d 1).sum) * A j 1 +
      (A i 0 * (ds.map fun d => d 0 * d 2).sum + A i 1 * (ds.map fun d => d 1 * d 2).sum + A i 2 * (ds.map fun d => d 2 * d 2).sum) * A j 2 := by
    intro ds
    induction ds with
    | nil => simp
    | cons d t ih => simp only [List.map_cons, List.sum_cons, ih]; ring
  rw [this]
  ring

/-- **C67**: the crystallographic tensor of displacements `ds` is the same average for their fractional coordinates. -/
theorem C67_fractional (cell : Matrix (Fin 3) (Fin 3) ℝ) (hc : cell.det ≠ 0) (ds fs : List (Fin 3 → ℝ)) (h : List.Forall₂ (IsFractional cell) fs ds) :
    adpCrys cell (covariance ds) = covariance fs := by
  have hu : IsUnit cell.det := isUnit_iff_ne_zero.2 hc
  have hd : ds = fs.map fun f => cell.transpose.mulVec f := by
    induction h with
    | nil => rfl
    | cons h _ ih =>
      rw [List.map_cons, ← ih]
      congr 1
      funext k
      rw [h k]
      simp only [Matrix.mulVec, dotProduct, Matrix.transpose_apply]
      exact Finset.sum_congr rfl fun i _ => mul_comm _ _
  rw [hd, covariance_mul]
  unfold adpCrys
  rw [Matrix.transpose_transpose, ← Matrix.mul_assoc, ← Matrix.mul_assoc, ← Matrix.transpose_mul, Matrix.mul_nonsing_inv cell hu, Matrix.transpose_one, Matrix.one_mul, Matrix.mul_assoc,
    Matrix.mul_nonsing_inv cell hu, Matrix.mul_one]

theorem posSemidef_conj (A u : Matrix (Fin 3) (Fin 3) ℝ) (hu : u.PosSemidef) : (A.transpose * u * A).PosSemidef := by
  have := hu.conjTranspose_mul_mul_same A
  rwa [Matrix.conjTranspose_eq_transpose_of_trivial] at this

/-- **C67**: for every cell and every symmetric positive semidefinite cartesian tensor, both tensors are symmetric and positive semidefinite. -/
theorem C67_posSemidef (cell u : Matrix (Fin 3) (Fin 3) ℝ) (hu : u.PosSemidef) : (adpCrys cell u).PosSemidef ∧ (adpUvrs cell u).PosSemidef ∧
    (adpCrys cell u).transpose = adpCrys cell u ∧ (adpUvrs cell u).transpose = adpUvrs cell u := by
  have h1 : (adpCrys cell u).PosSemidef := posSemidef_conj (cell⁻¹) u hu
  have h2 : (adpUvrs cell u).PosSemidef := by
    have := posSemidef_conj ((Matrix.diagonal (adpNorm cell))⁻¹).transpose _ h1
    rwa [Matrix.transpose_transpose] at this
  refine ⟨h1, h2, ?_, ?_⟩
  · have := h1.1; rwa [Matrix.IsHermitian, Matrix.conjTranspose_eq_transpose_of_trivial] at this
  · have := h2.1; rwa [Matrix.IsHermitian, Matrix.conjTranspose_eq_transpose_of_trivial] at this

/-- The average of products is positive semidefinite, so `C67_posSemidef` applies to all data. -/
theorem covariance_posSemidef (ds : List (Fin 3 → ℝ)) : (covariance ds).PosSemidef := by
  rw [Matrix.posSemidef_iff_dotProduct_mulVec]
  constructor
  · unfold Matrix.IsHermitian
    ext i j
    simp only [Matrix.conjTranspose_apply, covariance, Matrix.of_apply, star_trivial]
    congr 2
    exact List.map_congr_left fun d _ => mul_comm _ _
  · intro x
    have : dotProduct (star x) ((covariance ds).mulVec x) = (ds.map fun d => (dotProduct x d) ^ 2).sum / ds.length := by
      simp only [dotProduct, Matrix.mulVec, covariance, Matrix.of_apply, Fin.sum_univ_three, star_trivial]
      have : ∀ ds : List (Fin 3 → ℝ), (ds.map fun d => (x 0 * d 0 + x 1 * d 1 + x 2 * d 2) ^ 2).sum =
          x 0 * ((ds.map fun d => d 0 * d 0).sum * x 0 + (ds.map fun d => d 0 * d 1).sum * x 1 + (ds.map fun d => d 0 * d 2).sum * x 2) +
          x 1 * ((ds.map fun d => d 1 * d 0).sum * x 0 + (ds.map fun d => d 1 * d 1).sum * x 1 + (ds.map fun d => d 1 * d 2).sum * x 2) +
          x 2 * ((ds.map fun d => d 2 * d 0).sum * x 0 + (ds.map fun d => d 2 * d 1).sum * x 1 + (ds.map fun d => d 2 * d 2).sum * x 2) := by
        intro ds
        induction ds with
        | nil => simp
        | cons d t ih => simp only [List.map_cons, List.sum_cons, ih]; ring
      rw [this]
      ring
    rw [this]
    refine div_nonneg (List.sum_nonneg fun y hy => ?_) (Nat.cast_nonneg _)
    obtain ⟨d, -, rfl⟩ := List.mem_map.1 hy
    exact sq_nonneg _

theorem diag_inv (a : Fin 3 → ℝ) (ha : ∀ i, a i ≠ 0) : (Matrix.diagonal a)⁻¹ = Matrix.diagonal fun i => (a i)⁻¹ := by
  apply Matrix.inv_eq_right_inv
  rw [Matrix.diagonal_mul_diagonal]
  rw [← Matrix.diagonal_one]
  congr 1
  funext i
  exact mul_inv_cancel₀ (ha i)

/-- Entries: `U_ij = u_crys_ij / (a*_i a*_j)` with the lengths of the reciprocal vectors. -/
theorem adpUvrs_apply (cell u : Matrix (Fin 3) (Fin 3) ℝ) (hc : cell.det ≠ 0) (i j : Fin 3) : adpUvrs cell u i j = adpCrys cell u i j / (adpNorm cell i * adpNorm cell j) := by
  have hpos : ∀ i, adpNorm cell i ≠ 0 := by
    intro i h0
    unfold adpNorm at h0
    rw [Real.sqrt_eq_zero (Finset.sum_nonneg fun _ _ => sq_nonneg _)] at h0
    rw [Finset.sum_eq_zero_iff_of_nonneg fun _ _ => sq_nonneg _] at h0
    have hcol : ∀ k, cell⁻¹ k i = 0 := fun k => by
      have := h0 k (Finset.mem_univ k); rw [Matrix.transpose_apply] at this; exact pow_eq_zero_iff (two_ne_zero) |>.1 this
    have h1 := congrFun (congrFun (Matrix.mul_nonsing_inv cell (isUnit_iff_ne_zero.2 hc)) i) i
    rw [Matrix.mul_apply, Matrix.one_apply_eq] at h1
    simp [hcol] at h1
  unfold adpUvrs
  simp only [diag_inv _ hpos, Matrix.diagonal_transpose]
  rw [Matrix.mul_diagonal, Matrix.diagonal_mul]
  field_simp [hpos i, hpos j]

/-- **C67**: in an orthogonal cell along the cartesian axes (`cell = diag(a)`, `a > 0`) the `uvrs` tensor is the cartesian one. -/
theorem C67_orthogonal (a : Fin 3 → ℝ) (ha : ∀ i, 0 < a i) (u : Matrix (Fin 3) (Fin 3) ℝ) : adpUvrs (Matrix.diagonal a) u = u := by
  have hdet : (Matrix.diagonal a).det ≠ 0 := by rw [Matrix.det_diagonal]; exact Finset.prod_ne_zero_iff.2 fun i _ => (ha i).ne'
  ext i j
  have hn : ∀ i, adpNorm (Matrix.diagonal a) i = (a i)⁻¹ := by
    intro i
    unfold adpNorm
    rw [diag_inv a fun i => (ha i).ne', Matrix.diagonal_transpose]
    rw [Finset.sum_eq_single i (fun k _ hk => by rw [Matrix.diagonal_apply_ne _ hk.symm]; ring) (by simp), Matrix.diagonal_apply_eq]
    exact Real.sqrt_sq (inv_nonneg.2 (ha i).le)
  rw [adpUvrs_apply _ _ hdet, hn, hn]
  unfold adpCrys
  rw [diag_inv a fun i => (ha i).ne', Matrix.diagonal_transpose, Matrix.mul_diagonal, Matrix.diagonal_mul]
  have := (ha i).ne'
  have := (ha j).ne'
  field_simp

/-- **C67**: the `uvrs` tensor does not depend on the lengths of the lattice vectors, only on their directions: it is the tensor in the basis of the unit reciprocal vectors. -/
theorem C67_scale (cell u : Matrix (Fin 3) (Fin 3) ℝ) (hc : cell.det ≠ 0) (a : Fin 3 → ℝ) (ha : ∀ i, 0 < a i) : adpUvrs (Matrix.diagonal a * cell) u = adpUvrs cell u := by
  have hD : (Matrix.diagonal a).det ≠ 0 := by rw [Matrix.det_diagonal]; exact Finset.prod_ne_zero_iff.2 fun i _ => (ha i).ne'
  have hdet : (Matrix.diagonal a * cell).det ≠ 0 := by rw [Matrix.det_mul]; exact mul_ne_zero hD hc
  have hinv : (Matrix.diagonal a * cell)⁻¹ = cell⁻¹ * Matrix.diagonal fun i => (a i)⁻¹ := by
    rw [Matrix.mul_inv_rev, diag_inv a fun i => (ha i).ne']
  have hn : ∀ i, adpNorm (Matrix.diagonal a * cell) i = (a i)⁻¹ * adpNorm cell i := by
    intro i
    unfold adpNorm
    rw [hinv]
    simp only [Matrix.transpose_apply, Matrix.mul_diagonal, mul_pow]
    rw [← Finset.sum_mul, Real.sqrt_mul (Finset.sum_nonneg fun _ _ => sq_nonneg _), Real.sqrt_sq (inv_nonneg.2 (ha i).le), mul_comm]
  have hcr : ∀ i j, adpCrys (Matrix.diagonal a * cell) u i j = (a i)⁻¹ * (a j)⁻¹ * adpCrys cell u i j := by
    intro i j
    unfold adpCrys
    rw [hinv, Matrix.transpose_mul, Matrix.diagonal_transpose, ← Matrix.mul_assoc, Matrix.mul_diagonal, Matrix.mul_assoc, Matrix.mul_assoc, Matrix.diagonal_mul, ← Matrix.mul_assoc]
    ring
  ext i j
  rw [adpUvrs_apply _ _ hdet, adpUvrs_apply _ _ hc, hn, hn, hcr]
  have h1 := (ha i).ne'
  have h2 := (ha j).ne'
  rw [show (a i)⁻¹ * adpNorm cell i * ((a j)⁻¹ * adpNorm cell j) = (a i)⁻¹ * (a j)⁻¹ * (adpNorm cell i * adpNorm cell j) by ring]
  rw [mul_div_mul_left _ _ (mul_ne_zero (inv_ne_zero h1) (inv_ne_zero h2))]

/-- **C67** for the tensors of a trajectory: for all types, supercells and frames, the tensors that are reported (from average positions) are symmetric and positive semidefinite in all coordinates. -/
theorem C67_trajectory (types supercell : List ℕ) (frames : List (ℕ → Fin 3 → ℂ)) (hne : frames ≠ []) (T : ℕ) (hT : ∀ v, v ∈ types ↔ v < T) (t : ℕ) (ht : t < T) (cell : Matrix (Fin 3) (Fin 3) ℝ) :
    let u := meanDisplacementMatrix types supercell frames (types.length * supercell.prod) true t
    (adpCrys cell u).PosSemidef ∧ (adpUvrs cell u).PosSemidef :=
  have h := C67_posSemidef cell _ (C20_posSemidef types supercell frames hne T hT t ht true)
  ⟨h.1, h.2.1⟩

/-- The hypotheses of `C67_fractional` in a sheared cell. -/
example : (!![1, 0, 0; 1/2, 1, 0; 0, 0, 2] : Matrix (Fin 3) (Fin 3) ℝ).det ≠ 0 ∧ List.Forall₂ (IsFractional !![1, 0, 0; 1/2, 1, 0; 0, 0, 2]) [![1, 1, 0]] [![3/2, 1, 0]] := by
  constructor
  · rw [Matrix.det_fin_three]; simp
  · refine List.Forall₂.cons (fun k => ?_) List.Forall₂.nil
    fin_cases k <;> simp [Fin.sum_univ_three] <;> norm_num

end Verif
