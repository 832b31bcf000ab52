import Verif.Model.LammpsCell
import Verif.Model.Supercell
import Mathlib.Tactic.LinearCombination
import Mathlib.Tactic.Positivity

/-! # C57: the LAMMPS cell describes the same crystal -/

set_option autoImplicit false

namespace Verif

open Matrix

/-- Specification: the cell LAMMPS builds from `xlo=ylo=zlo=0`, `xhi, yhi, zhi` and the tilts `xy, xz, yz` (LAMMPS documentation, "Triclinic simulation boxes": `a = (xhi-xlo, 0, 0)`, `b = (xy, yhi-ylo, 0)`,
`c = (xz, yz, zhi-zlo)`), vectors in the rows. -/
def lammpsBoxCell (n : ℝ × ℝ × ℝ × ℝ × ℝ × ℝ) : Matrix (Fin 3) (Fin 3) ℝ :=
  !![n.1, 0, 0; n.2.2.2.1, n.2.1, 0; n.2.2.2.2.1, n.2.2.2.2.2, n.2.2.1]

theorem norm3_sq (v : Fin 3 → ℝ) : norm3 v ^ 2 = v ⬝ᵥ v := by
  unfold norm3
  refine Real.sq_sqrt ?_
  rw [dotProduct]
  exact Finset.sum_nonneg fun i _ => mul_self_nonneg _

theorem norm3_nonneg (v : Fin 3 → ℝ) : 0 ≤ norm3 v := Real.sqrt_nonneg _

theorem norm3_pos (v : Fin 3 → ℝ) (h : v ≠ 0) : 0 < norm3 v := by
  refine lt_of_le_of_ne (norm3_nonneg v) fun h0 => h ?_
  have h1 := norm3_sq v
  rw [← h0] at h1
  have h2 : ∑ i, v i * v i = 0 := by rw [← dotProduct, ← h1]; norm_num
  rw [Finset.sum_eq_zero_iff_of_nonneg fun i _ => mul_self_nonneg _] at h2
  funext i
  exact mul_self_eq_zero.1 (h2 i (Finset.mem_univ i))

theorem lagrange3 (u b : Fin 3 → ℝ) : crossProduct u b ⬝ᵥ crossProduct u b = (u ⬝ᵥ u) * (b ⬝ᵥ b) - (b ⬝ᵥ u) ^ 2 := by
  simp [cross_apply, dotProduct, Fin.sum_univ_three]
  ring

theorem gram3 (u b c : Fin 3 → ℝ) : (Matrix.det (Matrix.of ![u, b, c])) ^ 2 =
    (u ⬝ᵥ u) * ((b ⬝ᵥ b) * (c ⬝ᵥ c) - (b ⬝ᵥ c) ^ 2) - (b ⬝ᵥ u) * ((b ⬝ᵥ u) * (c ⬝ᵥ c) - (b ⬝ᵥ c) * (c ⬝ᵥ u)) + (c ⬝ᵥ u) * ((b ⬝ᵥ u) * (b ⬝ᵥ c) - (b ⬝ᵥ b) * (c ⬝ᵥ u)) := by
  simp [Matrix.det_fin_three, dotProduct, Fin.sum_univ_three]
  ring

theorem rows_eq (cell : Matrix (Fin 3) (Fin 3) ℝ) : Matrix.of ![cell 0, cell 1, cell 2] = cell := by
  ext i j; fin_cases i <;> rfl

/-- The squares behind the six numbers. -/
theorem lammps_numbers (cell : Matrix (Fin 3) (Fin 3) ℝ) (hdet : cell.det ≠ 0) (u : Fin 3 → ℝ) (hu : u = (norm3 (cell 0))⁻¹ • cell 0) (by' cy : ℝ)
    (hby : by' = norm3 (crossProduct u (cell 1))) (hcy : cy = (cell 1 ⬝ᵥ cell 2 - (cell 1 ⬝ᵥ u) * (cell 2 ⬝ᵥ u)) / by') :
    0 < norm3 (cell 0) ∧ u ⬝ᵥ u = 1 ∧ norm3 (cell 0) * (cell 1 ⬝ᵥ u) = cell 1 ⬝ᵥ cell 0 ∧ norm3 (cell 0) * (cell 2 ⬝ᵥ u) = cell 2 ⬝ᵥ cell 0 ∧
    by' ^ 2 = cell 1 ⬝ᵥ cell 1 - (cell 1 ⬝ᵥ u) ^ 2 ∧ 0 < by' ∧ 0 < cell 2 ⬝ᵥ cell 2 - (cell 2 ⬝ᵥ u) ^ 2 - cy ^ 2 := by
  have h0 : cell 0 ≠ 0 := by
    intro h
    exact hdet (Matrix.det_eq_zero_of_row_eq_zero 0 fun j => congrFun h j)
  have hn := norm3_pos _ h0
  have hsq := norm3_sq (cell 0)
  have huu : u ⬝ᵥ u = 1 := by
    rw [hu, smul_dotProduct, dotProduct_smul, ← hsq]
    simp only [smul_eq_mul]
    field_simp
  have hb : norm3 (cell 0) * (cell 1 ⬝ᵥ u) = cell 1 ⬝ᵥ cell 0 := by
    rw [hu, dotProduct_smul, smul_eq_mul]; field_simp
  have hc : norm3 (cell 0) * (cell 2 ⬝ᵥ u) = cell 2 ⬝ᵥ cell 0 := by
    rw [hu, dotProduct_smul, smul_eq_mul]; field_simp
  have hby2 : by' ^ 2 = cell 1 ⬝ᵥ cell 1 - (cell 1 ⬝ᵥ u) ^ 2 := by
    rw [hby, norm3_sq, lagrange3, huu, one_mul]
  have hdet' : 0 < (Matrix.det (Matrix.of ![u, cell 1, cell 2])) ^ 2 := by
    have e : Matrix.of ![u, cell 1, cell 2] = Matrix.updateRow cell 0 ((norm3 (cell 0))⁻¹ • cell 0) := by
      rw [← hu]; ext i j; fin_cases i <;> simp [Matrix.updateRow_apply]
    rw [e, Matrix.det_updateRow_smul, Matrix.updateRow_eq_self]
    have : (norm3 (cell 0))⁻¹ * cell.det ≠ 0 := mul_ne_zero (inv_ne_zero hn.ne') hdet
    positivity
  have hg := gram3 u (cell 1) (cell 2)
  rw [huu] at hg
  have hg' : (Matrix.det (Matrix.of ![u, cell 1, cell 2])) ^ 2 = by' ^ 2 * (cell 2 ⬝ᵥ cell 2 - (cell 2 ⬝ᵥ u) ^ 2) - (cell 1 ⬝ᵥ cell 2 - (cell 1 ⬝ᵥ u) * (cell 2 ⬝ᵥ u)) ^ 2 := by
    rw [hg, hby2]; ring
  have hbp : 0 < by' := by
    refine lt_of_le_of_ne (by rw [hby]; exact norm3_nonneg _) fun h => ?_
    rw [← h] at hg'
    nlinarith [sq_nonneg (cell 1 ⬝ᵥ cell 2 - (cell 1 ⬝ᵥ u) * (cell 2 ⬝ᵥ u))]
  refine ⟨hn, huu, hb, hc, hby2, hbp, ?_⟩
  have e : cell 2 ⬝ᵥ cell 2 - (cell 2 ⬝ᵥ u) ^ 2 - cy ^ 2 = (Matrix.det (Matrix.of ![u, cell 1, cell 2])) ^ 2 / by' ^ 2 := by
    rw [hg', hcy]; field_simp
  rw [e]; positivity

/-- **C57**: the lower triangular LAMMPS cell has positive diagonal and the lengths and angles of the cell (same Gram matrix). -/
theorem C57_gram (cell : Matrix (Fin 3) (Fin 3) ℝ) (hdet : cell.det ≠ 0) :
    lammpsCellT cell * (lammpsCellT cell)ᵀ = cell * cellᵀ ∧ (∀ i, 0 < lammpsCellT cell i i) ∧ ∀ i j, i < j → lammpsCellT cell i j = 0 := by
  obtain ⟨h1, h2, h3, h4, h5, h6, h7⟩ := lammps_numbers cell hdet _ rfl _ _ rfl rfl
  set u := (norm3 (cell 0))⁻¹ • cell 0 with hu
  have hsq := norm3_sq (cell 0)
  have h8 := Real.sq_sqrt h7.le
  have h9 := Real.sqrt_pos.2 h7
  unfold lammpsCellT
  simp only [← hu]
  set by' := norm3 (crossProduct u (cell 1)) with hby
  have h10 : by' * ((cell 1 ⬝ᵥ cell 2 - cell 1 ⬝ᵥ u * cell 2 ⬝ᵥ u) / by') = cell 1 ⬝ᵥ cell 2 - cell 1 ⬝ᵥ u * cell 2 ⬝ᵥ u := by field_simp
  set cy := (cell 1 ⬝ᵥ cell 2 - cell 1 ⬝ᵥ u * cell 2 ⬝ᵥ u) / by' with hcy
  set cz := Real.sqrt (cell 2 ⬝ᵥ cell 2 - (cell 2 ⬝ᵥ u) ^ 2 - cy ^ 2) with hcz
  have hG : ∀ i j, (cell * cellᵀ) i j = cell i ⬝ᵥ cell j := fun i j => by rw [Matrix.mul_apply]; rfl
  refine ⟨?_, ?_, ?_⟩
  · ext i j
    rw [hG, Matrix.mul_apply, Fin.sum_univ_three]
    have c01 := dotProduct_comm (cell 0) (cell 1)
    have c02 := dotProduct_comm (cell 0) (cell 2)
    have c12 := dotProduct_comm (cell 1) (cell 2)
    fin_cases i <;> fin_cases j <;> simp <;> linarith
  · intro i
    fin_cases i
    · simpa using h1
    · simpa using h6
    · simpa using h9
  · intro i j hij
    fin_cases i <;> fin_cases j <;> first | rfl | (exact absurd hij (by decide))

/-- **C57**: the positions are turned together with the cell: the lattice vectors become the LAMMPS lattice vectors, and all distances and angles are kept. -/
theorem C57_rotation (cell : Matrix (Fin 3) (Fin 3) ℝ) (hdet : cell.det ≠ 0) :
    (∀ i, lammpsPosition cell (cell i) = lammpsCellT cell i) ∧
    (∀ p q r : Fin 3 → ℝ, (lammpsPosition cell p - lammpsPosition cell r) ⬝ᵥ (lammpsPosition cell q - lammpsPosition cell r) = (p - r) ⬝ᵥ (q - r)) ∧
    ∀ p q : Fin 3 → ℝ, lammpsPosition cell (p + q) = lammpsPosition cell p + lammpsPosition cell q := by
  have hu : IsUnit cell.det := isUnit_iff_ne_zero.2 hdet
  have hT : transCell cell * (transCell cell)ᵀ = 1 := by
    unfold transCell
    rw [Matrix.transpose_mul, Matrix.mul_assoc, ← Matrix.mul_assoc (lammpsCellT cell), (C57_gram cell hdet).1, ← Matrix.mul_assoc, ← Matrix.mul_assoc,
      Matrix.nonsing_inv_mul _ hu, Matrix.one_mul, Matrix.transpose_nonsing_inv, Matrix.mul_nonsing_inv _ (by rwa [Matrix.det_transpose])]
  refine ⟨fun i => ?_, fun p q r => ?_, fun p q => Matrix.add_vecMul _ _ _⟩
  · unfold lammpsPosition transCell
    have : vecMul (cell i) (cell⁻¹ * lammpsCellT cell) = (cell * (cell⁻¹ * lammpsCellT cell)) i := by
      ext j; rw [Matrix.mul_apply]; rfl
    rw [this, ← Matrix.mul_assoc, Matrix.mul_nonsing_inv _ hu, Matrix.one_mul]
  · unfold lammpsPosition
    rw [← Matrix.sub_vecMul, ← Matrix.sub_vecMul, ← Matrix.dotProduct_mulVec, ← Matrix.vecMul_transpose, Matrix.vecMul_vecMul, hT, Matrix.vecMul_one]

theorem cos_arccos_dot (v w : Fin 3 → ℝ) (hv : 0 < norm3 v) (hw : 0 < norm3 w) : norm3 v * norm3 w * Real.cos (Real.arccos (v ⬝ᵥ w / (norm3 v * norm3 w))) = v ⬝ᵥ w := by
  have hcs : (v ⬝ᵥ w) ^ 2 ≤ (norm3 v * norm3 w) ^ 2 := by
    rw [mul_pow, norm3_sq, norm3_sq]
    have := lagrange3 v w
    have h0 : 0 ≤ crossProduct v w ⬝ᵥ crossProduct v w := by
      rw [dotProduct]; exact Finset.sum_nonneg fun i _ => mul_self_nonneg _
    rw [dotProduct_comm w v] at this
    linarith
  have hp : 0 < norm3 v * norm3 w := mul_pos hv hw
  have habs := abs_le_of_sq_le_sq' hcs hp.le
  rw [Real.cos_arccos]
  · field_simp
  · rw [le_div_iff₀ hp]; linarith [habs.1]
  · rw [div_le_iff₀ hp]; linarith [habs.2]

/-- **C57**: the box written in the file is that cell. -/
theorem C57_box (cell : Matrix (Fin 3) (Fin 3) ℝ) (hdet : cell.det ≠ 0) : lammpsBoxCell (lammpsBoxNumbers cell) = lammpsCellT cell := by
  obtain ⟨h1, h2, h3, h4, h5, h6, h7⟩ := lammps_numbers cell hdet _ rfl _ _ rfl rfl
  set u := (norm3 (cell 0))⁻¹ • cell 0 with hu
  have hne : ∀ i, 0 < norm3 (cell i) := fun i => norm3_pos _ fun h => hdet (Matrix.det_eq_zero_of_row_eq_zero i fun j => congrFun h j)
  have g1 : norm3 (cell 1) * Real.cos (Real.arccos (cell 1 ⬝ᵥ cell 0 / (norm3 (cell 0) * norm3 (cell 1)))) = cell 1 ⬝ᵥ u := by
    have := cos_arccos_dot (cell 1) (cell 0) (hne 1) (hne 0)
    rw [mul_comm (norm3 (cell 1)) (norm3 (cell 0)), ← h3, mul_assoc] at this
    rw [← h3]
    exact mul_left_cancel₀ h1.ne' this
  have g2 : norm3 (cell 2) * Real.cos (Real.arccos (cell 2 ⬝ᵥ cell 0 / (norm3 (cell 0) * norm3 (cell 2)))) = cell 2 ⬝ᵥ u := by
    have := cos_arccos_dot (cell 2) (cell 0) (hne 2) (hne 0)
    rw [mul_comm (norm3 (cell 2)) (norm3 (cell 0)), ← h4, mul_assoc] at this
    rw [← h4]
    exact mul_left_cancel₀ h1.ne' this
  have g3 : norm3 (cell 1) * norm3 (cell 2) * Real.cos (Real.arccos (cell 1 ⬝ᵥ cell 2 / (norm3 (cell 2) * norm3 (cell 1)))) = cell 1 ⬝ᵥ cell 2 := by
    rw [mul_comm (norm3 (cell 2))]
    exact cos_arccos_dot (cell 1) (cell 2) (hne 1) (hne 2)
  have g4 : Real.sqrt (cell 1 ⬝ᵥ cell 1 - (cell 1 ⬝ᵥ u) ^ 2) = norm3 (crossProduct u (cell 1)) := by
    rw [← h5, Real.sqrt_sq h6.le]
  unfold lammpsBoxNumbers cellParameters lammpsCellT lammpsBoxCell
  simp only [← hu, g1, g2, g3, norm3_sq, g4]
  set by' := norm3 (crossProduct u (cell 1))
  set cy := (cell 1 ⬝ᵥ cell 2 - cell 1 ⬝ᵥ u * cell 2 ⬝ᵥ u) / by'
  set xy := cell 1 ⬝ᵥ u
  set xz := cell 2 ⬝ᵥ u
  have e1 : (if 0 < xz then (if 0 < xy then norm3 (cell 0) + max (max (max 0 xy) xz) (xy + xz) - xy else norm3 (cell 0) + max (max (max 0 xy) xz) (xy + xz)) - xz
      else (if 0 < xy then norm3 (cell 0) + max (max (max 0 xy) xz) (xy + xz) - xy else norm3 (cell 0) + max (max (max 0 xy) xz) (xy + xz))) = norm3 (cell 0) := by
    have hm : max (max (max 0 xy) xz) (xy + xz) = max 0 xy + max 0 xz := by
      rcases le_total 0 xy with a | a <;> rcases le_total 0 xz with b | b <;> simp [max_eq_left, max_eq_right, a, b] <;> linarith
    rw [hm]
    split_ifs with a b b
    · rw [max_eq_right a.le, max_eq_right b.le]; ring
    · rw [max_eq_right a.le, max_eq_left (not_lt.1 b)]; ring
    · rw [max_eq_left (not_lt.1 a), max_eq_right b.le]; ring
    · rw [max_eq_left (not_lt.1 a), max_eq_left (not_lt.1 b)]; ring
  have e2 : (if 0 < cy then by' + max 0 cy - cy else by' + max 0 cy) = by' := by
    split_ifs with a
    · rw [max_eq_right a.le]; ring
    · rw [max_eq_left (not_lt.1 a)]; ring
  rw [e1, e2]

/-- The hypothesis of C57 holds for a triclinic cell with tilts of both signs. -/
example : (!![2, 1, 0; -1, 3, 1; 1, -1, 4] : Matrix (Fin 3) (Fin 3) ℝ).det ≠ 0 := by
  rw [Matrix.det_fin_three]; simp; norm_num

/-- **C57 fails for supercells of non-orthogonal cells**: the cell used is `get_cell(supercell)` (C04), so the written cell has not the lengths and angles of the supercell `diag(s) cell`. -/
theorem C57_supercell_violated : ¬ ∀ (cell : Matrix (Fin 3) (Fin 3) ℝ) (s : Fin 3 → ℕ), cell.det ≠ 0 → (∀ i, 0 < s i) →
    lammpsCellT (getCellSupercell cell s) * (lammpsCellT (getCellSupercell cell s))ᵀ = diagflatCell cell s * (diagflatCell cell s)ᵀ := by
  intro h
  have h1 := h !![1, 0, 0; 1, 1, 0; 0, 0, 1] ![2, 1, 1] (by rw [Matrix.det_fin_three]; simp) (by intro i; fin_cases i <;> simp)
  rw [(C57_gram _ (by
    unfold getCellSupercell
    rw [Matrix.det_mul, Matrix.det_fin_three, Matrix.det_diagonal]; simp [Fin.prod_univ_three])).1] at h1
  have e1 : getCellSupercell !![1, 0, 0; 1, 1, 0; 0, 0, 1] ![2, 1, 1] = (!![2, 0, 0; 2, 1, 0; 0, 0, 1] : Matrix (Fin 3) (Fin 3) ℝ) := by
    ext i j; unfold getCellSupercell; rw [Matrix.mul_diagonal]; fin_cases i <;> fin_cases j <;> simp
  have e2 : diagflatCell !![1, 0, 0; 1, 1, 0; 0, 0, 1] ![2, 1, 1] = (!![2, 0, 0; 1, 1, 0; 0, 0, 1] : Matrix (Fin 3) (Fin 3) ℝ) := by
    ext i j; unfold diagflatCell; rw [Matrix.diagonal_mul]; fin_cases i <;> fin_cases j <;> simp
  rw [e1, e2] at h1
  have h2 := congrFun (congrFun h1 1) 1
  simp [Matrix.mul_apply, Fin.sum_univ_three] at h2
  norm_num at h2

/-- **C57** for supercells: right whenever `get_cell(supercell)` is the supercell (see C04). -/
theorem C57_supercell_partial (cell : Matrix (Fin 3) (Fin 3) ℝ) (s : Fin 3 → ℕ) (hdet : cell.det ≠ 0) (hs : ∀ i, 0 < s i) (hok : getCellSupercell cell s = diagflatCell cell s) :
    lammpsBoxCell (lammpsBoxNumbers (getCellSupercell cell s)) * (lammpsBoxCell (lammpsBoxNumbers (getCellSupercell cell s)))ᵀ = diagflatCell cell s * (diagflatCell cell s)ᵀ := by
  have hd : (getCellSupercell cell s).det ≠ 0 := by
    unfold getCellSupercell
    rw [Matrix.det_mul, Matrix.det_diagonal]
    exact mul_ne_zero hdet (Finset.prod_ne_zero_iff.2 fun i _ => by exact_mod_cast (hs i).ne')
  rw [C57_box _ hd, (C57_gram _ hd).1, hok]

end Verif
