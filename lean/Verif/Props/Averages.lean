import Verif.Model.Averages
import Verif.Model.Dynamics
import Verif.Util
import Verif.Props.Supercell
import Mathlib.Algebra.BigOperators.Field
import Mathlib.LinearAlgebra.Matrix.PosDef
import Mathlib.Tactic.NormNum.RealSqrt
import Mathlib.Algebra.Order.Floor.Ring

/-! # C15, C18, C19, C20, C71 -/

set_option autoImplicit false

namespace Verif

/-! ## C15 -/

theorem rowNorm_scaled_rotated {n : ℕ} (cell R : Matrix (Fin n) (Fin n) ℝ) (hR : R * R.transpose = 1)
    (s : Fin n → ℕ) (i : Fin n) :
    rowNorm (Matrix.diagonal (fun i => (s i : ℝ)) * cell * R) i = s i * rowNorm cell i := by
  unfold rowNorm
  have h1 : ∀ A : Matrix (Fin n) (Fin n) ℝ, ∑ j, A i j ^ 2 = (A * A.transpose) i i := by
    intro A; simp [Matrix.mul_apply, sq]
  rw [h1, Matrix.transpose_mul, Matrix.mul_assoc _ R, ← Matrix.mul_assoc R, hR, Matrix.one_mul, ← h1]
  have : ∀ j, (Matrix.diagonal (fun i => (s i : ℝ)) * cell) i j ^ 2 = (s i : ℝ) ^ 2 * cell i j ^ 2 := by
    intro j; rw [Matrix.diagonal_mul]; ring
  simp only [this, ← Finset.mul_sum]
  rw [Real.sqrt_mul (by positivity), Real.sqrt_sq (by positivity)]

/-- C15: if the MD cell is `diag(s)` times the unit cell, in any orientation, the multiplicities are returned, for every
non-negative tolerance, every dimension and every unit cell without zero vectors. -/
theorem C15_exact {n : ℕ} (cell R : Matrix (Fin n) (Fin n) ℝ) (hR : R * R.transpose = 1)
    (hcell : ∀ i, ∃ j, cell i j ≠ 0) (s : Fin n → ℕ) (tol : ℝ) (htol : 0 ≤ tol) :
    supercellMatrix (Matrix.diagonal (fun i => (s i : ℝ)) * cell * R) cell tol = some (fun i => (s i : ℤ)) := by
  have hpos : ∀ i, rowNorm cell i ≠ 0 := by
    intro i
    obtain ⟨j, hj⟩ := hcell i
    unfold rowNorm
    rw [Real.sqrt_ne_zero']
    exact lt_of_lt_of_le (by positivity) (Finset.single_le_sum (f := fun j => cell i j ^ 2)
      (fun k _ => sq_nonneg _) (Finset.mem_univ j))
  have hreal : ∀ i, rowNorm (Matrix.diagonal (fun i => (s i : ℝ)) * cell * R) i / rowNorm cell i = s i := by
    intro i
    rw [rowNorm_scaled_rotated cell R hR, mul_div_assoc, div_self (hpos i), mul_one]
  unfold supercellMatrix
  simp only [hreal, roundEven_natCast, Int.cast_natCast, sub_self, add_zero]
  have h0 : ∀ l : List (Fin n), l.foldl (fun (acc : ℝ) _ => acc) 0 = 0 := by
    intro l; induction l with
    | nil => rfl
    | cons x l ih => exact ih
  rw [h0]
  simp [not_lt.mpr htol]

/-- C15: when the program stops, precisely. With all deviations of the same sign (in particular if a single ratio is
not an integer), a relative deviation above the tolerance is detected. -/
theorem C15_stop_partial {n : ℕ} (mdCell cell : Matrix (Fin n) (Fin n) ℝ) (tol : ℝ)
    (hsign : (∀ i, (roundEven (rowNorm mdCell i / rowNorm cell i) : ℝ) ≤ rowNorm mdCell i / rowNorm cell i) ∨
      ∀ i, rowNorm mdCell i / rowNorm cell i ≤ (roundEven (rowNorm mdCell i / rowNorm cell i) : ℝ))
    (i : Fin n)
    (hdev : tol * Real.sqrt (∑ i, (rowNorm mdCell i / rowNorm cell i) ^ 2)
      < |(roundEven (rowNorm mdCell i / rowNorm cell i) : ℝ) - rowNorm mdCell i / rowNorm cell i|)
    (hne : ∃ i, rowNorm mdCell i / rowNorm cell i ≠ 0) :
    supercellMatrix mdCell cell tol = none := by
  unfold supercellMatrix
  simp only
  rw [if_pos]
  obtain ⟨i0, hi0⟩ := hne
  have hS : 0 < Real.sqrt (∑ i, (rowNorm mdCell i / rowNorm cell i) ^ 2) := by
    rw [Real.sqrt_pos]
    exact lt_of_lt_of_le (by positivity) (Finset.single_le_sum
      (f := fun i => (rowNorm mdCell i / rowNorm cell i) ^ 2) (fun k _ => sq_nonneg _) (Finset.mem_univ i0))
  rw [abs_div, abs_of_pos hS, gt_iff_lt, lt_div_iff₀ hS]
  refine lt_of_lt_of_le hdev ?_
  rw [foldl_add_list, zero_add]
  have hsum : ((List.finRange n).map fun i => ((roundEven (rowNorm mdCell i / rowNorm cell i) : ℝ)
      - rowNorm mdCell i / rowNorm cell i)).sum = ∑ i, ((roundEven (rowNorm mdCell i / rowNorm cell i) : ℝ)
      - rowNorm mdCell i / rowNorm cell i) := by rw [Fin.sum_univ_def]
  rw [hsum]
  rcases hsign with h | h
  · rw [abs_of_nonpos (by linarith [h i]), abs_of_nonpos (Finset.sum_nonpos fun i _ => by linarith [h i])]
    rw [neg_le_neg_iff, ← Finset.add_sum_erase _ _ (Finset.mem_univ i)]
    have : ∑ x ∈ Finset.univ.erase i, ((roundEven (rowNorm mdCell x / rowNorm cell x) : ℝ)
      - rowNorm mdCell x / rowNorm cell x) ≤ 0 := Finset.sum_nonpos fun i _ => by linarith [h i]
    linarith
  · rw [abs_of_nonneg (by linarith [h i]), abs_of_nonneg (Finset.sum_nonneg fun i _ => by linarith [h i])]
    exact Finset.single_le_sum (f := fun i => ((roundEven (rowNorm mdCell i / rowNorm cell i) : ℝ)
      - rowNorm mdCell i / rowNorm cell i)) (fun i _ => by linarith [h i]) (Finset.mem_univ i)

/-- C15, exactly: the program goes on if and only if the deviations of the ratios from the multiplicities, added up with their signs, are small against the length of
the vector of ratios; the multiplicities are then the integers next to the ratios. -/
theorem C15_iff {n : ℕ} (mdCell cell : Matrix (Fin n) (Fin n) ℝ) (tol : ℝ) (hne : ∃ i, rowNorm mdCell i / rowNorm cell i ≠ 0) (m : Fin n → ℤ) :
    supercellMatrix mdCell cell tol = some m ↔ (∀ i, m i = roundEven (rowNorm mdCell i / rowNorm cell i)) ∧
      |∑ i, ((m i : ℝ) - rowNorm mdCell i / rowNorm cell i)| ≤ tol * Real.sqrt (∑ i, (rowNorm mdCell i / rowNorm cell i) ^ 2) := by
  obtain ⟨i0, hi0⟩ := hne
  have hS : 0 < Real.sqrt (∑ i, (rowNorm mdCell i / rowNorm cell i) ^ 2) := by
    rw [Real.sqrt_pos]
    exact lt_of_lt_of_le (by positivity) (Finset.single_le_sum
      (f := fun i => (rowNorm mdCell i / rowNorm cell i) ^ 2) (fun k _ => sq_nonneg _) (Finset.mem_univ i0))
  have hsum : ((List.finRange n).map fun i => ((roundEven (rowNorm mdCell i / rowNorm cell i) : ℝ)
      - rowNorm mdCell i / rowNorm cell i)).sum = ∑ i, ((roundEven (rowNorm mdCell i / rowNorm cell i) : ℝ)
      - rowNorm mdCell i / rowNorm cell i) := by rw [Fin.sum_univ_def]
  unfold supercellMatrix
  simp only
  rw [foldl_add_list, zero_add, hsum, abs_div, abs_of_pos hS]
  constructor
  · intro h
    split_ifs at h with hc
    simp only [Option.some.injEq] at h
    subst h
    rw [gt_iff_lt, lt_div_iff₀ hS] at hc
    exact ⟨fun _ => rfl, not_lt.1 hc⟩
  · rintro ⟨h1, h2⟩
    obtain rfl : m = fun i => roundEven (rowNorm mdCell i / rowNorm cell i) := funext h1
    rw [if_neg (by rw [gt_iff_lt, lt_div_iff₀ hS]; exact not_lt.2 h2)]

/-- C15, negation: for every tolerance, an MD cell of 1+x by 2-x unit cells (x below one half) is accepted as 1 × 2, because the two deviations cancel. -/
theorem C15_violated (x tol : ℝ) (hx : 0 ≤ x) (hx' : x < 1 / 2) (htol : 0 ≤ tol) :
    supercellMatrix (!![1 + x, 0; 0, 2 - x] : Matrix (Fin 2) (Fin 2) ℝ) 1 tol = some ![1, 2] := by
  have h0 : rowNorm (!![1 + x, 0; 0, 2 - x] : Matrix (Fin 2) (Fin 2) ℝ) 0 = 1 + x := by
    unfold rowNorm; simp [Fin.sum_univ_two]
    rw [Real.sqrt_sq (by linarith)]
  have h1 : rowNorm (!![1 + x, 0; 0, 2 - x] : Matrix (Fin 2) (Fin 2) ℝ) 1 = 2 - x := by
    unfold rowNorm; simp [Fin.sum_univ_two]
    rw [Real.sqrt_sq (by linarith)]
  have u : ∀ i, rowNorm (1 : Matrix (Fin 2) (Fin 2) ℝ) i = 1 := by
    intro i; unfold rowNorm; simp [Matrix.one_apply]
  have r0 : roundEven (1 + x) = 1 := roundEven_eq_of_near (by rw [abs_lt]; push_cast; constructor <;> linarith)
  have r1 : roundEven (2 - x) = 2 := roundEven_eq_of_near (by rw [abs_lt]; push_cast; constructor <;> linarith)
  rw [C15_iff _ _ _ ⟨0, by rw [h0, u]; norm_num; linarith⟩]
  constructor
  · intro i
    fin_cases i
    · simp [u, h0, r0]
    · simp [u, h1, r1]
  · rw [Fin.sum_univ_two, u, u, h0, h1]
    have : ((![1, 2] : Fin 2 → ℤ) 0 : ℝ) - (1 + x) / 1 + (((![1, 2] : Fin 2 → ℤ) 1 : ℝ) - (2 - x) / 1) = 0 := by
      simp
    rw [this, abs_zero]
    positivity

/-- C15_exact applies to the square cell of side 2 rotated by 90 degrees and multiplied by (2,3). -/
example : supercellMatrix (Matrix.diagonal (fun i => ((![2, 3] : Fin 2 → ℕ) i : ℝ)) * (!![2, 0; 0, 2]) * !![0, 1; -1, 0])
    (!![2, 0; 0, 2]) 0.01 = some (fun i => ((![2, 3] : Fin 2 → ℕ) i : ℤ)) := by
  refine C15_exact _ _ ?_ ?_ _ _ (by norm_num)
  · ext i j; fin_cases i <;> fin_cases j <;> simp [Matrix.mul_apply, Fin.sum_univ_two]
  · intro i; exact ⟨i, by fin_cases i <;> simp⟩

/-! ## C18 -/

/-- C18: entry by entry, the velocity is multiplied by the square root of the mass of the unit-cell atom `k` the atom
belongs to, at every position `j` inside the block of its images. -/
theorem C18_entry {d : ℕ} (masses : List ℝ) (supercell : List ℕ) (v : ℕ → Fin d → ℂ) (k j : ℕ) (m : ℝ)
    (hk : masses[k]? = some m) (hj : j < supercell.prod) (c : Fin d) :
    massWeighted (expandSupercell masses supercell) v (k * supercell.prod + j) c
      = v (k * supercell.prod + j) c * (Real.sqrt m : ℂ) := by
  unfold massWeighted
  rw [List.getD_eq_getElem?_getD, C02_block masses supercell k j hj, hk]
  rfl

/-- C18: the squared norm of the mass weighted velocity of a frame is twice the kinetic energy
`Σ_i m_i |v_i|²/2`. -/
theorem C18_kinetic {d : ℕ} (masses : List ℝ) (hm : ∀ m ∈ masses, 0 ≤ m) (v : ℕ → Fin d → ℂ) :
    ∑ i : Fin masses.length, ∑ k, ‖massWeighted masses v i k‖ ^ 2
      = 2 * ∑ i : Fin masses.length, masses[i] * (∑ k, ‖v i k‖ ^ 2) / 2 := by
  rw [Finset.mul_sum]
  apply Finset.sum_congr rfl
  intro i _
  have h0 : 0 ≤ masses[i] := hm _ (List.getElem_mem _)
  have : ∀ k, ‖massWeighted masses v i k‖ ^ 2 = masses[i] * ‖v i k‖ ^ 2 := by
    intro k
    unfold massWeighted
    rw [norm_mul, mul_pow, Complex.norm_real, Real.norm_eq_abs, sq_abs]
    have hg : masses.getD i 0 = masses[i] := by simp [List.getD_eq_getElem?_getD]
    rw [hg, Real.sq_sqrt h0, mul_comm]
  simp only [this, ← Finset.mul_sum]
  ring

example : ∃ (masses : List ℝ), masses.length = 2 ∧ ∀ m ∈ masses, 0 ≤ m := ⟨[69.7, 14], by simp, by
  intro m hm; simp at hm; rcases hm with h | h <;> rw [h] <;> norm_num⟩

/-! ## C19 -/

section
variable {K : Type*} [Field K] [LinearOrder K] [IsStrictOrderedRing K] [FloorRing K] {d : ℕ}

theorem wrapIntoCell_spec (cell : Matrix (Fin d) (Fin d) K) (h : cell.det ≠ 0) (p : Fin d → K) :
    (∃ z : Fin d → ℤ, wrapIntoCell cell p = p - Matrix.vecMul (fun i => (z i : K)) cell) ∧
    ∀ i, 0 ≤ Matrix.vecMul (wrapIntoCell cell p) cell⁻¹ i ∧ Matrix.vecMul (wrapIntoCell cell p) cell⁻¹ i ≤ 1 := by
  have hu : IsUnit cell.det := isUnit_iff_ne_zero.mpr h
  refine ⟨⟨_, rfl⟩, ?_⟩
  intro i
  unfold wrapIntoCell
  simp only
  rw [Matrix.sub_vecMul, Matrix.vecMul_vecMul, Matrix.mul_nonsing_inv _ hu, Matrix.vecMul_one]
  have hc : Matrix.mulVec (cell.transpose)⁻¹ (p - fun j => 1 / 2 * Matrix.vecMul (fun _ => (1 : K)) cell j)
      = fun i => Matrix.vecMul p cell⁻¹ i - 1 / 2 := by
    rw [← Matrix.transpose_nonsing_inv, Matrix.mulVec_transpose, Matrix.sub_vecMul]
    funext i
    have : (fun j => 1 / 2 * Matrix.vecMul (fun _ => (1 : K)) cell j)
        = (1 / 2 : K) • Matrix.vecMul (fun _ => (1 : K)) cell := by
      funext j; simp
    rw [this, Matrix.smul_vecMul, Matrix.vecMul_vecMul, Matrix.mul_nonsing_inv _ hu, Matrix.vecMul_one]
    simp
  rw [hc]
  have hr := roundEven_abs_sub (Matrix.vecMul p cell⁻¹ i - 1 / 2)
  rw [abs_le] at hr
  simp only [Pi.sub_apply]
  constructor <;> linarith [hr.1, hr.2]

/-- C19: the averaged position of atom `j` is its reference position plus its mean displacement up to a lattice vector
of the MD cell, and its fractional coordinates lie in [0,1]. -/
theorem C19_average (cell : Matrix (Fin d) (Fin d) K) (h : cell.det ≠ 0) (positions : ℕ → Fin d → K)
    (displacements : List (ℕ → Fin d → K)) (j : ℕ) :
    (∃ z : Fin d → ℤ, ∀ k, averagePosition cell positions displacements j k
      = positions j k + (displacements.map fun f => f j k).sum / displacements.length
        - ∑ i, (z i : K) * cell i k) ∧
    ∀ i, 0 ≤ Matrix.vecMul (averagePosition cell positions displacements j) cell⁻¹ i ∧
      Matrix.vecMul (averagePosition cell positions displacements j) cell⁻¹ i ≤ 1 := by
  obtain ⟨⟨z, hz⟩, hr⟩ := wrapIntoCell_spec cell h (averageFrames (K := K) displacements j + positions j)
  refine ⟨⟨z, ?_⟩, hr⟩
  intro k
  unfold averagePosition
  rw [hz]
  have hs : ∀ l : List (ℕ → Fin d → K), l.sum j k = (l.map fun f => f j k).sum := by
    intro l; induction l with
    | nil => rfl
    | cons x l ih => simp [ih]
  simp only [Pi.sub_apply, Pi.add_apply, averageFrames, Pi.smul_apply, smul_eq_mul, hs, Matrix.vecMul, dotProduct]
  rw [div_eq_mul_inv]
  ring

example : ∃ cell : Matrix (Fin 2) (Fin 2) ℚ, cell.det ≠ 0 := ⟨!![2, 1; 0, 3], by rw [Matrix.det_fin_two]; simp⟩

/-- number of atoms of type `t` in the expanded list -/
theorem card_type_expand (types supercell : List ℕ) (t : ℕ) :
    (((List.range (types.length * supercell.prod)).filter
      fun i => (expandSupercell types supercell).getD i 0 = t)).length = types.count t * supercell.prod := by
  have hl : types.length * supercell.prod = (expandSupercell types supercell).length := by
    unfold expandSupercell
    rw [length_flatMap_const _ supercell.prod _ (by simp), mul_comm]
  rw [hl]
  have gen : ∀ l : List ℕ, ((List.range l.length).filter fun i => l.getD i 0 = t).length = l.count t := by
    intro l
    rw [← List.countP_eq_length_filter, List.count, List.countP_eq_length_filter, List.countP_eq_length_filter]
    have : l.filter (fun x => x == t)
        = ((List.range l.length).filter fun i => l.getD i 0 = t).map (fun i => l.getD i 0) := by
      have e : l = (List.range l.length).map fun i => l.getD i 0 := by
        apply List.ext_getElem
        · simp
        · intro i h1 h2; simp [List.getD_eq_getElem?_getD, h1]
      conv_lhs => rw [e]
      rw [List.filter_map]
      congr 1
    rw [this, List.length_map]
  rw [gen]
  clear hl gen
  unfold expandSupercell
  induction types with
  | nil => simp
  | cons a l ih =>
    rw [List.flatMap_cons, List.count_append, ih, List.count_replicate, List.count_cons]
    by_cases h : a = t
    · simp [h]; ring
    · simp [h]

/-- C19 with `to_unit_cell=True`: what the code adds to the reference position of a unit-cell atom of type `t` is `k`
times the mean displacement of the atoms of type `t`, where `k` is the number of atoms of type `t` in the unit cell. -/
theorem averagedUnitCell_eq (types supercell : List ℕ) (hp : 0 < supercell.prod) (t : ℕ) (ht : t ∈ types)
    (averaged : ℕ → Fin d → K) :
    averagedUnitCell types supercell (types.length * supercell.prod) averaged t
      = (types.count t : K) • (((List.range (types.length * supercell.prod)).filter
          fun i => (expandSupercell types supercell).getD i 0 = t).length : K)⁻¹ •
        ∑ i ∈ (Finset.range (types.length * supercell.prod)).filter
          (fun i => (expandSupercell types supercell).getD i 0 = t), averaged i := by
  have hc : (types.count t : K) ≠ 0 := by
    have := List.count_pos_iff.mpr ht
    positivity
  have hp' : (supercell.prod : K) ≠ 0 := by positivity
  unfold averagedUnitCell
  rw [foldl_update_add (fun i => (expandSupercell types supercell).getD i 0)
    (fun i => ((supercell.prod : K)⁻¹) • averaged i), zero_add,
    sum_map_filter_range (fun i => ((supercell.prod : K)⁻¹) • averaged i)
      (fun i => (expandSupercell types supercell).getD i 0 = t), ← Finset.smul_sum, card_type_expand, smul_smul]
  congr 1
  push_cast
  field_simp

/-- C19 (to_unit_cell), the case where the property holds: the type has one atom in the unit cell. -/
theorem C19_unit_cell_partial (unitCell : Matrix (Fin d) (Fin d) K) (h : unitCell.det ≠ 0)
    (unitPositions : ℕ → Fin d → K) (types supercell : List ℕ) (hp : 0 < supercell.prod)
    (displacements : List (ℕ → Fin d → K)) (j : ℕ) (hj : j < types.length)
    (hone : types.count (types.getD j 0) = 1) :
    ∃ z : Fin d → ℤ, averagePositionUnitCell unitCell unitPositions types supercell (types.length * supercell.prod)
        displacements j
      = unitPositions j + (supercell.prod : K)⁻¹ • ∑ i ∈ (Finset.range (types.length * supercell.prod)).filter
          (fun i => (expandSupercell types supercell).getD i 0 = types.getD j 0),
            averageFrames (K := K) displacements i
        - Matrix.vecMul (fun i => (z i : K)) unitCell := by
  obtain ⟨⟨z, hz⟩, _⟩ := wrapIntoCell_spec unitCell h (averagedUnitCell types supercell (types.length * supercell.prod)
    (averageFrames (K := K) displacements) (types.getD j 0) + unitPositions j)
  refine ⟨z, ?_⟩
  unfold averagePositionUnitCell
  have hmem : types.getD j 0 ∈ types := by
    rw [List.getD_eq_getElem?_getD, List.getElem?_eq_getElem hj]; simp
  rw [hz, averagedUnitCell_eq types supercell hp _ hmem, card_type_expand, hone]
  simp [add_comm]

/-- C19 (to_unit_cell), negation: two equivalent atoms per unit cell, both displaced by 1/10 in every frame: the averaged
displacement of their type should be 1/10 but 2/10 is used, and the position is off by 1/10 modulo the cell. -/
theorem C19_unit_cell_violated :
    averagedUnitCell (d := 1) (K := ℚ) [0, 0] [1] 2 (fun _ _ => 1 / 10) 0 = fun _ => 2 / 10 := by
  funext k
  simp [averagedUnitCell, expandSupercell, List.range_succ]
  norm_num

end

/-! ## C20 -/

section
variable {d : ℕ}

theorem npUniqueCounts_getD (l : List ℕ) (T : ℕ) (h : ∀ v, v ∈ l ↔ v < T) (t : ℕ) (ht : t < T) :
    (npUniqueCounts l).getD t 0 = l.count t := by
  have hmax : ∀ l : List ℕ, ∀ v ∈ l, v ≤ l.foldr max 0 := by
    intro l
    induction l with
    | nil => simp
    | cons a l ih =>
      intro v hv
      simp only [List.foldr_cons]
      rcases List.mem_cons.mp hv with rfl | hv
      · exact le_max_left _ _
      · exact (ih v hv).trans (le_max_right _ _)
  have hf : ((List.range (l.foldr max 0 + 1)).filter fun v => v ∈ l) = List.range T := by
    have hT : T ≤ l.foldr max 0 + 1 := by
      rcases Nat.eq_zero_or_pos T with h0 | h0
      · omega
      · have := hmax l (T - 1) ((h _).2 (by omega)); omega
    obtain ⟨k, hk⟩ := Nat.exists_eq_add_of_le hT
    rw [hk]
    have : ∀ k, ((List.range (T + k)).filter fun v => v ∈ l) = List.range T := by
      intro k
      induction k with
      | zero =>
        rw [Nat.add_zero, List.filter_eq_self]
        intro v hv; simpa [h] using hv
      | succ k ih =>
        rw [← Nat.add_assoc, List.range_succ, List.filter_append, ih]
        simp [h]
    exact this k
  unfold npUniqueCounts
  rw [hf]
  simp [List.getD_eq_getElem?_getD, List.getElem?_range ht]

/-- The set of atoms of the MD cell with type `t`. -/
def atomsOfType (types supercell : List ℕ) (t : ℕ) : Finset ℕ :=
  (Finset.range (types.length * supercell.prod)).filter fun i => (expandSupercell types supercell)[i]? = some t

theorem atomsOfType_eq (types supercell : List ℕ) (t : ℕ) :
    atomsOfType types supercell t = (Finset.range (types.length * supercell.prod)).filter
      (fun i => (expandSupercell types supercell).getD i 0 = t) := by
  apply Finset.filter_congr
  intro i hi
  have hl : types.length * supercell.prod = (expandSupercell types supercell).length := by
    unfold expandSupercell
    rw [length_flatMap_const _ supercell.prod _ (by simp), mul_comm]
  rw [Finset.mem_range, hl] at hi
  simp [List.getD_eq_getElem?_getD, hi]

theorem card_atomsOfType (types supercell : List ℕ) (t : ℕ) :
    (atomsOfType types supercell t).card = types.count t * supercell.prod := by
  rw [atomsOfType_eq, ← card_type_expand, Finset.card_eq_sum_ones,
    ← sum_map_filter_range (fun _ => 1) (fun i => (expandSupercell types supercell).getD i 0 = t)]
  simp

theorem meanDisplacementMatrix_eq (types supercell : List ℕ) (frames : List (ℕ → Fin d → ℂ)) (T : ℕ)
    (hT : ∀ v, v ∈ types ↔ v < T) (useAverage : Bool) (t : ℕ) (ht : t < T) :
    meanDisplacementMatrix types supercell frames (types.length * supercell.prod) useAverage t
      = (((atomsOfType types supercell t).card * frames.length : ℕ) : ℝ)⁻¹ •
        ∑ i ∈ atomsOfType types supercell t,
          displacementProduct frames (if useAverage then averageFrames (K := ℂ) frames else 0) i := by
  unfold meanDisplacementMatrix
  rw [foldl_update_add (fun i => (expandSupercell types supercell).getD i 0), zero_add,
    sum_map_filter_range _ (fun i => (expandSupercell types supercell).getD i 0 = t), ← atomsOfType_eq]
  have : ∀ i ∈ atomsOfType types supercell t,
      (((npUniqueCounts types).getD ((expandSupercell types supercell).getD i 0) 0 : ℕ) : ℝ)⁻¹ •
        displacementProduct frames (if useAverage then averageFrames (K := ℂ) frames else 0) i
      = ((types.count t : ℕ) : ℝ)⁻¹ •
        displacementProduct frames (if useAverage then averageFrames (K := ℂ) frames else 0) i := by
    intro i hi
    rw [atomsOfType_eq, Finset.mem_filter] at hi
    rw [hi.2, npUniqueCounts_getD types T hT t ht]
  rw [Finset.sum_congr rfl this, ← Finset.smul_sum, smul_smul, card_atomsOfType]
  congr 1
  push_cast
  rw [← mul_inv]
  ring

/-- C20: for every type, the result is the average of `Re(conj(d_a) d_b)` over the atoms of the type in the MD cell and
over the steps (the labels being 0..T-1, see C06_labels). -/
theorem C20_average (types supercell : List ℕ) (frames : List (ℕ → Fin d → ℂ)) (T : ℕ)
    (hT : ∀ v, v ∈ types ↔ v < T) (t : ℕ) (ht : t < T) (a b : Fin d) :
    meanDisplacementMatrix types supercell frames (types.length * supercell.prod) false t a b
      = (∑ i ∈ atomsOfType types supercell t, (frames.map fun f => (star (f i a) * f i b).re).sum)
        / ((atomsOfType types supercell t).card * frames.length) := by
  rw [meanDisplacementMatrix_eq types supercell frames T hT false t ht]
  simp only [Matrix.smul_apply, Matrix.sum_apply, smul_eq_mul, Bool.false_eq_true, if_false]
  rw [div_eq_inv_mul]
  congr 1
  · push_cast; rfl
  · apply Finset.sum_congr rfl
    intro i _
    have hre : ∀ l : List ℂ, l.sum.re = (l.map Complex.re).sum := by
      intro l; induction l with
      | nil => rfl
      | cons x l ih => simp [ih]
    simp [displacementProduct, hre, List.map_map, Function.comp_def]

theorem sum_dev (frames : List (ℕ → Fin d → ℂ)) (hne : frames ≠ []) (i : ℕ) (b : Fin d) :
    (frames.map fun f => f i b - averageFrames (K := ℂ) frames i b).sum = 0 := by
  have hs : ∀ l : List (ℕ → Fin d → ℂ), l.sum i b = (l.map fun f => f i b).sum := by
    intro l; induction l with
    | nil => rfl
    | cons x l ih => simp [ih]
  have hsub : ∀ (l : List (ℕ → Fin d → ℂ)) (c : ℂ),
      (l.map fun f => f i b - c).sum = (l.map fun f => f i b).sum - l.length * c := by
    intro l c; induction l with
    | nil => simp
    | cons x l ih => simp [ih]; ring
  rw [hsub, averageFrames, Pi.smul_apply, Pi.smul_apply, hs, smul_eq_mul]
  have : (frames.length : ℂ) ≠ 0 := by
    have := List.length_pos_iff.mpr hne
    exact_mod_cast this.ne'
  field_simp
  ring

/-- C20: with `use_average_positions=True` it is the covariance around the average position. -/
theorem C20_covariance (types supercell : List ℕ) (frames : List (ℕ → Fin d → ℂ)) (hne : frames ≠ []) (T : ℕ)
    (hT : ∀ v, v ∈ types ↔ v < T) (t : ℕ) (ht : t < T) (a b : Fin d) :
    meanDisplacementMatrix types supercell frames (types.length * supercell.prod) true t a b
      = (∑ i ∈ atomsOfType types supercell t, (frames.map fun f =>
          (star (f i a - (frames.map fun g => g i a).sum / frames.length) *
            (f i b - (frames.map fun g => g i b).sum / frames.length)).re).sum)
        / ((atomsOfType types supercell t).card * frames.length) := by
  rw [meanDisplacementMatrix_eq types supercell frames T hT true t ht]
  simp only [Matrix.smul_apply, Matrix.sum_apply, smul_eq_mul, if_true]
  rw [div_eq_inv_mul]
  congr 1
  · push_cast; rfl
  · apply Finset.sum_congr rfl
    intro i _
    have hre : ∀ l : List ℂ, l.sum.re = (l.map Complex.re).sum := by
      intro l; induction l with
      | nil => rfl
      | cons x l ih => simp [ih]
    have hs : ∀ (l : List (ℕ → Fin d → ℂ)) (c : Fin d), l.sum i c = (l.map fun f => f i c).sum := by
      intro l c; induction l with
      | nil => rfl
      | cons x l ih => simp [ih]
    have hav : ∀ c, (frames.map fun g => g i c).sum / frames.length = averageFrames (K := ℂ) frames i c := by
      intro c
      rw [averageFrames, Pi.smul_apply, Pi.smul_apply, hs, smul_eq_mul, div_eq_inv_mul]
    simp only [hav]
    have hre' : (frames.map fun f => (star (f i a - averageFrames (K := ℂ) frames i a) *
        (f i b - averageFrames (K := ℂ) frames i b)).re).sum
        = ((frames.map fun f => star (f i a - averageFrames (K := ℂ) frames i a) *
          (f i b - averageFrames (K := ℂ) frames i b)).sum).re := by
      rw [hre, List.map_map]; rfl
    rw [hre', displacementProduct]
    congr 1
    have key : ∀ (l : List (ℕ → Fin d → ℂ)) (ca cb : ℂ),
        (l.map fun f => star (f i a - ca) * (f i b - cb)).sum
          = (l.map fun f => star (f i a) * (f i b - cb)).sum - star ca * (l.map fun f => f i b - cb).sum := by
      intro l ca cb; induction l with
      | nil => simp
      | cons x l ih =>
        rw [List.map_cons, List.sum_cons, ih]
        simp only [List.map_cons, List.sum_cons, star_sub]; ring
    rw [key, sum_dev frames hne, mul_zero, sub_zero]

/-- C20: symmetric and positive semidefinite, for every trajectory, type and choice of the argument. -/
theorem C20_posSemidef (types supercell : List ℕ) (frames : List (ℕ → Fin d → ℂ)) (hne : frames ≠ []) (T : ℕ)
    (hT : ∀ v, v ∈ types ↔ v < T) (t : ℕ) (ht : t < T) (useAverage : Bool) :
    (meanDisplacementMatrix types supercell frames (types.length * supercell.prod) useAverage t).PosSemidef := by
  -- common form: average of Re(conj(g_a) g_b)
  have common : ∃ g : (ℕ → Fin d → ℂ) → ℕ → Fin d → ℂ, ∀ a b,
      meanDisplacementMatrix types supercell frames (types.length * supercell.prod) useAverage t a b
      = (∑ i ∈ atomsOfType types supercell t, (frames.map fun f => (star (g f i a) * g f i b).re).sum)
        / ((atomsOfType types supercell t).card * frames.length) := by
    cases useAverage with
    | false => exact ⟨id, C20_average types supercell frames T hT t ht⟩
    | true => exact ⟨fun f i a => f i a - (frames.map fun g => g i a).sum / frames.length,
        C20_covariance types supercell frames hne T hT t ht⟩
  obtain ⟨g, hg⟩ := common
  have hre : ∀ z w : ℂ, (star z * w).re = z.re * w.re + z.im * w.im := by
    intro z w; simp [Complex.mul_re]
  refine Matrix.PosSemidef.of_dotProduct_mulVec_nonneg ?_ ?_
  · ext a b
    rw [Matrix.conjTranspose_apply, hg, hg]
    simp only [hre, star_trivial]
    congr 1
    apply Finset.sum_congr rfl
    intro i _
    congr 1
    apply List.map_congr_left
    intro f _
    ring
  · intro x
    have : star x ⬝ᵥ Matrix.mulVec
        (meanDisplacementMatrix types supercell frames (types.length * supercell.prod) useAverage t) x
        = (∑ i ∈ atomsOfType types supercell t, (frames.map fun f =>
          (∑ a, x a * (g f i a).re) ^ 2 + (∑ a, x a * (g f i a).im) ^ 2).sum)
          / ((atomsOfType types supercell t).card * frames.length) := by
      have lin : ∀ (l : List (ℕ → Fin d → ℂ)) (i : ℕ),
          (l.map fun f => (∑ a, x a * (g f i a).re) ^ 2 + (∑ a, x a * (g f i a).im) ^ 2).sum
          = ∑ a, ∑ b, x a * x b * (l.map fun f => (star (g f i a) * g f i b).re).sum := by
        intro l i
        induction l with
        | nil => simp
        | cons f l ih =>
          simp only [List.map_cons, List.sum_cons, ih, mul_add, Finset.sum_add_distrib]
          congr 1
          rw [sq, sq, Finset.sum_mul_sum, Finset.sum_mul_sum, ← Finset.sum_add_distrib]
          apply Finset.sum_congr rfl; intro a _
          rw [← Finset.sum_add_distrib]
          apply Finset.sum_congr rfl; intro b _
          rw [hre]; ring
      simp only [lin]
      have e1 : ∀ a b, meanDisplacementMatrix types supercell frames (types.length * supercell.prod) useAverage t a b
          = ∑ i ∈ atomsOfType types supercell t, (frames.map fun f => (star (g f i a) * g f i b).re).sum
            / ((atomsOfType types supercell t).card * frames.length) := by
        intro a b; rw [hg, Finset.sum_div]
      simp only [dotProduct, Matrix.mulVec, e1, star_trivial, Finset.mul_sum, Finset.sum_mul, Finset.sum_div]
      symm
      rw [Finset.sum_comm]
      apply Finset.sum_congr rfl; intro a _
      rw [Finset.sum_comm]
      apply Finset.sum_congr rfl; intro b _
      apply Finset.sum_congr rfl; intro i _
      ring
    rw [this]
    apply div_nonneg
    · apply Finset.sum_nonneg
      intro i _
      apply List.sum_nonneg
      intro y hy
      obtain ⟨f, _, rfl⟩ := List.mem_map.mp hy
      positivity
    · positivity

/-- The hypotheses of the C20 theorems hold e.g. for three atoms of two types in a 2×1×1 supercell. -/
example : (∀ v, v ∈ [0, 1, 0] ↔ v < 2) ∧ atomsOfType [0, 1, 0] [2, 1, 1] 0 = {0, 1, 4, 5} := by
  refine ⟨?_, by decide⟩
  intro v; simp; omega

end

/-- C20: the first call computes the variant that was asked for. -/
theorem C20_first_call_partial {K F M : Type*} [Field K] [LinearOrder K] [IsStrictOrderedRing K] [FloorRing K]
    [AddCommGroup F] [Module K F] (env : DynEnv F M) (s : Dyn K F M) (h : s.meanDisp = none) (b : Bool) :
    (s.getMeanDisp env b).map Prod.fst = ((s.getRelative env).map Prod.fst).map fun r => env.meanDisp r b := by
  simp only [Dyn.getMeanDisp, h, Option.map_map]
  rfl

/-- C20, negation: every later call returns the variant of the first call, whatever its argument. -/
theorem C20_cache_violated {K F M : Type*} [Field K] [LinearOrder K] [IsStrictOrderedRing K] [FloorRing K]
    [AddCommGroup F] [Module K F] (env : DynEnv F M) (s s' : Dyn K F M) (m : M) (b b' : Bool)
    (h : s.getMeanDisp env b = some (m, s')) : (s'.getMeanDisp env b').map Prod.fst = some m := by
  unfold Dyn.getMeanDisp at h
  rcases hm : s.meanDisp with _ | m0
  · rw [hm] at h
    simp only [Option.map_eq_some_iff, Prod.exists, Prod.mk.injEq] at h
    obtain ⟨r, s1, _, rfl, rfl⟩ := h
    simp [Dyn.getMeanDisp]
  · rw [hm] at h
    simp only [Option.some.injEq, Prod.mk.injEq] at h
    obtain ⟨rfl, rfl⟩ := h
    simp [Dyn.getMeanDisp, hm]

/-! ## C71 -/

theorem norm_normalized {d : ℕ} (v : Fin d → ℝ) (hv : v ≠ 0) : ∑ k, normalized v k ^ 2 = 1 := by
  have hs : 0 < ∑ j, v j ^ 2 := by
    obtain ⟨i, hi⟩ := Function.ne_iff.mp hv
    have hi' : v i ≠ 0 := hi
    exact lt_of_lt_of_le (by positivity) (Finset.single_le_sum (f := fun j => v j ^ 2)
      (fun k _ => sq_nonneg _) (Finset.mem_univ i))
  unfold normalized
  simp only [div_pow, ← Finset.sum_div]
  rw [Real.sq_sqrt hs.le, div_self hs.ne']

theorem normalized_normalized {d : ℕ} (v : Fin d → ℝ) (hv : v ≠ 0) : normalized (normalized v) = normalized v := by
  funext i
  rw [normalized, norm_normalized v hv]
  simp

theorem normalized_smul {d : ℕ} (v : Fin d → ℝ) (c : ℝ) (hc : 0 < c) : normalized (c • v) = normalized v := by
  funext i
  unfold normalized
  simp only [Pi.smul_apply, smul_eq_mul, mul_pow, ← Finset.mul_sum]
  rw [Real.sqrt_mul (by positivity), Real.sqrt_sq hc.le]
  by_cases h : Real.sqrt (∑ j, v j ^ 2) = 0
  · simp [h]
  · field_simp

theorem trajectoryProjection_entry {d : ℕ} (frames : List (ℕ → Fin d → ℂ)) (typeIndex : List ℕ) (nAtoms nTypes : ℕ)
    (direction : Fin d → ℝ) (hd : direction ≠ 0) (j : ℕ) (hj : j < nTypes) :
    (trajectoryProjection frames typeIndex nAtoms nTypes direction)[j]? =
      some (((List.range nAtoms).filter fun i => typeIndex.getD i 0 = j).flatMap fun i =>
        frames.map fun f => ∑ k, (f i k).re * normalized direction k) := by
  unfold trajectoryProjection
  simp only [normalized_normalized direction hd]
  rw [List.getElem?_map, List.getElem?_range hj, Option.map_some]
  congr 1
  have gen : ∀ (l : List ℕ) (acc : List ℝ),
      l.foldl (fun projection i => if typeIndex.getD i 0 = j then
        projection ++ frames.map fun f => ∑ k, (f i k).re * normalized direction k else projection) acc
      = acc ++ (l.filter fun i => typeIndex.getD i 0 = j).flatMap fun i =>
        frames.map fun f => ∑ k, (f i k).re * normalized direction k := by
    intro l
    induction l with
    | nil => simp
    | cons x l ih =>
      intro acc
      rw [List.foldl_cons, ih]
      by_cases h : typeIndex.getD x 0 = j
      · rw [if_pos h, List.filter_cons_of_pos (by simpa using h), List.flatMap_cons, List.append_assoc]
      · rw [if_neg h, List.filter_cons_of_neg (by simpa using h)]
  rw [gen]; rfl

/-- C71: entry `j` consists of the components along the normalised direction of the displacements of the atoms of type
`j`: atom by atom in increasing order, and for each atom step by step. -/
theorem C71_values {d : ℕ} (frames : List (ℕ → Fin d → ℂ)) (typeIndex : List ℕ) (nTypes : ℕ)
    (direction : Fin d → ℝ) (hd : direction ≠ 0) (j : ℕ) (hj : j < nTypes) :
    (trajectoryProjection frames typeIndex typeIndex.length nTypes direction)[j]? =
      some (((List.range typeIndex.length).filter fun i => typeIndex[i]? = some j).flatMap fun i =>
        frames.map fun f => (∑ k, (f i k).re * direction k) / Real.sqrt (∑ k, direction k ^ 2)) := by
  rw [trajectoryProjection_entry frames typeIndex _ nTypes direction hd j hj]
  congr 1
  have hf : ((List.range typeIndex.length).filter fun i => typeIndex.getD i 0 = j)
      = (List.range typeIndex.length).filter fun i => typeIndex[i]? = some j := by
    apply List.filter_congr
    intro i hi
    have hi' := List.mem_range.mp hi
    simp [List.getD_eq_getElem?_getD, hi']
  rw [hf]
  congr 1
  funext i
  congr 1
  funext f
  rw [Finset.sum_div]
  apply Finset.sum_congr rfl
  intro k _
  unfold normalized
  ring

/-- C71: (number of atoms of the type) × (number of steps) values. -/
theorem C71_count {d : ℕ} (frames : List (ℕ → Fin d → ℂ)) (typeIndex : List ℕ) (nTypes : ℕ)
    (direction : Fin d → ℝ) (hd : direction ≠ 0) (j : ℕ) (hj : j < nTypes) :
    ((trajectoryProjection frames typeIndex typeIndex.length nTypes direction)[j]?).map List.length
      = some (typeIndex.count j * frames.length) := by
  rw [C71_values frames typeIndex nTypes direction hd j hj, Option.map_some,
    length_flatMap_const _ frames.length _ (by simp)]
  congr 1
  rw [mul_comm]
  congr 1
  have e : typeIndex = (List.range typeIndex.length).map fun i => typeIndex.getD i 0 := by
    apply List.ext_getElem
    · simp
    · intro i h1 h2; simp [List.getD_eq_getElem?_getD, h1]
  have e2 : typeIndex.count j = ((List.range typeIndex.length).map fun i => typeIndex.getD i 0).count j := by
    rw [← e]
  rw [e2, List.count, List.countP_map, List.countP_eq_length_filter]
  congr 1
  apply List.filter_congr
  intro i hi
  have hi' := List.mem_range.mp hi
  simp [List.getD_eq_getElem?_getD, hi']
  rfl

/-- C71: rescaling the direction by a positive factor changes nothing. -/
theorem C71_scale {d : ℕ} (frames : List (ℕ → Fin d → ℂ)) (typeIndex : List ℕ) (nAtoms nTypes : ℕ)
    (direction : Fin d → ℝ) (c : ℝ) (hc : 0 < c) :
    trajectoryProjection frames typeIndex nAtoms nTypes (c • direction)
      = trajectoryProjection frames typeIndex nAtoms nTypes direction := by
  unfold trajectoryProjection
  rw [normalized_smul direction c hc]

example : (![1, 0] : Fin 2 → ℝ) ≠ 0 := fun h => by simpa using congrFun h 0

end Verif
