import Verif.Model.Displacements
import Verif.Util
import Mathlib.LinearAlgebra.Matrix.Adjugate
import Mathlib.Data.Matrix.Reflection
import Mathlib.Tactic.FinCases
import Mathlib.Data.Rat.Floor
import Mathlib.Tactic.LinearCombination
import Mathlib.Algebra.Order.Archimedean.Basic

/-! # C10–C12, C72: minimum image displacements, the hand written inverse -/

set_option autoImplicit false

namespace Verif

section CMatrix
variable {K : Type*} [Field K]

/-- The `n × n` matrix held in a C array. -/
def toMatrix (n : ℕ) (a : ℕ → ℕ → K) : Matrix (Fin n) (Fin n) K := fun i j => a i j

theorem skipIndex_getElem? (n j : ℕ) (hj : j < n) (k : ℕ) (hk : k + 1 < n) :
    (skipIndex n j)[k]? = some (if k < j then k else k + 1) := by
  obtain ⟨m, rfl⟩ : ∃ m, n = j + (m + 1) := ⟨n - j - 1, by omega⟩
  have h : skipIndex (j + (m + 1)) j = List.range j ++ (List.range m).map (· + (j + 1)) := by
    unfold skipIndex
    rw [List.range_add, List.filter_append]
    congr 1
    · rw [List.filter_eq_self]
      intro a ha; simp at ha; simp; omega
    · rw [List.range_succ_eq_map]
      simp only [List.map_cons, List.map_map, List.filter_cons]
      simp only [Nat.add_zero, ne_eq, not_true_eq_false, decide_false, Bool.false_eq_true, if_false]
      rw [List.filter_eq_self.2]
      · apply List.map_congr_left
        intro a _
        simp; omega
      · intro a ha
        simp at ha
        obtain ⟨b, _, rfl⟩ := ha
        simp
  rw [h]
  by_cases hkj : k < j
  · rw [if_pos hkj, List.getElem?_append_left (by simpa using hkj)]
    simp [hkj]
  · rw [if_neg hkj, List.getElem?_append_right (by simp; omega)]
    simp only [List.length_range, List.getElem?_map]
    rw [List.getElem?_range (by omega)]
    simp
    omega

theorem skipIndex_getD (n : ℕ) (j : Fin (n + 1)) (k : Fin n) :
    (skipIndex (n + 1) j).getD k 0 = (j.succAbove k : ℕ) := by
  rw [List.getD_eq_getElem?_getD, skipIndex_getElem? (n + 1) j j.isLt k (by omega)]
  simp only [Option.getD_some, Fin.succAbove, Fin.lt_def, Fin.val_castSucc]
  split_ifs <;> simp

theorem toMatrix_detMinor (n : ℕ) (a : ℕ → ℕ → K) (j : Fin (n + 1)) :
    toMatrix n (detMinor a (n + 1) j) = (toMatrix (n + 1) a).submatrix Fin.succ j.succAbove := by
  ext r c
  simp only [toMatrix, detMinor, skipIndex_getD, Matrix.submatrix_apply, Fin.val_succ]

theorem toMatrix_cofMinor (n : ℕ) (a : ℕ → ℕ → K) (i j : Fin (n + 1)) :
    toMatrix n (cofMinor a (n + 1) i j) = (toMatrix (n + 1) a).submatrix i.succAbove j.succAbove := by
  ext r c
  simp only [toMatrix, cofMinor, skipIndex_getD, Matrix.submatrix_apply]

/-- C11: the hand-written determinant is the determinant, for every size `n ≥ 1`. -/
theorem C11_determinant (n : ℕ) (a : ℕ → ℕ → K) : cDet (n + 1) a = (toMatrix (n + 1) a).det := by
  induction n generalizing a with
  | zero => simp [cDet, toMatrix]
  | succ n ih =>
    cases n with
    | zero =>
      rw [show (0 + 1 + 1 : ℕ) = 2 from rfl, Matrix.det_fin_two]
      simp only [cDet, toMatrix, Fin.val_zero, Fin.val_one]
      ring
    | succ n =>
      rw [cDet, foldl_add_eq_sum, zero_add, Matrix.det_succ_row_zero, Finset.sum_range]
      apply Finset.sum_congr rfl
      intro j _
      rw [ih, toMatrix_detMinor]
      simp only [toMatrix, Fin.val_zero]
      ring

theorem toMatrix_cInverse (n : ℕ) (a : ℕ → ℕ → K) :
    toMatrix (n + 2) (cInverse (n + 2) a) = (toMatrix (n + 2) a)⁻¹ := by
  ext i j
  rw [Matrix.inv_def, Matrix.smul_apply, Matrix.adjugate_fin_succ_eq_det_submatrix]
  simp only [toMatrix, cInverse, cCofactor]
  rw [C11_determinant]
  have h := toMatrix_cofMinor (n + 1) a j i
  rw [show n + 2 - 1 = n + 1 from rfl, C11_determinant, h, Ring.inverse_eq_inv']
  simp only [smul_eq_mul]
  have e : (-1 : K) ^ ((j : ℕ) + i + 2) = (-1) ^ ((j : ℕ) + i) := by rw [pow_add]; norm_num
  rw [e]
  ring

/-- C11: for every size `n ≥ 2`, `matrix_inverse` is the two-sided inverse when the determinant is not zero. -/
theorem C11_inverse_partial (n : ℕ) (hn : 2 ≤ n) (a : ℕ → ℕ → K) (h : (toMatrix n a).det ≠ 0) :
    toMatrix n a * toMatrix n (cInverse n a) = 1 ∧ toMatrix n (cInverse n a) * toMatrix n a = 1 := by
  obtain ⟨m, rfl⟩ : ∃ m, n = m + 2 := ⟨n - 2, by omega⟩
  rw [toMatrix_cInverse]
  exact ⟨Matrix.mul_nonsing_inv _ (isUnit_iff_ne_zero.2 h), Matrix.nonsing_inv_mul _ (isUnit_iff_ne_zero.2 h)⟩

/-- C11, negation for `n = 1`: the cofactor of a 1×1 matrix is computed as 0, so the "inverse" is 0. -/
theorem C11_inverse_one_violated (a : ℕ → ℕ → K) : toMatrix 1 (cInverse 1 a) = 0 := by
  ext i j
  simp [toMatrix, cInverse, cCofactor, cDet]

example : (toMatrix 3 (fun i j => ((i : ℚ) + 1) * (if i = j then 2 else 1))).det ≠ 0 := by
  rw [Matrix.det_fin_three]; simp [toMatrix]; norm_num

theorem cMulVec_eq (n : ℕ) (a : ℕ → ℕ → K) (b : ℕ → K) (i : ℕ) :
    cMulVec n a b i = ∑ k : Fin n, a i k * b k := by
  unfold cMulVec
  rw [foldl_add_eq_sum (fun k => a i k * b k), zero_add, Finset.sum_range]

theorem pymatrixReal_eq (n : ℕ) (cell : ℕ → ℕ → K) (i j : ℕ) (hi : i < n) :
    pymatrixReal n cell i j = cell j i := by
  unfold pymatrixReal
  simp only
  have hn : 0 < n := by omega
  rw [Nat.add_mul_div_left _ _ hn, Nat.div_eq_of_lt hi, Nat.zero_add, Nat.add_mul_mod_self_left,
    Nat.mod_eq_of_lt hi]

end CMatrix

variable {K : Type*} [Field K] [LinearOrder K] [IsStrictOrderedRing K] [FloorRing K]

/-- Specification: `v` has fractional coordinates `f` in the cell with rows `cell i`. -/
def HasFrac (n : ℕ) (cell : ℕ → ℕ → K) (v : ℕ → K) (f : Fin n → K) : Prop :=
  ∀ k : Fin n, v k = ∑ i : Fin n, f i * cell i k

theorem hasFrac_iff (n : ℕ) (cell : ℕ → ℕ → K) (v : ℕ → K) (f : Fin n → K) :
    HasFrac n cell v f ↔ Matrix.vecMul f (toMatrix n cell) = fun k : Fin n => v k := by
  unfold HasFrac
  rw [funext_iff]
  simp only [Matrix.vecMul, dotProduct, toMatrix]
  exact forall_congr' fun k => eq_comm

/-- Fractional coordinates exist and are unique in a non-degenerate cell. -/
theorem hasFrac_exists (n : ℕ) (cell : ℕ → ℕ → K) (h : (toMatrix n cell).det ≠ 0) (v : ℕ → K) :
    HasFrac n cell v (Matrix.vecMul (fun k : Fin n => v k) (toMatrix n cell)⁻¹) := by
  rw [hasFrac_iff, Matrix.vecMul_vecMul, Matrix.nonsing_inv_mul _ (isUnit_iff_ne_zero.2 h), Matrix.vecMul_one]

theorem hasFrac_unique (n : ℕ) (cell : ℕ → ℕ → K) (h : (toMatrix n cell).det ≠ 0) (v : ℕ → K)
    (f : Fin n → K) (hf : HasFrac n cell v f) :
    f = Matrix.vecMul (fun k : Fin n => v k) (toMatrix n cell)⁻¹ := by
  rw [hasFrac_iff] at hf
  rw [← hf, Matrix.vecMul_vecMul, Matrix.mul_nonsing_inv _ (isUnit_iff_ne_zero.2 h), Matrix.vecMul_one]

/-- The rounded numbers computed by the routine are the rounded fractional coordinates. -/
theorem cDisplacement_eq (n : ℕ) (hn : 2 ≤ n) (cell : ℕ → ℕ → K) (h : (toMatrix n cell).det ≠ 0)
    (pos : ℕ → K) (traj : ℕ → K × K) (f : Fin n → K)
    (hf : HasFrac n cell (fun k => (traj k).1 - pos k) f) (k : Fin n) :
    cDisplacement n cell pos traj k
      = ((traj k).1 - pos k - ∑ i : Fin n, (roundAway (f i) : K) * cell i k, 0) := by
  obtain ⟨m, rfl⟩ : ∃ m, n = m + 2 := ⟨n - 2, by omega⟩
  have hT : toMatrix (m + 2) (pymatrixReal (m + 2) cell) = (toMatrix (m + 2) cell).transpose := by
    ext i j
    simp only [toMatrix, Matrix.transpose_apply]
    rw [pymatrixReal_eq _ _ _ _ i.isLt]
  have hI : ∀ i : Fin (m + 2), cMulVec (m + 2) (cInverse (m + 2) (pymatrixReal (m + 2) cell))
      (fun k => (traj k).1 - pos k) i = f i := by
    intro i
    rw [cMulVec_eq, hasFrac_unique _ _ h _ _ hf]
    have h1 : ∀ k : Fin (m + 2), cInverse (m + 2) (pymatrixReal (m + 2) cell) i k
        = (toMatrix (m + 2) cell)⁻¹ k i := by
      intro k
      have h2 := congrFun (congrFun (toMatrix_cInverse m (pymatrixReal (m + 2) cell)) i) k
      rw [hT, ← Matrix.transpose_nonsing_inv] at h2
      exact h2
    simp only [h1, Matrix.vecMul, dotProduct]
    exact Finset.sum_congr rfl fun k _ => mul_comm _ _
  unfold cDisplacement
  simp only [cMulVec_eq, Prod.mk.injEq, and_true]
  have hp : ∀ l : Fin (m + 2), pymatrixReal (m + 2) cell k l = cell l k :=
    fun l => pymatrixReal_eq _ _ _ _ k.isLt
  have hI' : ∀ i : Fin (m + 2), ∑ k : Fin (m + 2),
      cInverse (m + 2) (pymatrixReal (m + 2) cell) i k * ((traj k).1 - pos k) = f i := by
    intro i; rw [← hI i, cMulVec_eq]
  simp only [hp, hI']
  have : ∑ x : Fin (m + 2), cell x k * (roundAway (f x) : K) = ∑ i : Fin (m + 2), (roundAway (f i) : K) * cell i k :=
    Finset.sum_congr rfl fun l _ => mul_comm _ _
  rw [this]
  ring

/-- C10: in a non-degenerate cell of dimension `n ≥ 2` the displacement of every frame is the real part of the
coordinates minus the reference position minus an integer combination of the cell vectors; its
fractional coordinates lie in `[-1/2, 1/2]`; its imaginary part is 0. -/
theorem C10_minimum_image (n : ℕ) (hn : 2 ≤ n) (cell : ℕ → ℕ → K) (h : (toMatrix n cell).det ≠ 0)
    (pos : ℕ → K) (frames : List (ℕ → K × K)) (t : ℕ) (traj : ℕ → K × K) (ht : frames[t]? = some traj) :
    ∃ disp, (cDisplacements n cell pos frames)[t]? = some disp ∧
      (∃ z : Fin n → ℤ, ∀ k : Fin n, (disp k).1 = (traj k).1 - pos k - ∑ i, (z i : K) * cell i k) ∧
      (∃ g, HasFrac n cell (fun k => (disp k).1) g) ∧
      (∀ g, HasFrac n cell (fun k => (disp k).1) g → ∀ i, |g i| ≤ 1 / 2) ∧
      (∀ k, (disp k).2 = 0) := by
  refine ⟨cDisplacement n cell pos traj, by simp [cDisplacements, ht], ?_, ⟨_, hasFrac_exists n cell h _⟩, ?_, ?_⟩
  · refine ⟨fun i => roundAway (Matrix.vecMul (fun k : Fin n => (traj k).1 - pos k) (toMatrix n cell)⁻¹ i), ?_⟩
    intro k
    rw [cDisplacement_eq n hn cell h pos traj _ (hasFrac_exists n cell h _) k]
  · intro g hg i
    have hf := hasFrac_exists n cell h (fun k => (traj k).1 - pos k)
    set f := Matrix.vecMul (fun k : Fin n => (traj k).1 - pos k) (toMatrix n cell)⁻¹ with hfdef
    have hg' : HasFrac n cell (fun k => (cDisplacement n cell pos traj k).1)
        (fun i => f i - roundAway (f i)) := by
      intro k
      simp only
      rw [cDisplacement_eq n hn cell h pos traj f hf k]
      simp only [sub_mul, Finset.sum_sub_distrib]
      rw [← hf k]
    have : g = fun i => f i - roundAway (f i) := by
      rw [hasFrac_unique n cell h _ g hg, hasFrac_unique n cell h _ _ hg']
    rw [this]
    exact roundAway_abs_sub _
  · intro k; rfl

example : (toMatrix 3 (fun i j => if i = j then (2 : ℚ) else if i < j then 1 else 0)).det ≠ 0 := by
  rw [Matrix.det_fin_three]; simp [toMatrix]

/-- C12: adding any integer combination of the cell vectors to the coordinates of a frame does not change the
displacement, provided no fractional coordinate of the displacement is exactly half-integer. -/
theorem C12_periodic_images (n : ℕ) (hn : 2 ≤ n) (cell : ℕ → ℕ → K) (h : (toMatrix n cell).det ≠ 0)
    (pos : ℕ → K) (traj traj' : ℕ → K × K) (z : Fin n → ℤ)
    (hz : ∀ k : Fin n, (traj' k).1 = (traj k).1 + ∑ i, (z i : K) * cell i k)
    (htie : ∀ f, HasFrac n cell (fun k => (traj k).1 - pos k) f → ∀ i (m : ℤ), |f i - m| ≠ 1 / 2)
    (k : Fin n) :
    cDisplacement n cell pos traj' k = cDisplacement n cell pos traj k := by
  have hf := hasFrac_exists n cell h (fun k => (traj k).1 - pos k)
  set f := Matrix.vecMul (fun k : Fin n => (traj k).1 - pos k) (toMatrix n cell)⁻¹ with hfdef
  have hf' : HasFrac n cell (fun k => (traj' k).1 - pos k) (fun i => f i + z i) := by
    intro k
    simp only [add_mul, Finset.sum_add_distrib]
    rw [← hf k, hz k]; ring
  rw [cDisplacement_eq n hn cell h pos traj f hf k, cDisplacement_eq n hn cell h pos traj' _ hf' k]
  have hr : ∀ i, (roundAway (f i + z i) : K) = roundAway (f i) + z i := by
    intro i
    have h1 := lt_of_le_of_ne (roundAway_abs_sub (f i)) (htie f hf i (roundAway (f i)))
    have : roundAway (f i + z i) = roundAway (f i) + z i := by
      apply roundAway_eq_of_near
      push_cast
      have e : f i + z i - (roundAway (f i) + z i) = f i - roundAway (f i) := by ring
      rw [e]; exact h1
    rw [this]; push_cast; rfl
  simp only [hr, hz k, add_mul, Finset.sum_add_distrib]
  congr 1
  ring

/-- The exclusion of ties in C12 is necessary: half a cell and minus half a cell are images of each other and get
different displacements. -/
theorem C12_tie : ∃ (cell : ℕ → ℕ → ℚ) (traj traj' : ℕ → ℚ × ℚ),
    (∀ k : Fin 2, (traj' k).1 = (traj k).1 + ∑ i : Fin 2, ((if i = 0 then -1 else 0 : ℤ) : ℚ) * cell i k) ∧
    cDisplacement 2 cell (fun _ => 0) traj 0 ≠ cDisplacement 2 cell (fun _ => 0) traj' 0 := by
  refine ⟨fun i j => if i = j then 1 else 0, fun k => if k = 0 then (1 / 2, 0) else (0, 0),
    fun k => if k = 0 then (-1 / 2, 0) else (0, 0), ?_, ?_⟩
  · intro k; fin_cases k <;> (simp; try norm_num)
  · decide +kernel

/-! ## C72 -/

/-- C72 in symmetric (e.g. orthogonal) cells, away from ties: both routines give the same displacement. -/
theorem C72_partial (n : ℕ) (hn : 2 ≤ n) (cell : ℕ → ℕ → K) (h : (toMatrix n cell).det ≠ 0)
    (hsym : ∀ i j : Fin n, cell i j = cell j i) (pos : ℕ → K) (traj : ℕ → K × K)
    (htie : ∀ f, HasFrac n cell (fun k => (traj k).1 - pos k) f → ∀ i (m : ℤ), |f i - m| ≠ 1 / 2)
    (k : Fin n) :
    (cDisplacement n cell pos traj k).1
      = pyDisplacement (toMatrix n cell) (fun k : Fin n => pos k) (fun k : Fin n => (traj k).1) k := by
  have hf := hasFrac_exists n cell h (fun k => (traj k).1 - pos k)
  set f := Matrix.vecMul (fun k : Fin n => (traj k).1 - pos k) (toMatrix n cell)⁻¹ with hfdef
  rw [cDisplacement_eq n hn cell h pos traj f hf k]
  have hT : (toMatrix n cell).transpose = toMatrix n cell := by
    ext i j; exact hsym j i
  have hm : Matrix.mulVec (toMatrix n cell)⁻¹ ((fun k : Fin n => (traj k).1) - fun k : Fin n => pos k) = f := by
    rw [hfdef, ← Matrix.mulVec_transpose, Matrix.transpose_nonsing_inv, hT]
    rfl
  have hr : ∀ i, roundEven (f i) = roundAway (f i) := by
    intro i
    apply roundEven_eq_of_near
    exact lt_of_le_of_ne (roundAway_abs_sub (f i)) (htie f hf i _)
  unfold pyDisplacement
  simp only [hm, hr, Pi.sub_apply, Pi.add_apply, Matrix.vecMul, dotProduct, toMatrix]
  ring

/-- C72, exactly: the two routines agree on all displacements away from ties if and only if the matrix of the cell is symmetric; in any other cell they differ already for some
displacement by a lattice vector (which the C routine takes to be no displacement). -/
theorem C72_iff (n : ℕ) (hn : 2 ≤ n) (cell : ℕ → ℕ → K) (h : (toMatrix n cell).det ≠ 0) :
    (∀ (pos : ℕ → K) (traj : ℕ → K × K),
        (∀ f, HasFrac n cell (fun k => (traj k).1 - pos k) f → ∀ i (m : ℤ), |f i - m| ≠ 1 / 2) →
        ∀ k : Fin n, (cDisplacement n cell pos traj k).1
          = pyDisplacement (toMatrix n cell) (fun k : Fin n => pos k) (fun k : Fin n => (traj k).1) k)
      ↔ ∀ i j : Fin n, cell i j = cell j i := by
  constructor
  · intro hall
    by_contra hns
    have hu : IsUnit (toMatrix n cell).det := isUnit_iff_ne_zero.2 h
    set M := toMatrix n cell with hM
    -- a column of `M⁻¹ Mᵀ` that is not that of the identity
    have hne : M⁻¹ * M.transpose ≠ 1 := by
      intro he
      apply hns
      have : M.transpose = M := by
        calc M.transpose = M * (M⁻¹ * M.transpose) := by rw [← Matrix.mul_assoc, Matrix.mul_nonsing_inv _ hu, Matrix.one_mul]
          _ = M := by rw [he, Matrix.mul_one]
      intro i j
      exact congrFun (congrFun this j) i
    obtain ⟨k, j, hkj⟩ : ∃ k j, (M⁻¹ * M.transpose) k j - (1 : Matrix (Fin n) (Fin n) K) k j ≠ 0 := by
      by_contra hcon
      push Not at hcon
      exact hne (by ext k j; exact sub_eq_zero.1 (hcon k j))
    set c := (M⁻¹ * M.transpose) k j - (1 : Matrix (Fin n) (Fin n) K) k j with hc
    haveI : Archimedean K := FloorRing.archimedean K
    obtain ⟨N, hN⟩ := exists_nat_gt (1 / |c|)
    have hNc : 1 < N * |c| := by rwa [div_lt_iff₀ (abs_pos.2 hkj)] at hN
    -- the displacement by `N` times the cell vector `j`
    let d : ℕ → K := fun l => N * cell j l
    have hfrac : HasFrac n cell (fun l => ((fun l => (d l, (0 : K))) l).1 - (fun _ => (0 : K)) l) (fun i => if i = j then (N : K) else 0) := by
      intro l
      simp [d, Finset.sum_ite_eq']
    have heq := hall (fun _ => 0) (fun l => (d l, 0)) (by
      intro f hf i m
      have hf' : f = fun i => if i = j then (N : K) else 0 := by
        rw [hasFrac_unique n cell h _ f hf, hasFrac_unique n cell h _ _ hfrac]
      rw [hf']
      have : ∃ z : ℤ, (if i = j then (N : K) else 0) = z := by
        split_ifs
        · exact ⟨N, by simp⟩
        · exact ⟨0, by simp⟩
      obtain ⟨z, hz⟩ := this
      simp only [hz]
      rw [← Int.cast_sub, ← Int.cast_abs]
      intro h2
      have h3 : ((2 * |z - m| : ℤ) : K) = ((1 : ℤ) : K) := by push_cast; rw [← Int.cast_sub, ← Int.cast_abs, h2]; norm_num
      have h4 := Int.cast_injective h3
      omega)
    -- the C routine gives zero
    have hzero : ∀ l : Fin n, (cDisplacement n cell (fun _ => 0) (fun l => (d l, 0)) l).1 = 0 := by
      intro l
      rw [cDisplacement_eq n hn cell h _ _ _ hfrac l]
      have hr : ∀ i : Fin n, ((roundAway (if i = j then (N : K) else 0) : ℤ) : K) = if i = j then (N : K) else 0 := by
        intro i
        split_ifs
        · have : roundAway (N : K) = (N : ℤ) := roundAway_eq_of_near (by simp)
          rw [this]; simp
        · have : roundAway (0 : K) = 0 := roundAway_eq_of_near (by simp)
          rw [this]; simp
      simp only [hr]
      have := hfrac l
      simp only at this ⊢
      rw [← this]
      ring
    -- hence so does the Python routine: its rounded coordinates are those of the displacement
    set w : Fin n → K := fun l => (roundEven (Matrix.mulVec M⁻¹ (fun l : Fin n => d l) l) : K) with hw
    have hvec : Matrix.vecMul w M = fun l : Fin n => d l := by
      funext l
      have h1 := heq l
      rw [hzero l] at h1
      unfold pyDisplacement at h1
      simp only [Pi.sub_apply, Pi.add_apply] at h1
      have h2 : ((fun k : Fin n => d k) - fun _ : Fin n => (0 : K)) = fun l : Fin n => d l := by funext l; simp
      rw [h2] at h1
      rw [← hw] at h1
      linarith
    have hwN : w = fun i => if i = j then (N : K) else 0 := by
      have e1 : HasFrac n cell d w := (hasFrac_iff n cell d w).2 hvec
      have e2 : HasFrac n cell d (fun i => if i = j then (N : K) else 0) := by
        intro l; simpa using hfrac l
      rw [hasFrac_unique n cell h _ w e1, hasFrac_unique n cell h _ _ e2]
    have hmul : Matrix.mulVec M⁻¹ (fun l : Fin n => d l) k = N * (M⁻¹ * M.transpose) k j := by
      simp only [Matrix.mulVec, dotProduct, Matrix.mul_apply, Matrix.transpose_apply, Finset.mul_sum, d, hM, toMatrix]
      exact Finset.sum_congr rfl fun l _ => by ring
    have hk := congrFun hwN k
    simp only [hw, hmul] at hk
    have hround := roundEven_abs_sub (N * (M⁻¹ * M.transpose) k j)
    rw [hk] at hround
    have hcN : N * (M⁻¹ * M.transpose) k j - (if k = j then (N : K) else 0) = N * c := by
      rw [hc, Matrix.one_apply]
      split_ifs <;> ring
    rw [hcN, abs_mul, Nat.abs_cast] at hround
    linarith
  · intro hsym pos traj htie k
    exact C72_partial n hn cell h hsym pos traj htie k

/-- C72, negation: in the sheared cell (1,1;0,1) the Python routine does not return the minimum image that the C routine
returns (it multiplies by the inverse cell from the wrong side). -/
theorem C72_violated : ∃ (cell : ℕ → ℕ → ℚ) (pos : ℕ → ℚ) (traj : ℕ → ℚ × ℚ),
    (cDisplacement 2 cell pos traj 0).1
      ≠ pyDisplacement (toMatrix 2 cell) (fun k : Fin 2 => pos k) (fun k : Fin 2 => (traj k).1) 0 := by
  refine ⟨fun i j => if i ≤ j then 1 else 0, fun _ => 0, fun k => if k = 0 then (0, 0) else (1, 0), ?_⟩
  have hc : (cDisplacement 2 (fun i j => if i ≤ j then (1 : ℚ) else 0) (fun _ => 0)
      (fun k => if k = 0 then (0, 0) else (1, 0)) 0).1 = 0 := by decide +kernel
  rw [hc]
  have hinv : (toMatrix 2 (fun i j => if i ≤ j then (1 : ℚ) else 0))⁻¹ = !![1, -1; 0, 1] := by
    apply Matrix.inv_eq_right_inv
    ext i j
    fin_cases i <;> fin_cases j <;> simp [toMatrix, Matrix.mul_apply, Fin.sum_univ_two]
  have r1 : roundEven (-1 : ℚ) = -1 := by simpa using roundEven_intCast (K := ℚ) (-1)
  unfold pyDisplacement
  rw [hinv]
  simp only [Pi.sub_apply, Pi.add_apply]
  have e : ∀ (v : Fin 2 → ℚ), Matrix.vecMul v (toMatrix 2 (fun i j => if i ≤ j then (1 : ℚ) else 0)) 0 = v 0 := by
    intro v
    simp [Matrix.vecMul, dotProduct, toMatrix, Fin.sum_univ_two]
  rw [e]
  simp [Matrix.vecHead, Matrix.vecTail, r1]

end Verif
