import Verif.Model.PhonopyLink
import Mathlib.Tactic.FieldSimp
import Mathlib.Tactic.Ring
import Mathlib.Tactic.Linarith
import Mathlib.Tactic.FinCases
import Mathlib.LinearAlgebra.Matrix.Notation
import Mathlib.Data.Fintype.BigOperators
import Mathlib.Data.Fintype.EquivFin
import Mathlib.LinearAlgebra.UnitaryGroup
import Mathlib.LinearAlgebra.Matrix.Hermitian
import Mathlib.Analysis.Complex.Basic

/-! # C64, C65, C66, C68, C83: link to phonopy -/

set_option autoImplicit false
set_option linter.unusedSectionVars false

namespace Verif

/-! ## C64 -/

theorem getElem?_flatten_uniform {α : Type*} (m : ℕ) : ∀ (l : List (List α)) (i j : ℕ), (∀ x ∈ l, x.length = m) → j < m → l.flatten[i * m + j]? = (l[i]?).bind fun x => x[j]?
  | [], i, j, _, _ => by simp
  | x :: l, 0, j, h, hj => by
    rw [List.flatten_cons, Nat.zero_mul, Nat.zero_add, List.getElem?_append_left (by rw [h x List.mem_cons_self]; exact hj)]
    simp
  | x :: l, i + 1, j, h, hj => by
    have hx := h x List.mem_cons_self
    rw [List.flatten_cons, List.getElem?_append_right (by rw [hx, Nat.succ_mul]; omega), hx]
    have : (i + 1) * m + j - m = i * m + j := by rw [Nat.succ_mul]; omega
    rw [this, getElem?_flatten_uniform m l i j (fun y hy => h y (List.mem_cons_of_mem _ hy)) hj]
    simp

/-- The entries of the flattened array. -/
theorem arrangeEv_flat {K : Type*} (na nd : ℕ) (ev : ℕ → ℕ → K) (i j k : ℕ) (hi : i < na * nd) (hj : j < na) (hk : k < nd) :
    (arrangeEv na nd ev).flatten.flatten[i * (na * nd) + (j * nd + k)]? = some (ev (j * nd + k) i) := by
  have h1 : ∀ x ∈ (arrangeEv na nd ev).flatten, x.length = nd := by
    intro x hx
    unfold arrangeEv at hx
    rw [List.mem_flatten] at hx
    obtain ⟨l, hl, hx⟩ := hx
    obtain ⟨i, -, rfl⟩ := List.mem_map.1 hl
    obtain ⟨j, -, rfl⟩ := List.mem_map.1 hx
    simp
  have h2 : ∀ x ∈ arrangeEv na nd ev, x.length = na := by
    intro x hx
    unfold arrangeEv at hx
    obtain ⟨i, -, rfl⟩ := List.mem_map.1 hx
    simp
  have e : i * (na * nd) + (j * nd + k) = (i * na + j) * nd + k := by ring
  rw [e, getElem?_flatten_uniform nd _ _ k h1 hk, getElem?_flatten_uniform na _ i j h2 hj]
  unfold arrangeEv
  simp [List.getElem?_range, hi, hj, hk]

theorem arrangeEv_length {K : Type*} (na nd : ℕ) (ev : ℕ → ℕ → K) : (arrangeEv na nd ev).flatten.flatten.length = (na * nd) * (na * nd) := by
  unfold arrangeEv
  rw [List.length_flatten, List.map_flatten, List.sum_flatten]
  simp [Function.comp_def]

/-- **C64**: for every number of atoms and dimensions and every array of eigenvectors, arranging by atoms and directions and flattening again gives back the entries `a, b` of the matrix (column `b` is
phonon `b`); and phonon `i`, atom `j`, direction `k` of the arranged array is the entry `j*nd + k` of column `i`. -/
theorem C64_roundtrip {K : Type*} [Zero K] (na nd : ℕ) (ev : ℕ → ℕ → K) (a b : ℕ) (ha : a < na * nd) (hb : b < na * nd) :
    flattenEv (na * nd) (arrangeEv na nd ev) a b = ev a b ∧
    ∀ i j k, i < na * nd → j < na → k < nd → (((arrangeEv na nd ev)[i]?).bind (·[j]?)).bind (·[k]?) = some (ev (j * nd + k) i) := by
  constructor
  · have hnd : 0 < nd := by rcases Nat.eq_zero_or_pos nd with h | h; · subst h; simp at ha
                            · exact h
    unfold flattenEv
    simp only [List.getD_eq_getElem?_getD, List.getElem?_map, List.getElem?_range hb, Option.map_some, Option.getD_some]
    rw [List.getElem?_take_of_lt ha, List.getElem?_drop]
    have hmod : a = a / nd * nd + a % nd := by rw [Nat.div_add_mod']
    have := arrangeEv_flat na nd ev b (a / nd) (a % nd) hb (Nat.div_lt_of_lt_mul (by rw [Nat.mul_comm]; exact ha)) (Nat.mod_lt _ hnd)
    rw [← hmod] at this
    rw [this]
    rfl
  · intro i j k hi hj hk
    unfold arrangeEv
    simp [List.getElem?_range, hi, hj, hk]

/-! ## C83 -/

theorem phonopyFrequency_dynEigenvalue (factor f : ℝ) (hf : 0 < factor) : phonopyFrequency factor (dynEigenvalue factor f) = f := by
  unfold phonopyFrequency dynEigenvalue
  set x := f / factor with hx
  have hfx : f = x * factor := by rw [hx]; field_simp
  rw [hfx]
  congr 1
  rcases lt_trichotomy x 0 with h | h | h
  · have hs : SignType.sign x = -1 := sign_neg h
    have h2 : x ^ 2 * ((SignType.sign x : SignType) : ℝ) = -(x ^ 2) := by rw [hs]; simp
    rw [h2, abs_neg, abs_of_nonneg (sq_nonneg x), Real.sqrt_sq_eq_abs, abs_of_neg h]
    have : SignType.sign (-(x ^ 2)) = -1 := sign_neg (by have := sq_pos_of_neg h; linarith)
    rw [this]; simp
  · rw [h]; simp
  · have hs : SignType.sign x = 1 := sign_pos h
    have h2 : x ^ 2 * ((SignType.sign x : SignType) : ℝ) = x ^ 2 := by rw [hs]; simp
    rw [h2, abs_of_nonneg (sq_nonneg x), Real.sqrt_sq_eq_abs, abs_of_pos h]
    have : SignType.sign (x ^ 2) = 1 := sign_pos (by positivity)
    rw [this]; simp

theorem dynEigenvalue_phonopyFrequency (factor lam : ℝ) (hf : 0 < factor) : dynEigenvalue factor (phonopyFrequency factor lam) = lam := by
  unfold phonopyFrequency dynEigenvalue
  have h1 : Real.sqrt |lam| * (SignType.sign lam : ℝ) * factor / factor = Real.sqrt |lam| * (SignType.sign lam : ℝ) := by field_simp
  rw [h1]
  rcases lt_trichotomy lam 0 with h | h | h
  · have hs : SignType.sign lam = -1 := sign_neg h
    have hp : 0 < Real.sqrt |lam| := Real.sqrt_pos.2 (abs_pos.2 h.ne)
    have h2 : Real.sqrt |lam| * ((SignType.sign lam : SignType) : ℝ) = -Real.sqrt |lam| := by rw [hs]; simp
    rw [h2]
    have : SignType.sign (-Real.sqrt |lam|) = -1 := sign_neg (by linarith)
    rw [this, neg_sq, Real.sq_sqrt (abs_nonneg _), abs_of_neg h]; simp
  · rw [h]; simp
  · have hs : SignType.sign lam = 1 := sign_pos h
    have hp : 0 < Real.sqrt |lam| := Real.sqrt_pos.2 (abs_pos.2 h.ne')
    have h2 : Real.sqrt |lam| * ((SignType.sign lam : SignType) : ℝ) = Real.sqrt |lam| := by rw [hs]; simp
    rw [h2]
    have : SignType.sign (Real.sqrt |lam|) = 1 := sign_pos hp
    rw [this, Real.sq_sqrt (abs_nonneg _), abs_of_pos h]; simp

/-- The matrix of phonopy's eigenvectors, by indices. -/
noncomputable def entries {n : ℕ} (E : Matrix (Fin n) (Fin n) ℂ) (a b : ℕ) : ℂ := if h : a < n ∧ b < n then E ⟨a, h.1⟩ ⟨b, h.2⟩ else 0

theorem renormalizedDynmat_eq (na nd : ℕ) (factor : ℝ) (freqs : Fin (na * nd) → ℝ) (E : Matrix (Fin (na * nd)) (Fin (na * nd)) ℂ) :
    renormalizedDynmat na nd factor freqs (arrangeEv na nd (entries E)) = dynmatFromEigen E fun i => dynEigenvalue factor (freqs i) := by
  unfold renormalizedDynmat
  congr 1
  ext a b
  rw [Matrix.of_apply, (C64_roundtrip na nd (entries E) a b a.2 b.2).1]
  unfold entries
  rw [dif_pos ⟨a.2, b.2⟩]

/-- **C83**: at each commensurate point the dynamical matrix that is used for the renormalized force constants is Hermitian and has exactly the renormalized frequencies (also imaginary ones, given as
negative numbers), with the harmonic eigenvectors: column `i` is an eigenvector, and the frequency of its eigenvalue is `freqs i`. For all orthonormal eigenvectors `E` and frequencies. -/
theorem C83_frequencies (na nd : ℕ) (factor : ℝ) (hf : 0 < factor) (freqs : Fin (na * nd) → ℝ) (E : Matrix (Fin (na * nd)) (Fin (na * nd)) ℂ) (hE : E.conjTranspose * E = 1) :
    (renormalizedDynmat na nd factor freqs (arrangeEv na nd (entries E))).IsHermitian ∧
    ∃ eig : Fin (na * nd) → ℝ, renormalizedDynmat na nd factor freqs (arrangeEv na nd (entries E)) * E = E * Matrix.diagonal (fun i => (eig i : ℂ)) ∧ ∀ i, phonopyFrequency factor (eig i) = freqs i := by
  rw [renormalizedDynmat_eq]
  unfold dynmatFromEigen
  constructor
  · unfold Matrix.IsHermitian
    rw [Matrix.conjTranspose_mul, Matrix.conjTranspose_mul, Matrix.conjTranspose_conjTranspose, Matrix.diagonal_conjTranspose, Matrix.mul_assoc]
    congr 3
    ext i
    simp
  · refine ⟨fun i => dynEigenvalue factor (freqs i), ?_, fun i => phonopyFrequency_dynEigenvalue factor _ hf⟩
    rw [Matrix.mul_assoc, hE, Matrix.mul_one]

/-- **C83**: without renormalization nothing changes: if the frequencies are the harmonic ones of a dynamical matrix `D` with eigenvectors `E`, the matrix used is `D` itself. -/
theorem C83_harmonic (na nd : ℕ) (factor : ℝ) (hf : 0 < factor) (D E : Matrix (Fin (na * nd)) (Fin (na * nd)) ℂ) (eig : Fin (na * nd) → ℝ) (hE : E.conjTranspose * E = 1)
    (hD : D * E = E * Matrix.diagonal (fun i => (eig i : ℂ))) :
    renormalizedDynmat na nd factor (fun i => phonopyFrequency factor (eig i)) (arrangeEv na nd (entries E)) = D := by
  rw [renormalizedDynmat_eq]
  unfold dynmatFromEigen
  simp only [dynEigenvalue_phonopyFrequency factor _ hf]
  rw [← hD, Matrix.mul_assoc, mul_eq_one_comm.1 hE, Matrix.mul_one]

/-- One atom in one dimension, an imaginary frequency. -/
example : (1 : Matrix (Fin (1 * 1)) (Fin (1 * 1)) ℂ).conjTranspose * 1 = 1 := by simp

/-! ## C65 -/

section equivalent
variable {K : Type*} [Field K] [LinearOrder K] [IsStrictOrderedRing K]

/-- **C65**: the result has no duplicates, contains the point itself, and its points are the point and exactly those of its images under the operations that have no negative coordinate. -/
theorem C65_points (P : Matrix (Fin 3) (Fin 3) K) (ops : List (Matrix (Fin 3) (Fin 3) K)) (q : Fin 3 → K) :
    (equivalentQPoints P ops q).Nodup ∧ q ∈ equivalentQPoints P ops q ∧
    ∀ t, t ∈ equivalentQPoints P ops q ↔ t = q ∨ ∃ op ∈ ops, t = Matrix.vecMul q (P⁻¹ * op.transpose * P) ∧ ∀ i, 0 ≤ t i := by
  refine ⟨List.nodup_dedup _, List.mem_dedup.2 List.mem_cons_self, fun t => ?_⟩
  unfold equivalentQPoints qOperation
  rw [List.mem_dedup, List.mem_cons, List.mem_filter, List.mem_map]
  simp only [decide_eq_true_eq]
  constructor
  · rintro (h | ⟨⟨op, hop, rfl⟩, h⟩)
    · exact Or.inl h
    · exact Or.inr ⟨op, hop, rfl, h⟩
  · rintro (h | ⟨op, hop, rfl, h⟩)
    · exact Or.inl h
    · exact Or.inr ⟨⟨op, hop, rfl⟩, h⟩

/-- **C65**: Gamma is only equivalent to itself. -/
theorem C65_gamma (P : Matrix (Fin 3) (Fin 3) K) (ops : List (Matrix (Fin 3) (Fin 3) K)) : equivalentQPoints P ops 0 = [0] := by
  have h : ∀ t, t ∈ equivalentQPoints P ops 0 ↔ t = 0 := by
    intro t
    rw [(C65_points P ops 0).2.2 t]
    constructor
    · rintro (h | ⟨op, _, h, _⟩)
      · exact h
      · rw [h, Matrix.zero_vecMul]
    · exact Or.inl
  have hn := (C65_points P ops 0).1
  cases hl : equivalentQPoints P ops 0 with
  | nil => have := (C65_points P ops 0).2.1; rw [hl] at this; simp at this
  | cons x l =>
    rw [hl] at hn h
    have hx : x = 0 := (h x).1 List.mem_cons_self
    cases l with
    | nil => rw [hx]
    | cons y l =>
      have hy : y = 0 := (h y).1 (by simp)
      rw [hx, hy] at hn
      simp at hn

/-- The cubic group is not needed for a non-trivial case: the exchange of two axes. -/
example : Matrix.vecMul ![1/2, 0, 0] (1⁻¹ * (!![0, 1, 0; 1, 0, 0; 0, 0, 1] : Matrix (Fin 3) (Fin 3) ℚ).transpose * 1) = ![0, 1/2, 0] := by
  rw [inv_one, Matrix.one_mul, Matrix.mul_one]
  ext i; fin_cases i <;> simp [Matrix.vecMul, dotProduct, Fin.sum_univ_three]

end equivalent

/-! ## C66 -/

section bands
variable {K : Type*} [Field K] [CharZero K]

/-- **C66**: each segment is sampled with `resolution + 1` points; the first is the start, the last is the end, and consecutive points differ by the same vector. -/
theorem C66_points (n : ℕ) (hn : 0 < n) (q0 q1 : Fin 3 → K) :
    (bandPoints n q0 q1).length = n + 1 ∧ (bandPoints n q0 q1)[0]? = some q0 ∧ (bandPoints n q0 q1)[n]? = some q1 ∧
    ∀ i < n, ∀ a b, (bandPoints n q0 q1)[i]? = some a → (bandPoints n q0 q1)[i + 1]? = some b → b - a = (1 / (n : K)) • (q1 - q0) := by
  have hget : ∀ i ≤ n, (bandPoints n q0 q1)[i]? = some fun c => q0 c + (q1 c - q0 c) / (n : K) * (i : K) := by
    intro i hi
    unfold bandPoints
    rw [List.getElem?_map, List.getElem?_range (by omega)]
    rfl
  have hn' : (n : K) ≠ 0 := Nat.cast_ne_zero.2 (by omega)
  refine ⟨by simp [bandPoints], ?_, ?_, ?_⟩
  · rw [hget 0 (by omega)]; simp
  · rw [hget n le_rfl]
    congr 1; funext c; field_simp; ring
  · intro i hi a b ha hb
    rw [hget i hi.le] at ha
    rw [hget (i + 1) hi] at hb
    rw [← Option.some.inj ha, ← Option.some.inj hb]
    funext c
    simp only [Pi.sub_apply, Pi.smul_apply, smul_eq_mul, Nat.cast_add, Nat.cast_one]
    ring

end bands

/-! ## C68 -/

section order
variable {n : ℕ}

/-- `E` has orthonormal columns. -/
def Orthonormal' (E : Matrix (Fin n) (Fin n) ℂ) : Prop := E.conjTranspose * E = 1

theorem overlap_row_sum (ref ev : Matrix (Fin n) (Fin n) ℂ) (hr : Orthonormal' ref) (he : Orthonormal' ev) :
    (∀ i, ∑ j, overlap ref ev i j ^ 2 = 1) ∧ ∀ j, ∑ i, overlap ref ev i j ^ 2 = 1 := by
  have hr' := mul_eq_one_comm.1 hr
  have he' := mul_eq_one_comm.1 he
  have key : ∀ U : Matrix (Fin n) (Fin n) ℂ, U * U.conjTranspose = 1 → ∀ i, ∑ j, ‖U i j‖ ^ 2 = 1 := by
    intro U hU i
    have := congrFun (congrFun hU i) i
    rw [Matrix.mul_apply, Matrix.one_apply_eq] at this
    have h2 : ∀ j, U i j * U.conjTranspose j i = ((‖U i j‖ ^ 2 : ℝ) : ℂ) := by
      intro j
      rw [Matrix.conjTranspose_apply]
      exact (Complex.mul_conj _).trans (by rw [Complex.normSq_eq_norm_sq])
    simp only [h2] at this
    rw [← Complex.ofReal_sum] at this
    exact_mod_cast this
  constructor
  · intro i
    refine key (ref.conjTranspose * ev) ?_ i
    rw [Matrix.conjTranspose_mul, Matrix.conjTranspose_conjTranspose, Matrix.mul_assoc, ← Matrix.mul_assoc ev, he', Matrix.one_mul, hr]
  · intro j
    have := key (ref.conjTranspose * ev).conjTranspose (by
      rw [Matrix.conjTranspose_conjTranspose, Matrix.conjTranspose_mul, Matrix.conjTranspose_conjTranspose, Matrix.mul_assoc, ← Matrix.mul_assoc ref, hr', Matrix.one_mul, he]) j
    rw [← this]
    refine Finset.sum_congr rfl fun i _ => ?_
    unfold overlap
    rw [Matrix.conjTranspose_apply, norm_star]

/-- `argmax` picks `j` if `j` is strictly best. -/
theorem argmax_strict (f : Fin n → ℝ) (j : Fin n) (h : ∀ k, k ≠ j → f k < f j) : (List.finRange n).argmax f = some j := by
  rw [← Option.mem_def, List.mem_argmax_iff]
  refine ⟨List.mem_finRange j, fun a _ => ?_, fun a _ ha => ?_⟩
  · by_cases e : a = j
    · rw [e]
    · exact (h a e).le
  · by_cases e : a = j
    · rw [e]
    · exact absurd ha (not_le.2 (h a e))

/-- **C68**, the part that holds: if the bands have not changed much, i.e. for each band `i` some renormalized band `σ i` has a squared overlap over one half with it at every wave vector of the segment, then the
order found is `σ`, it is a permutation, and the reordered frequencies are a rearrangement of the frequencies. For any number of bands and wave vectors (at least one). -/
theorem C68_permutation_partial (refs evs : List (Matrix (Fin n) (Fin n) ℂ)) (hne : refs.zip evs ≠ []) (hr : ∀ E ∈ refs, Orthonormal' E) (he : ∀ E ∈ evs, Orthonormal' E) (σ : Fin n → Fin n)
    (hσ : ∀ p ∈ refs.zip evs, ∀ i, 1 / 2 < overlap p.1 p.2 i (σ i) ^ 2) :
    (∀ i, eigenvectorOrder refs evs i = some (σ i)) ∧ Function.Bijective σ ∧ ∀ freq, (List.ofFn (reorderBands freq σ)).Perm (List.ofFn freq) := by
  have hpair : ∀ p ∈ refs.zip evs, Orthonormal' p.1 ∧ Orthonormal' p.2 := fun p hp =>
    ⟨hr _ (List.of_mem_zip (a := p.1) (b := p.2) hp).1, he _ (List.of_mem_zip (a := p.1) (b := p.2) hp).2⟩
  have hbij : Function.Bijective σ := by
    rw [← Finite.injective_iff_bijective]
    intro i i' e
    by_contra hii
    obtain ⟨p, hp⟩ := List.exists_mem_of_ne_nil _ hne
    have h1 := (overlap_row_sum p.1 p.2 (hpair p hp).1 (hpair p hp).2).2 (σ i)
    have h2 : overlap p.1 p.2 i (σ i) ^ 2 + overlap p.1 p.2 i' (σ i) ^ 2 ≤ 1 := by
      rw [← h1, ← Finset.sum_pair (f := fun x => overlap p.1 p.2 x (σ i) ^ 2) hii]
      exact Finset.sum_le_sum_of_subset_of_nonneg (Finset.subset_univ _) fun _ _ _ => sq_nonneg _
    have h3 := hσ p hp i
    have h4 := hσ p hp i'
    rw [← e] at h4
    linarith
  refine ⟨fun i => ?_, hbij, fun freq => ?_⟩
  · unfold eigenvectorOrder
    refine argmax_strict _ _ fun k hk => ?_
    have hlt : ∀ p ∈ refs.zip evs, overlap p.1 p.2 i k < overlap p.1 p.2 i (σ i) := by
      intro p hp
      have h1 := (overlap_row_sum p.1 p.2 (hpair p hp).1 (hpair p hp).2).1 i
      have h2 : overlap p.1 p.2 i k ^ 2 + overlap p.1 p.2 i (σ i) ^ 2 ≤ 1 := by
        rw [← h1, ← Finset.sum_pair (f := fun x => overlap p.1 p.2 i x ^ 2) hk]
        exact Finset.sum_le_sum_of_subset_of_nonneg (Finset.subset_univ _) fun _ _ _ => sq_nonneg _
      have h3 := hσ p hp i
      have h0 : 0 ≤ overlap p.1 p.2 i (σ i) := norm_nonneg _
      exact lt_of_pow_lt_pow_left₀ 2 h0 (by linarith)
    exact List.sum_lt_sum_of_ne_nil hne _ _ hlt
  · have := (Equiv.ofBijective σ hbij)
    have e : List.ofFn (reorderBands freq σ) = (List.ofFn σ).map freq := by rw [List.map_ofFn]; rfl
    have e2 : List.ofFn freq = (List.finRange n).map freq := List.ofFn_eq_map
    rw [e, e2]
    refine List.Perm.map _ ?_
    rw [List.perm_ext_iff_of_nodup (List.nodup_ofFn.2 hbij.1) (List.nodup_finRange n)]
    intro a
    simp only [List.mem_ofFn, List.mem_finRange, iff_true]
    exact hbij.2 a

/-- The hypotheses of `C68_permutation_partial` for two bands that cross. -/
example : ∀ p ∈ [(1 : Matrix (Fin 2) (Fin 2) ℂ)].zip [!![0, 1; 1, 0]], ∀ i, 1 / 2 < overlap p.1 p.2 i (Equiv.swap 0 1 i) ^ 2 := by
  intro p hp i
  simp only [List.zip_cons_cons, List.zip_nil_right, List.mem_singleton] at hp
  subst hp
  unfold overlap
  rw [Matrix.conjTranspose_one, Matrix.one_mul]
  fin_cases i <;> norm_num

/-- The eigenvectors `1 - (2/3) J` (a reflection). -/
noncomputable def reflection3 : Matrix (Fin 3) (Fin 3) ℂ := !![1/3, -2/3, -2/3; -2/3, 1/3, -2/3; -2/3, -2/3, 1/3]

theorem reflection3_orthonormal : Orthonormal' reflection3 := by
  unfold Orthonormal' reflection3
  ext i j
  fin_cases i <;> fin_cases j <;> simp [Matrix.mul_apply, Fin.sum_univ_three, Matrix.conjTranspose_apply, map_ofNat] <;> norm_num

/-- C68 is violated: for the harmonic eigenvectors `1` and the renormalized eigenvectors `1 - (2/3) J`, both orthonormal, the order is `1, 0, 0`: the frequency of band 2 is lost and that of band 0 appears twice. -/
theorem C68_violated : Orthonormal' (1 : Matrix (Fin 3) (Fin 3) ℂ) ∧ Orthonormal' reflection3 ∧
    eigenvectorOrder [1] [reflection3] 0 = some 1 ∧ eigenvectorOrder [1] [reflection3] 1 = some 0 ∧ eigenvectorOrder [1] [reflection3] 2 = some 0 := by
  have hov : ∀ i j, overlap 1 reflection3 i j = if i = j then 1/3 else 2/3 := by
    intro i j
    unfold overlap reflection3
    rw [Matrix.conjTranspose_one, Matrix.one_mul]
    fin_cases i <;> fin_cases j <;> simp [norm_inv]
  have hsum : ∀ i, (fun j => (([(1 : Matrix (Fin 3) (Fin 3) ℂ)].zip [reflection3]).map fun p => overlap p.1 p.2 i j).sum) = fun j => if i = j then (1/3 : ℝ) else 2/3 := by
    intro i; funext j; simp [hov]
  refine ⟨by simp [Orthonormal'], reflection3_orthonormal, ?_, ?_, ?_⟩ <;> unfold eigenvectorOrder <;> rw [hsum, ← Option.mem_def, List.mem_argmax_iff]
  all_goals
    refine ⟨List.mem_finRange _, ?_, ?_⟩
    · intro a _; fin_cases a <;> simp <;> norm_num
    · intro a _ ha
      fin_cases a <;> first | decide +kernel | (exfalso; revert ha; simp; norm_num)

end order

end Verif
