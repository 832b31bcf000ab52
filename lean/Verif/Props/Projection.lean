import Verif.Model.Projection
import Verif.Util
import Verif.Props.Supercell
import Mathlib.LinearAlgebra.Matrix.NonsingularInverse
import Mathlib.RingTheory.RootsOfUnity.Complex
import Mathlib.Algebra.BigOperators.Field

/-! # C22–C26: projections -/

set_option autoImplicit false

namespace Verif

/-! ## C22, C23 -/

theorem projectOntoPhonon_eq {f n d : ℕ} (vc : Fin n → Fin d → ℂ) (ev : Fin f → Fin n → Fin d → ℂ) (k : Fin f) :
    projectOntoPhonon vc ev k = ∑ i, ∑ c, vc i c * star (ev k i c) := by
  unfold projectOntoPhonon
  rw [foldl_add_list, zero_add, ← Fin.sum_univ_def]

/-- C22: the two implementations agree, for all velocities and eigenvectors of every shape. -/
theorem C22_agree {f n d : ℕ} (vc : Fin n → Fin d → ℂ) (ev : Fin f → Fin n → Fin d → ℂ) :
    projectOntoPhonon vc ev = projectOntoPhonon2 vc ev := by
  funext k
  rw [projectOntoPhonon_eq]
  simp [projectOntoPhonon2, Matrix.trace, Matrix.mul_apply]

/-- C23: for orthonormal eigenvectors, as many as degrees of freedom, the total power is conserved. -/
theorem C23_power {f n d : ℕ} (vc : Fin n → Fin d → ℂ) (ev : Fin f → Fin n → Fin d → ℂ) (hf : f = n * d)
    (horth : ∀ k l, ∑ i, ∑ c, ev k i c * star (ev l i c) = if k = l then 1 else 0) :
    ∑ k, ‖projectOntoPhonon vc ev k‖ ^ 2 = ∑ i, ∑ c, ‖vc i c‖ ^ 2 := by
  let E : Matrix (Fin f) (Fin n × Fin d) ℂ := fun k p => ev k p.1 p.2
  have h1 : E * E.conjTranspose = 1 := by
    ext k l
    rw [Matrix.mul_apply, Matrix.one_apply, ← horth k l, ← Finset.univ_product_univ, Finset.sum_product]
    rfl
  have h2 : E.conjTranspose * E = 1 :=
    (Matrix.mul_eq_one_comm_of_card_eq _ _ _ (by simp [hf])).mp h1
  have hn : ∀ z : ℂ, ((‖z‖ ^ 2 : ℝ) : ℂ) = z * star z := by
    intro z; rw [Complex.star_def, Complex.mul_conj, Complex.normSq_eq_norm_sq]
  apply Complex.ofReal_injective
  push_cast
  simp only [← Complex.ofReal_pow, hn]
  have hp : ∀ k, projectOntoPhonon vc ev k = ∑ p : Fin n × Fin d, vc p.1 p.2 * star (E k p) := by
    intro k
    rw [projectOntoPhonon_eq, ← Finset.univ_product_univ, Finset.sum_product]
  have hd : ∀ p q : Fin n × Fin d, ∑ k, star (E k p) * E k q = if p = q then 1 else 0 := by
    intro p q
    have := congrFun (congrFun h2 p) q
    rw [Matrix.mul_apply, Matrix.one_apply] at this
    exact this
  calc ∑ k, projectOntoPhonon vc ev k * star (projectOntoPhonon vc ev k)
      = ∑ k, ∑ p : Fin n × Fin d, ∑ q : Fin n × Fin d,
          vc p.1 p.2 * star (vc q.1 q.2) * (star (E k p) * E k q) := by
        apply Finset.sum_congr rfl; intro k _
        rw [hp, star_sum, Finset.sum_mul_sum]
        apply Finset.sum_congr rfl; intro p _
        apply Finset.sum_congr rfl; intro q _
        rw [star_mul', star_star]; ring
    _ = ∑ p : Fin n × Fin d, ∑ q : Fin n × Fin d, vc p.1 p.2 * star (vc q.1 q.2) * ∑ k, star (E k p) * E k q := by
        rw [Finset.sum_comm]
        apply Finset.sum_congr rfl; intro p _
        rw [Finset.sum_comm]
        apply Finset.sum_congr rfl; intro q _
        rw [Finset.mul_sum]
    _ = ∑ p : Fin n × Fin d, vc p.1 p.2 * star (vc p.1 p.2) := by
        apply Finset.sum_congr rfl; intro p _
        simp only [hd, mul_ite, mul_one, mul_zero, Finset.sum_ite_eq, Finset.mem_univ, if_true]
    _ = ∑ i, ∑ c, vc i c * star (vc i c) := by
        rw [← Finset.univ_product_univ, Finset.sum_product]

/-- The hypotheses of C23 are satisfiable: two modes `(1, ±i)/√2 ` of one atom in two dimensions. -/
example : ∃ ev : Fin 2 → Fin 1 → Fin 2 → ℂ, ∀ k l, ∑ i, ∑ c, ev k i c * star (ev l i c) = if k = l then 1 else 0 := by
  refine ⟨fun k _ c => if k = c then Complex.I else 0, ?_⟩
  intro k l
  fin_cases k <;> fin_cases l <;> simp

/-! ## C25 and the closed form of the projection -/

/-- Sum over the atoms of type `t`, without the normalisation. -/
theorem projectOntoWaveVector_eq {d e : ℕ} (v : ℕ → Fin e → ℂ) (q : Fin d → ℝ) (coords : List (Fin d → ℝ))
    (types : List ℕ) (nPrim : ℕ) (t0 : ℤ) (t : ℕ) (k : Fin e) :
    projectOntoWaveVector v q coords types nPrim t0 t k
      = (if t0 > -1 ∧ (t : ℤ) ≠ t0 then 0 else
        ∑ i ∈ (Finset.range types.length).filter (fun i => types.getD i 0 = t),
          v i k * Complex.exp (-Complex.I * ((∑ c, q c * coords.getD i 0 c : ℝ) : ℂ)))
        / (Real.sqrt ((types.length : ℝ) / nPrim) : ℂ) := by
  unfold projectOntoWaveVector
  congr 1
  have gen : ∀ (l : List ℕ) (m : ℕ → Fin e → ℂ),
      (l.foldl (fun (m : ℕ → Fin e → ℂ) i =>
        if t0 > -1 ∧ ((types.getD i 0 : ℕ) : ℤ) ≠ t0 then m
        else Function.update m (types.getD i 0) fun k => m (types.getD i 0) k
          + v i k * Complex.exp (-Complex.I * ((∑ c, q c * coords.getD i 0 c : ℝ) : ℂ))) m) t k
      = m t k + if t0 > -1 ∧ (t : ℤ) ≠ t0 then 0 else
        ((l.filter fun i => types.getD i 0 = t).map fun i =>
          v i k * Complex.exp (-Complex.I * ((∑ c, q c * coords.getD i 0 c : ℝ) : ℂ))).sum := by
    intro l
    induction l with
    | nil => intro m; simp
    | cons x l ih =>
      intro m
      rw [List.foldl_cons, ih]
      by_cases hx : types.getD x 0 = t
      · rw [List.filter_cons_of_pos (by simpa using hx)]
        rw [hx]
        by_cases hc : t0 > -1 ∧ (t : ℤ) ≠ t0
        · rw [if_pos hc, if_pos hc]
          simp [hc]
        · rw [if_neg hc, if_neg hc]
          simp only [Function.update_self, List.map_cons, List.sum_cons, if_neg hc]
          ring
      · rw [List.filter_cons_of_neg (by simpa using hx)]
        by_cases hc : t0 > -1 ∧ ((types.getD x 0 : ℕ) : ℤ) ≠ t0
        · rw [if_pos hc]
        · rw [if_neg hc, Function.update_of_ne (Ne.symm hx)]
  rw [gen, sum_map_filter_range _ (fun i => types.getD i 0 = t)]
  simp

/-- C25: projecting on type `t0` gives the unrestricted projection for that type and zero for the others. -/
theorem C25_restricted {d e : ℕ} (v : ℕ → Fin e → ℂ) (q : Fin d → ℝ) (coords : List (Fin d → ℝ))
    (types : List ℕ) (nPrim t0 t : ℕ) (k : Fin e) :
    projectOntoWaveVector v q coords types nPrim t0 t k
      = if t = t0 then projectOntoWaveVector v q coords types nPrim (-1) t k else 0 := by
  rw [projectOntoWaveVector_eq, projectOntoWaveVector_eq]
  by_cases h : t = t0
  · subst h; simp
  · have : (t : ℤ) ≠ t0 := by exact_mod_cast h
    have h2 : ((t0 : ℕ) : ℤ) > -1 := by omega
    rw [if_pos ⟨h2, this⟩, if_neg h, zero_div]

/-- C25: the restricted projections add up to the unrestricted one. -/
theorem C25_sum {d e : ℕ} (v : ℕ → Fin e → ℂ) (q : Fin d → ℝ) (coords : List (Fin d → ℝ))
    (types : List ℕ) (nPrim T : ℕ) (t : ℕ) (ht : t < T) (k : Fin e) :
    ∑ t0 ∈ Finset.range T, projectOntoWaveVector v q coords types nPrim t0 t k
      = projectOntoWaveVector v q coords types nPrim (-1) t k := by
  simp only [C25_restricted]
  rw [Finset.sum_ite_eq]
  simp [ht]

/-! ## C24 -/

/-- C24: linearity in the velocity. -/
theorem C24_linear {d e : ℕ} (v w : ℕ → Fin e → ℂ) (a b : ℂ) (q : Fin d → ℝ) (coords : List (Fin d → ℝ))
    (types : List ℕ) (nPrim : ℕ) (t0 : ℤ) (t : ℕ) (k : Fin e) :
    projectOntoWaveVector (fun i k => a * v i k + b * w i k) q coords types nPrim t0 t k
      = a * projectOntoWaveVector v q coords types nPrim t0 t k
        + b * projectOntoWaveVector w q coords types nPrim t0 t k := by
  simp only [projectOntoWaveVector_eq]
  split_ifs
  · simp
  · rw [mul_div_assoc', mul_div_assoc', ← add_div, Finset.mul_sum, Finset.mul_sum, ← Finset.sum_add_distrib]
    congr 1
    apply Finset.sum_congr rfl
    intro i _
    ring

/-- C24: shifting the origin of all coordinates does not change the power. -/
theorem C24_origin {d e : ℕ} (v : ℕ → Fin e → ℂ) (q s : Fin d → ℝ) (coords : List (Fin d → ℝ))
    (types : List ℕ) (hlen : coords.length = types.length) (nPrim : ℕ) (t0 : ℤ) (t : ℕ) (k : Fin e) :
    ‖projectOntoWaveVector v q (coords.map fun r => r + s) types nPrim t0 t k‖
      = ‖projectOntoWaveVector v q coords types nPrim t0 t k‖ := by
  have : projectOntoWaveVector v q (coords.map fun r => r + s) types nPrim t0 t k
      = Complex.exp (((-∑ c, q c * s c : ℝ) : ℂ) * Complex.I) * projectOntoWaveVector v q coords types nPrim t0 t k := by
    simp only [projectOntoWaveVector_eq]
    split_ifs
    · simp
    · rw [mul_div_assoc', Finset.mul_sum]
      congr 1
      apply Finset.sum_congr rfl
      intro i hi
      have hi' : i < coords.length := by
        have := (Finset.mem_filter.mp hi).1
        rw [Finset.mem_range] at this; omega
      have e1 : (coords.map fun r => r + s).getD i 0 = coords.getD i 0 + s := by
        simp [List.getD_eq_getElem?_getD, hi']
      rw [e1, mul_left_comm, ← Complex.exp_add]
      congr 2
      have : ∑ c, q c * (coords.getD i 0 + s) c = ∑ c, q c * coords.getD i 0 c + ∑ c, q c * s c := by
        rw [← Finset.sum_add_distrib]
        apply Finset.sum_congr rfl; intro c _; simp [mul_add]
      rw [this]
      push_cast
      ring
  rw [this, norm_mul, Complex.norm_exp_ofReal_mul_I, one_mul]

/-- C24, general form: if over the set `Q` of wave vectors the phases of any two different atoms of the same type average
to zero, and `Q` has as many elements as there are atoms of each type, the total power over `Q` is the total squared
velocity. `C24_power` below discharges the hypothesis. -/
theorem power_of_orthogonal {d e : ℕ} {Q : Type*} [Fintype Q] (q : Q → Fin d → ℝ) (v : ℕ → Fin e → ℂ)
    (coords : List (Fin d → ℝ)) (types : List ℕ) (T : ℕ) (hT : ∀ t ∈ types, t < T)
    (hN : types.length = T * Fintype.card Q) (hT0 : 0 < T) (hQ : 0 < Fintype.card Q)
    (horth : ∀ i j, i < types.length → j < types.length → types.getD i 0 = types.getD j 0 → i ≠ j →
      ∑ p, Complex.exp (Complex.I * ((∑ c, q p c * (coords.getD j 0 c - coords.getD i 0 c) : ℝ) : ℂ)) = 0) :
    ∑ p, ∑ t ∈ Finset.range T, ∑ k, ‖projectOntoWaveVector v (q p) coords types T (-1) t k‖ ^ 2
      = ∑ i ∈ Finset.range types.length, ∑ k, ‖v i k‖ ^ 2 := by
  have hn : ∀ z : ℂ, ((‖z‖ ^ 2 : ℝ) : ℂ) = z * star z := by
    intro z; rw [Complex.star_def, Complex.mul_conj, Complex.normSq_eq_norm_sq]
  have hratio : (types.length : ℝ) / T = Fintype.card Q := by
    rw [hN]; push_cast; field_simp
  have hcard : ((Fintype.card Q : ℝ) : ℂ) ≠ 0 := by
    rw [Complex.ofReal_ne_zero]; positivity
  apply Complex.ofReal_injective
  simp only [Complex.ofReal_sum, hn]
  -- one type, one direction
  have one : ∀ t k, ∑ p, projectOntoWaveVector v (q p) coords types T (-1) t k *
        star (projectOntoWaveVector v (q p) coords types T (-1) t k)
      = ∑ i ∈ (Finset.range types.length).filter (fun i => types.getD i 0 = t), v i k * star (v i k) := by
    intro t k
    set S := (Finset.range types.length).filter (fun i => types.getD i 0 = t) with hS
    have hterm : ∀ p, projectOntoWaveVector v (q p) coords types T (-1) t k *
        star (projectOntoWaveVector v (q p) coords types T (-1) t k)
        = (∑ i ∈ S, ∑ j ∈ S, v i k * star (v j k) *
            Complex.exp (Complex.I * ((∑ c, q p c * (coords.getD j 0 c - coords.getD i 0 c) : ℝ) : ℂ)))
          / ((Fintype.card Q : ℝ) : ℂ) := by
      intro p
      rw [projectOntoWaveVector_eq, if_neg (by simp), ← hS, hratio, star_div₀, div_mul_div_comm]
      have hsq : (Real.sqrt (Fintype.card Q) : ℂ) * star (Real.sqrt (Fintype.card Q) : ℂ) = ((Fintype.card Q : ℝ) : ℂ) := by
        rw [Complex.star_def, Complex.conj_ofReal, ← Complex.ofReal_mul, Real.mul_self_sqrt (by positivity)]
      rw [hsq, star_sum, Finset.sum_mul_sum]
      congr 1
      apply Finset.sum_congr rfl; intro i _
      apply Finset.sum_congr rfl; intro j _
      have hexp : ∀ x : ℝ, star (Complex.exp (-Complex.I * (x : ℂ))) = Complex.exp (Complex.I * (x : ℂ)) := by
        intro x
        rw [Complex.star_def, ← Complex.exp_conj, map_mul, map_neg, Complex.conj_I, Complex.conj_ofReal, neg_neg]
      rw [star_mul', hexp]
      have : ∑ c, q p c * (coords.getD j 0 c - coords.getD i 0 c)
          = ∑ c, q p c * coords.getD j 0 c - ∑ c, q p c * coords.getD i 0 c := by
        rw [← Finset.sum_sub_distrib]; apply Finset.sum_congr rfl; intro c _; ring
      rw [this, mul_mul_mul_comm, ← Complex.exp_add]
      congr 2
      push_cast
      ring
    simp only [hterm]
    rw [← Finset.sum_div, div_eq_iff hcard, Finset.sum_comm, Finset.sum_mul]
    apply Finset.sum_congr rfl; intro i hi
    rw [Finset.sum_comm]
    simp only [← Finset.mul_sum]
    rw [Finset.sum_eq_single i]
    · simp
    · intro j hj hji
      rw [hS, Finset.mem_filter, Finset.mem_range] at hi hj
      rw [horth i j hi.1 hj.1 (hi.2.trans hj.2.symm) (Ne.symm hji), mul_zero]
    · intro h; exact absurd hi h
  rw [Finset.sum_comm]
  have : ∀ t ∈ Finset.range T, ∑ p, ∑ k, projectOntoWaveVector v (q p) coords types T (-1) t k *
        star (projectOntoWaveVector v (q p) coords types T (-1) t k)
      = ∑ i ∈ (Finset.range types.length).filter (fun i => types.getD i 0 = t), ∑ k, v i k * star (v i k) := by
    intro t _
    rw [Finset.sum_comm]
    simp only [one]
    rw [Finset.sum_comm]
  rw [Finset.sum_congr rfl this]
  rw [← Finset.sum_fiberwise_of_maps_to (s := Finset.range types.length) (t := Finset.range T)
    (g := fun i => types.getD i 0)]
  intro i hi
  rw [Finset.mem_range] at hi ⊢
  apply hT
  rw [List.getD_eq_getElem?_getD, List.getElem?_eq_getElem hi]
  simp

/-! ### Wave vectors commensurate with the supercell -/

theorem exists_flatIndex (s : List ℕ) : ∀ m, m < s.prod → ∃ x, InBox s x ∧ flatIndex s x = m := by
  induction s with
  | nil => intro m hm; exact ⟨[], trivial, by simp at hm; simp [flatIndex, hm]⟩
  | cons a s ih =>
    intro m hm
    rw [List.prod_cons] at hm
    have ha : 0 < a := by
      rcases Nat.eq_zero_or_pos a with h | h
      · simp [h] at hm
      · exact h
    obtain ⟨x, hx, e⟩ := ih (m / a) (by rw [Nat.div_lt_iff_lt_mul ha, mul_comm]; exact hm)
    exact ⟨m % a :: x, ⟨Nat.mod_lt _ ha, hx⟩, by simp only [flatIndex, e]; exact Nat.mod_add_div m a⟩

theorem inBox_getD (s : List ℕ) : ∀ x, InBox s x → x.length = s.length ∧ ∀ c, c < s.length → x.getD c 0 < s.getD c 0 := by
  induction s with
  | nil =>
    intro x hx
    cases x with
    | nil => simp
    | cons => simp [InBox] at hx
  | cons a s ih =>
    intro x hx
    cases x with
    | nil => simp [InBox] at hx
    | cons y x =>
      obtain ⟨h1, h2⟩ := hx
      obtain ⟨h3, h4⟩ := ih x h2
      refine ⟨by simp [h3], ?_⟩
      intro c hc
      cases c with
      | zero => simpa using h1
      | succ c => simpa using h4 c (by simpa using hc)

/-- Geometric sum of a non-trivial root of unity. -/
theorem sum_root_of_unity (n : ℕ) (hn : 0 < n) (δ : ℤ) (h0 : δ ≠ 0) (h1 : |δ| < n) :
    ∑ p : Fin n, Complex.exp (2 * Real.pi * Complex.I * ((p : ℕ) * δ / n)) = 0 := by
  set ω := Complex.exp (2 * Real.pi * Complex.I * (δ / n)) with hω
  have hn' : (n : ℂ) ≠ 0 := by exact_mod_cast hn.ne'
  have hpow : ∀ p : ℕ, Complex.exp (2 * Real.pi * Complex.I * (p * δ / n)) = ω ^ p := by
    intro p
    rw [hω, ← Complex.exp_nat_mul]
    congr 1; ring
  have hne : ω ≠ 1 := by
    intro h
    rw [hω, Complex.exp_eq_one_iff] at h
    obtain ⟨k, hk⟩ := h
    have h2 : (2 * Real.pi * Complex.I) ≠ 0 := Complex.two_pi_I_ne_zero
    have h3 : ((δ : ℂ) / n) = k := by
      rw [mul_comm] at hk
      exact mul_right_cancel₀ h2 hk
    rw [div_eq_iff hn'] at h3
    have h4 : δ = k * n := by exact_mod_cast h3
    have hk0 : k ≠ 0 := by rintro rfl; simp at h4; exact h0 h4
    have : (n : ℤ) ≤ |δ| := by
      rw [h4, abs_mul, abs_of_nonneg (by positivity : (0 : ℤ) ≤ n)]
      have := Int.one_le_abs hk0
      nlinarith
    omega
  have hone : ω ^ n = 1 := by
    rw [← hpow, Complex.exp_eq_one_iff]
    exact ⟨δ, by field_simp⟩
  simp only [hpow]
  rw [Fin.sum_univ_eq_sum_range (fun i => ω ^ i) n, geom_sum_eq hne, hone, sub_self, zero_div]

/-- C24: conservation of power, for every unit cell that is primitive (every atom of the unit cell its own type), every
supercell and every velocity: summed over the wave vectors `(k_1/n_1, ..., k_d/n_d)`, `0 ≤ k_c < n_c`, which are all
those commensurate with the MD supercell up to reciprocal lattice vectors, the power of the projections is the total
squared mass weighted velocity. `C24_power` (Props/NormalModes.lean) is the general statement. -/
theorem C24_power_primitive {d e : ℕ} (positions : List (Fin d → ℝ)) (hpos : positions ≠ [])
    (cell : Matrix (Fin d) (Fin d) ℝ) (hcell : cell.det ≠ 0) (n : Fin d → ℕ) (hn : ∀ c, 0 < n c) (v : ℕ → Fin e → ℂ) :
    ∑ p : (∀ c, Fin (n c)), ∑ t ∈ Finset.range positions.length, ∑ k,
      ‖projectOntoWaveVector v (qVector cell fun c => ((p c : ℕ) : ℝ) / n c)
        (positionsSupercell positions cell (List.ofFn n))
        (expandSupercell (List.range positions.length) (List.ofFn n)) positions.length (-1) t k‖ ^ 2
      = ∑ i ∈ Finset.range (positions.length * ∏ c, n c), ∑ k, ‖v i k‖ ^ 2 := by
  set m := positions.length with hm
  have hm0 : 0 < m := List.length_pos_iff.mpr hpos
  have hprod : (List.ofFn n).prod = ∏ c, n c := by rw [List.prod_ofFn]
  have hP : 0 < ∏ c, n c := Finset.prod_pos fun c _ => hn c
  have hlen : (expandSupercell (List.range m) (List.ofFn n)).length = m * ∏ c, n c := by
    unfold expandSupercell
    rw [length_flatMap_const _ (∏ c, n c) _ (by simp [List.prod_ofFn]), List.length_range, mul_comm]
  have hcard : Fintype.card (∀ c, Fin (n c)) = ∏ c, n c := by simp
  rw [← hlen]
  refine power_of_orthogonal (fun (p : ∀ c, Fin (n c)) => qVector cell fun c => ((p c : ℕ) : ℝ) / n c) v _ _ m ?_ ?_ hm0 ?_ ?_
  · intro t ht
    simp only [expandSupercell, List.mem_flatMap, List.mem_range] at ht
    obtain ⟨a, ha, hta⟩ := ht
    rw [(List.mem_replicate.mp hta).2]; exact ha
  · rw [hcard, hlen]
  · rw [hcard]; exact hP
  · intro i j hi hj htype hij
    rw [hlen] at hi hj
    -- decompose the atom indices
    have dec : ∀ i, i < m * ∏ c, n c → ∃ a x, a < m ∧ InBox (List.ofFn n) x ∧ i = a * (List.ofFn n).prod + flatIndex (List.ofFn n) x := by
      intro i hi
      obtain ⟨x, hx, e⟩ := exists_flatIndex (List.ofFn n) (i % (List.ofFn n).prod) (Nat.mod_lt _ (by rw [hprod]; exact hP))
      refine ⟨i / (List.ofFn n).prod, x, ?_, hx, ?_⟩
      · rw [hprod, Nat.div_lt_iff_lt_mul hP]; exact hi
      · rw [e, mul_comm]; exact (Nat.div_add_mod _ _).symm
    obtain ⟨a, x, ha, hx, rfl⟩ := dec i hi
    obtain ⟨b, y, hb, hy, rfl⟩ := dec j hj
    have ht : ∀ a x, a < m → InBox (List.ofFn n) x →
        (expandSupercell (List.range m) (List.ofFn n)).getD (a * (List.ofFn n).prod + flatIndex (List.ofFn n) x) 0 = a := by
      intro a x ha hx
      rw [List.getD_eq_getElem?_getD, C02_block _ _ _ _ (flatIndex_lt _ _ hx), List.getElem?_range ha]
      rfl
    rw [ht a x ha hx, ht b y hb hy] at htype
    subst htype
    have hxy : x ≠ y := by rintro rfl; exact hij rfl
    have hpa : positions[a]? = some positions[a] := List.getElem?_eq_getElem ha
    have hcx : ∀ x, InBox (List.ofFn n) x → (positionsSupercell positions cell (List.ofFn n)).getD
        (a * (List.ofFn n).prod + flatIndex (List.ofFn n) x) 0
        = fun j => positions[a] j + ∑ c : Fin d, (x.getD c 0 : ℝ) * cell c j := by
      intro x hx
      rw [List.getD_eq_getElem?_getD, C01_order positions cell _ a _ hpa x hx]; rfl
    rw [hcx x hx, hcx y hy]
    obtain ⟨lx, bx⟩ := inBox_getD _ x hx
    obtain ⟨ly, by_⟩ := inBox_getD _ y hy
    have hne : ∃ c : Fin d, x.getD c 0 ≠ y.getD c 0 := by
      by_contra hcon
      push Not at hcon
      apply hxy
      apply List.ext_getElem (by rw [lx, ly])
      intro c h1 h2
      have := hcon ⟨c, by rw [lx] at h1; simpa using h1⟩
      simpa [List.getD_eq_getElem?_getD, h1, h2] using this
    -- the phase
    have hphase : ∀ p : (∀ c, Fin (n c)),
        ∑ l, qVector cell (fun c => ((p c : ℕ) : ℝ) / n c) l *
          ((positions[a] l + ∑ c : Fin d, (y.getD c 0 : ℝ) * cell c l)
            - (positions[a] l + ∑ c : Fin d, (x.getD c 0 : ℝ) * cell c l))
        = ∑ c, 2 * Real.pi * (((p c : ℕ) : ℝ) * (((y.getD c 0 : ℤ) - (x.getD c 0 : ℤ) : ℤ) : ℝ) / n c) := by
      intro p
      have hu : IsUnit cell.det := isUnit_iff_ne_zero.mpr hcell
      have hq : ∀ l, qVector cell (fun c => ((p c : ℕ) : ℝ) / n c) l
          = 2 * Real.pi * ∑ c, cell⁻¹ l c * (((p c : ℕ) : ℝ) / n c) := by
        intro l
        unfold qVector
        simp only [Matrix.vecMul, dotProduct, Matrix.smul_apply, Matrix.transpose_apply, smul_eq_mul, Finset.mul_sum]
        apply Finset.sum_congr rfl; intro c _; ring
      have hinv : ∀ c c' : Fin d, ∑ l, cell c l * cell⁻¹ l c' = if c = c' then 1 else 0 := by
        intro c c'
        have := congrFun (congrFun (Matrix.mul_nonsing_inv cell hu) c) c'
        rw [Matrix.mul_apply, Matrix.one_apply] at this
        exact this
      calc _ = ∑ l, ∑ c : Fin d, ∑ c' : Fin d, 2 * Real.pi * ((((y.getD c 0 : ℝ)) - x.getD c 0) * (((p c' : ℕ) : ℝ) / n c'))
                  * (cell c l * cell⁻¹ l c') := by
              apply Finset.sum_congr rfl; intro l _
              rw [hq, add_sub_add_left_eq_sub, ← Finset.sum_sub_distrib, mul_assoc, Finset.sum_mul_sum,
                Finset.sum_comm, Finset.mul_sum]
              apply Finset.sum_congr rfl; intro c _
              rw [Finset.mul_sum]
              apply Finset.sum_congr rfl; intro c' _
              ring
        _ = ∑ c : Fin d, ∑ c' : Fin d, 2 * Real.pi * ((((y.getD c 0 : ℝ)) - x.getD c 0) * (((p c' : ℕ) : ℝ) / n c'))
                  * ∑ l, cell c l * cell⁻¹ l c' := by
              rw [Finset.sum_comm]
              apply Finset.sum_congr rfl; intro c _
              rw [Finset.sum_comm]
              apply Finset.sum_congr rfl; intro c' _
              rw [Finset.mul_sum]
        _ = _ := by
              apply Finset.sum_congr rfl; intro c _
              simp only [hinv, mul_ite, mul_one, mul_zero, Finset.sum_ite_eq, Finset.mem_univ, if_true]
              push_cast
              ring
    simp only [hphase]
    have hprodform : ∀ p : (∀ c, Fin (n c)),
        Complex.exp (Complex.I * ((∑ c, 2 * Real.pi * (((p c : ℕ) : ℝ) *
          (((y.getD c 0 : ℤ) - (x.getD c 0 : ℤ) : ℤ) : ℝ) / n c) : ℝ) : ℂ))
        = ∏ c, Complex.exp (2 * Real.pi * Complex.I * (((p c : ℕ) : ℂ) *
          (((y.getD c 0 : ℤ) - (x.getD c 0 : ℤ) : ℤ) : ℂ) / n c)) := by
      intro p
      rw [← Complex.exp_sum, Complex.ofReal_sum, Finset.mul_sum]
      congr 1
      apply Finset.sum_congr rfl; intro c _
      push_cast
      ring
    simp only [hprodform]
    have hswap := Finset.prod_univ_sum (fun c : Fin d => (Finset.univ : Finset (Fin (n c))))
      (fun c p => Complex.exp (2 * Real.pi * Complex.I * (((p : ℕ) : ℂ) *
          (((y.getD c 0 : ℤ) - (x.getD c 0 : ℤ) : ℤ) : ℂ) / n c)))
    rw [Fintype.piFinset_univ] at hswap
    rw [← hswap]
    obtain ⟨c, hc⟩ := hne
    apply Finset.prod_eq_zero (Finset.mem_univ c)
    apply sum_root_of_unity (n c) (hn c)
    · omega
    · have h1 := bx c (by simp)
      have h2 := by_ c (by simp)
      have e : (List.ofFn n).getD c 0 = n c := by simp [List.getD_eq_getElem?_getD]
      rw [e] at h1 h2
      rw [abs_lt]; omega

/-- The hypotheses of C24_power_primitive hold e.g. for a two-atom hexagonal cell and a 2×3 supercell. -/
example : ∃ (positions : List (Fin 2 → ℝ)) (cell : Matrix (Fin 2) (Fin 2) ℝ) (n : Fin 2 → ℕ),
    positions.length = 2 ∧ cell.det ≠ 0 ∧ ∀ c, 0 < n c :=
  ⟨[![0, 0], ![1, 1]], !![2, 0; 1, 3], ![2, 3], rfl, by rw [Matrix.det_fin_two]; simp, by intro c; fin_cases c <;> simp⟩

/-! ## C26 -/

section
variable {K : Type*} [Field K] [LinearOrder K] [IsStrictOrderedRing K] [FloorRing K] {d : ℕ}

theorem npMod1_eq_zero (x : K) : npMod1 x = 0 ↔ ∃ m : ℤ, x = m := by
  unfold npMod1
  constructor
  · intro h; exact ⟨⌊x⌋, by linarith⟩
  · rintro ⟨m, rfl⟩; simp

theorem aroundDec_intCast (n : ℕ) (m : ℤ) : aroundDec n (m : K) = m := by
  unfold aroundDec
  have : (m : K) * 10 ^ n = ((m * 10 ^ n : ℤ) : K) := by push_cast; ring
  rw [this, roundEven_intCast]
  push_cast
  field_simp

/-- C26, what acceptance means: every coordinate is within half a unit of the last decimal of an integer. -/
theorem C26_accepted_near (P : Matrix (Fin d) (Fin d) K) (n : Fin d → ℕ) (dec : ℕ) (q : Fin d → K)
    (h : checkCommensurate P n dec q = true) (i : Fin d) :
    ∃ m : ℤ, |Matrix.vecMul q P⁻¹ i * n i - m| ≤ 1 / (2 * 10 ^ dec) := by
  unfold checkCommensurate at h
  simp only [decide_eq_true_eq] at h
  obtain ⟨m, hm⟩ := (npMod1_eq_zero _).1 (h i)
  refine ⟨m, ?_⟩
  rw [← hm]
  unfold aroundDec
  generalize Matrix.vecMul q P⁻¹ i * n i = x
  have h := roundEven_abs_sub (x * 10 ^ dec)
  have hp : (0 : K) < 10 ^ dec := by positivity
  have e : x - (roundEven (x * 10 ^ dec) : K) / 10 ^ dec = (x * 10 ^ dec - roundEven (x * 10 ^ dec)) / 10 ^ dec := by
    field_simp
  rw [e, abs_div, abs_of_pos hp, div_le_div_iff₀ hp (by positivity)]
  nlinarith

/-- C26: adding a reciprocal lattice vector of the primitive cell (integer reduced coordinates) does not change the
answer, if the unit cell consists of whole primitive cells (the inverse of the primitive matrix is integer). -/
theorem C26_reciprocal (P : Matrix (Fin d) (Fin d) K) (hP : ∃ B : Matrix (Fin d) (Fin d) ℤ, P⁻¹ = B.map (fun z => (z : K)))
    (n : Fin d → ℕ) (dec : ℕ) (hdec : 0 < dec) (q : Fin d → K) (g : Fin d → ℤ) :
    checkCommensurate P n dec (fun i => q i + g i) = checkCommensurate P n dec q := by
  obtain ⟨B, hB⟩ := hP
  unfold checkCommensurate
  have key : ∀ i, npMod1 (aroundDec dec (Matrix.vecMul (fun i => q i + g i) P⁻¹ i * n i)) = 0 ↔
      npMod1 (aroundDec dec (Matrix.vecMul q P⁻¹ i * n i)) = 0 := by
    intro i
    have e : Matrix.vecMul (fun i => q i + (g i : K)) P⁻¹ i * n i
        = Matrix.vecMul q P⁻¹ i * n i + ((Matrix.vecMul g B i * n i : ℤ) : K) := by
      have : (fun i => q i + (g i : K)) = q + fun i => (g i : K) := rfl
      rw [this, Matrix.add_vecMul, Pi.add_apply, add_mul]
      congr 1
      rw [hB]
      simp [Matrix.vecMul, dotProduct]
    rw [e]
    generalize Matrix.vecMul q P⁻¹ i * n i = x
    generalize Matrix.vecMul g B i * n i = z
    have hr : aroundDec dec (x + (z : K)) = aroundDec dec x + z := by
      unfold aroundDec
      have : (x + (z : K)) * 10 ^ dec = x * 10 ^ dec + ((z * 10 ^ dec : ℤ) : K) := by push_cast; ring
      rw [this, roundEven_add_even_int]
      · push_cast; field_simp
      · obtain ⟨k, rfl⟩ : ∃ k, dec = k + 1 := ⟨dec - 1, by omega⟩
        rw [pow_succ, ← mul_assoc, Int.mul_emod]; simp
    rw [hr, npMod1_eq_zero, npMod1_eq_zero]
    constructor
    · rintro ⟨m, hm⟩; exact ⟨m - z, by push_cast; linarith⟩
    · rintro ⟨m, hm⟩; exact ⟨m + z, by push_cast; linarith⟩
  simp only [key]

end

/-- The translation `Σ_i z_i n_i a_i` of the MD supercell, where `a_i` are the unit cell vectors (rows). -/
def mdTranslation {d : ℕ} (cell : Matrix (Fin d) (Fin d) ℝ) (n : Fin d → ℕ) (z : Fin d → ℤ) : Fin d → ℝ :=
  fun j => ∑ i, (z i : ℝ) * n i * cell i j

/-- Phase of a MD translation under the wave vector with reduced coordinates `q`; the primitive cell is
`(cellᵀ P)ᵀ` as in `get_primitive_cell`. -/
theorem phase_mdTranslation {d : ℕ} (cell P : Matrix (Fin d) (Fin d) ℝ) (hc : cell.det ≠ 0) (hP : P.det ≠ 0)
    (n : Fin d → ℕ) (q : Fin d → ℝ) (z : Fin d → ℤ) :
    ∑ j, qVector ((cell.transpose * P).transpose) q j * mdTranslation cell n z j
      = 2 * Real.pi * ∑ i, (z i : ℝ) * (Matrix.vecMul q P⁻¹ i * n i) := by
  have hcu : IsUnit cell.det := isUnit_iff_ne_zero.mpr hc
  have hPu : IsUnit P.det := isUnit_iff_ne_zero.mpr hP
  have e1 : qVector ((cell.transpose * P).transpose) q
      = (2 * Real.pi) • Matrix.mulVec cell⁻¹ (Matrix.vecMul q P⁻¹) := by
    unfold qVector
    rw [Matrix.vecMul_smul, Matrix.transpose_mul, Matrix.transpose_transpose, Matrix.mul_inv_rev, Matrix.transpose_mul,
      ← Matrix.vecMul_transpose, ← Matrix.vecMul_vecMul, Matrix.transpose_nonsing_inv, Matrix.transpose_transpose]
  have e2 : mdTranslation cell n z = Matrix.vecMul (fun i => (z i : ℝ) * n i) cell := by
    funext j; rfl
  have e3 : ∑ j, qVector ((cell.transpose * P).transpose) q j * mdTranslation cell n z j
      = dotProduct (mdTranslation cell n z) (qVector ((cell.transpose * P).transpose) q) := by
    rw [dotProduct]; apply Finset.sum_congr rfl; intro j _; ring
  rw [e3, e1, e2, dotProduct_smul, Matrix.dotProduct_mulVec, Matrix.vecMul_vecMul, Matrix.mul_nonsing_inv _ hcu,
    Matrix.vecMul_one, smul_eq_mul]
  congr 1
  rw [dotProduct]
  apply Finset.sum_congr rfl; intro i _; ring

/-- C26: the phase factor is 1 on all translations of the MD supercell exactly when all coordinates that
`check_commensurate` looks at are integers. -/
theorem C26_phase_iff {d : ℕ} (cell P : Matrix (Fin d) (Fin d) ℝ) (hc : cell.det ≠ 0) (hP : P.det ≠ 0)
    (n : Fin d → ℕ) (q : Fin d → ℝ) :
    (∀ z : Fin d → ℤ, Complex.exp (-Complex.I *
      ((∑ j, qVector ((cell.transpose * P).transpose) q j * mdTranslation cell n z j : ℝ) : ℂ)) = 1) ↔
    ∀ i, ∃ m : ℤ, Matrix.vecMul q P⁻¹ i * n i = m := by
  simp only [phase_mdTranslation cell P hc hP]
  have hexp : ∀ x : ℝ, Complex.exp (-Complex.I * ((2 * Real.pi * x : ℝ) : ℂ)) = 1 ↔ ∃ m : ℤ, x = m := by
    intro x
    rw [Complex.exp_eq_one_iff]
    have h2 : (2 * Real.pi * Complex.I) ≠ 0 := Complex.two_pi_I_ne_zero
    constructor
    · rintro ⟨k, hk⟩
      refine ⟨-k, ?_⟩
      have : (x : ℂ) = -k := by
        apply mul_right_cancel₀ h2
        push_cast at hk
        linear_combination -hk
      exact_mod_cast this
    · rintro ⟨m, rfl⟩
      exact ⟨-m, by push_cast; ring⟩
  simp only [hexp]
  constructor
  · intro h i
    obtain ⟨m, hm⟩ := h (fun j => if j = i then 1 else 0)
    refine ⟨m, ?_⟩
    rw [← hm]
    simp
  · intro h z
    choose m hm using h
    exact ⟨∑ i, z i * m i, by push_cast; simp only [hm]⟩

/-- C26: every wave vector whose phase factor is 1 on all MD translations is accepted, for every number of decimals. -/
theorem C26_accepts {d : ℕ} (cell P : Matrix (Fin d) (Fin d) ℝ) (hc : cell.det ≠ 0) (hP : P.det ≠ 0)
    (n : Fin d → ℕ) (dec : ℕ) (q : Fin d → ℝ)
    (h : ∀ z : Fin d → ℤ, Complex.exp (-Complex.I *
      ((∑ j, qVector ((cell.transpose * P).transpose) q j * mdTranslation cell n z j : ℝ) : ℂ)) = 1) :
    checkCommensurate P n dec q = true := by
  rw [C26_phase_iff cell P hc hP] at h
  unfold checkCommensurate
  simp only [decide_eq_true_eq]
  intro i
  obtain ⟨m, hm⟩ := h i
  rw [hm, aroundDec_intCast, npMod1_eq_zero]
  exact ⟨m, rfl⟩

/-- A commensurate example: q = (1/2, 0), identity primitive matrix, 2 × 1 supercell. -/
example : ∀ i, ∃ m : ℤ, Matrix.vecMul (![1 / 2, 0] : Fin 2 → ℝ) (1 : Matrix (Fin 2) (Fin 2) ℝ)⁻¹ i
    * ((![2, 1] : Fin 2 → ℕ) i : ℝ) = m := by
  intro i
  rw [inv_one, Matrix.vecMul_one]
  fin_cases i
  · exact ⟨1, by simp⟩
  · exact ⟨0, by simp⟩

end Verif
