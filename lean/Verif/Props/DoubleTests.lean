import Verif.Model.DoubleTests
import Verif.Props.DoubleRange

/-! # C26 in double precision -/

set_option autoImplicit false

namespace Verif

/-- One operation on a value known up to `e`. -/
theorem fl_near {x y M e : ℚ} (h : |x - y| ≤ e) (hy : |y| ≤ M) : |fl x - y| ≤ e + (M + e) / 2 ^ 53 := by
  have h1 : |x| ≤ M + e := by
    have : x = (x - y) + y := by ring
    rw [this]; exact (abs_add_le _ _).trans (by linarith)
  have h2 := fl_error_abs h1
  have : fl x - y = (fl x - x) + (x - y) := by ring
  rw [this]
  exact (abs_add_le _ _).trans (by linarith)

theorem roundEven_near {y : ℚ} {m : ℤ} (h : |y - m| < 1 / 2) : roundEven y = m := by
  have h1 := abs_le.1 (roundEven_abs_sub y)
  have h2 := abs_lt.1 h
  have a : ((roundEven y : ℤ) : ℚ) - m < 1 := by linarith
  have b : -1 < ((roundEven y : ℤ) : ℚ) - m := by linarith
  have a' : roundEven y - m < 1 := by exact_mod_cast a
  have b' : -1 < roundEven y - m := by exact_mod_cast b
  omega

/-- The test of one coordinate: values within 4.99e-5 of a whole number pass, and only values within 5.01e-5 of one. -/
theorem aroundFl_int (t : ℚ) (ht : |t| ≤ 2 ^ 20) :
    (∀ m : ℤ, |t - m| ≤ 499 / 10 ^ 7 → aroundFl t = m) ∧ ((aroundFl t).den = 1 → ∃ m : ℤ, |t - m| ≤ 501 / 10 ^ 7) := by
  have hT : |t * 10 ^ 4| ≤ 2 ^ 20 * 10 ^ 4 := by
    rw [abs_mul, abs_of_pos (show (0 : ℚ) < 10 ^ 4 by norm_num)]; gcongr
  have e1 := abs_le.1 (fl_error_abs hT)
  have e2 := abs_le.1 (roundEven_abs_sub (fl (t * 10 ^ 4)))
  have ht' := abs_le.1 ht
  refine ⟨fun m hm => ?_, fun hd => ?_⟩
  · have hm' := abs_le.1 hm
    have hr : roundEven (fl (t * 10 ^ 4)) = m * 10 ^ 4 := by
      apply roundEven_near
      rw [abs_lt]
      push_cast
      constructor <;> norm_num at e1 hm' ⊢ <;> linarith
    unfold aroundFl
    rw [hr]
    have hdiv : ((m * 10 ^ 4 : ℤ) : ℚ) / 10 ^ 4 = m := by push_cast; norm_num
    rw [hdiv]
    apply fl_of_double
    apply double_int
    have h1 : (m : ℚ) ≤ 2 ^ 53 := by norm_num at hm' ht' ⊢; linarith
    have h2 : -(2 ^ 53 : ℚ) ≤ m := by norm_num at hm' ht' ⊢; linarith
    rw [abs_le]
    exact ⟨by exact_mod_cast h2, by exact_mod_cast h1⟩
  · set k := roundEven (fl (t * 10 ^ 4)) with hk
    obtain ⟨z, hz⟩ : ∃ z : ℤ, aroundFl t = z := ⟨(aroundFl t).num, (Rat.den_eq_one_iff _).1 hd |>.symm⟩
    have hkb : |(k : ℚ) / 10 ^ 4| ≤ 2 ^ 21 := by
      rw [abs_le]
      constructor
      · rw [le_div_iff₀ (by norm_num)]; norm_num at e1 e2 ht' ⊢; linarith
      · rw [div_le_iff₀ (by norm_num)]; norm_num at e1 e2 ht' ⊢; linarith
    have e3 := abs_le.1 (fl_error_abs hkb)
    have hz' : fl ((k : ℚ) / 10 ^ 4) = z := hz
    rw [hz'] at e3
    have hkz : k = z * 10 ^ 4 := by
      have a : (k : ℚ) - z * 10 ^ 4 < 1 := by
        have := e3.1; norm_num at this ⊢; linarith
      have b : -1 < (k : ℚ) - z * 10 ^ 4 := by
        have := e3.2; norm_num at this ⊢; linarith
      have a' : k - z * 10 ^ 4 < 1 := by exact_mod_cast a
      have b' : -1 < k - z * 10 ^ 4 := by exact_mod_cast b
      omega
    refine ⟨z, ?_⟩
    rw [hkz] at e2
    push_cast at e2
    rw [abs_le]
    constructor <;> norm_num at e1 e2 ⊢ <;> linarith

/-- The coordinates are calculated to 1e-7. -/
theorem transformFl_error (q qf : Fin 3 → ℚ) (B Bf : Fin 3 → Fin 3 → ℚ) (n : Fin 3 → ℕ) (hq : ∀ i, |q i| ≤ 16) (hqf : ∀ i, |qf i - q i| ≤ 1 / 2 ^ 40)
    (hB : ∀ i j, |B i j| ≤ 16) (hBf : ∀ i j, |Bf i j - B i j| ≤ 1 / 2 ^ 40) (hn : ∀ i, n i ≤ 2 ^ 8) (i : Fin 3) :
    |transformFl qf Bf n i - (∑ k, q k * B k i) * n i| ≤ 1 / 10 ^ 7 ∧ |(∑ k, q k * B k i) * (n i : ℚ)| ≤ 2 ^ 18 := by
  have hprod : ∀ k, |q k * B k i| ≤ 256 := by
    intro k
    rw [abs_mul]
    calc |q k| * |B k i| ≤ 16 * 16 := mul_le_mul (hq k) (hB k i) (abs_nonneg _) (by norm_num)
      _ = 256 := by norm_num
  have h0 : ∀ k, |fl (qf k * Bf k i) - q k * B k i| ≤ 1 / 2 ^ 34 := by
    intro k
    have hd : |qf k * Bf k i - q k * B k i| ≤ 33 / 2 ^ 40 := by
      have e : qf k * Bf k i - q k * B k i = (qf k - q k) * (Bf k i - B k i) + (qf k - q k) * B k i + q k * (Bf k i - B k i) := by ring
      rw [e]
      refine (abs_add_three _ _ _).trans ?_
      rw [abs_mul, abs_mul, abs_mul]
      have a1 := mul_le_mul (hqf k) (hBf k i) (abs_nonneg _) (by norm_num)
      have a2 := mul_le_mul (hqf k) (hB k i) (abs_nonneg _) (by norm_num)
      have a3 := mul_le_mul (hq k) (hBf k i) (abs_nonneg _) (by norm_num)
      refine (add_le_add (add_le_add a1 a2) a3).trans ?_
      norm_num
    exact (fl_near hd (hprod k)).trans (by norm_num)
  have h01 : |fl (qf 0 * Bf 0 i) + fl (qf 1 * Bf 1 i) - (q 0 * B 0 i + q 1 * B 1 i)| ≤ 2 / 2 ^ 34 := by
    rw [show fl (qf 0 * Bf 0 i) + fl (qf 1 * Bf 1 i) - (q 0 * B 0 i + q 1 * B 1 i) = (fl (qf 0 * Bf 0 i) - q 0 * B 0 i) + (fl (qf 1 * Bf 1 i) - q 1 * B 1 i) by ring]
    exact (abs_add_le _ _).trans ((add_le_add (h0 0) (h0 1)).trans (by norm_num))
  have hs2 : |q 0 * B 0 i + q 1 * B 1 i| ≤ 512 := (abs_add_le _ _).trans ((add_le_add (hprod 0) (hprod 1)).trans (by norm_num))
  have h2 := (fl_near h01 hs2).trans (show (2 / 2 ^ 34 + (512 + 2 / 2 ^ 34) / 2 ^ 53 : ℚ) ≤ 3 / 2 ^ 34 by norm_num)
  have h3 : |fl (fl (qf 0 * Bf 0 i) + fl (qf 1 * Bf 1 i)) + fl (qf 2 * Bf 2 i) - (q 0 * B 0 i + q 1 * B 1 i + q 2 * B 2 i)| ≤ 4 / 2 ^ 34 := by
    rw [show fl (fl (qf 0 * Bf 0 i) + fl (qf 1 * Bf 1 i)) + fl (qf 2 * Bf 2 i) - (q 0 * B 0 i + q 1 * B 1 i + q 2 * B 2 i) =
      (fl (fl (qf 0 * Bf 0 i) + fl (qf 1 * Bf 1 i)) - (q 0 * B 0 i + q 1 * B 1 i)) + (fl (qf 2 * Bf 2 i) - q 2 * B 2 i) by ring]
    exact (abs_add_le _ _).trans ((add_le_add h2 (h0 2)).trans (by norm_num))
  have hs3 : |q 0 * B 0 i + q 1 * B 1 i + q 2 * B 2 i| ≤ 768 := (abs_add_le _ _).trans ((add_le_add hs2 (hprod 2)).trans (by norm_num))
  have h4 := (fl_near h3 hs3).trans (show (4 / 2 ^ 34 + (768 + 4 / 2 ^ 34) / 2 ^ 53 : ℚ) ≤ 5 / 2 ^ 34 by norm_num)
  have hnq : |(n i : ℚ)| ≤ 2 ^ 8 := by
    rw [abs_of_nonneg (by positivity)]; exact_mod_cast hn i
  have hsum : ∑ k, q k * B k i = q 0 * B 0 i + q 1 * B 1 i + q 2 * B 2 i := Fin.sum_univ_three _
  have hs4 : |(q 0 * B 0 i + q 1 * B 1 i + q 2 * B 2 i) * (n i : ℚ)| ≤ 768 * 2 ^ 8 := by
    rw [abs_mul]; exact mul_le_mul hs3 hnq (abs_nonneg _) (by norm_num)
  rw [hsum]
  refine ⟨?_, hs4.trans (by norm_num)⟩
  have h5 : |fl (fl (fl (qf 0 * Bf 0 i) + fl (qf 1 * Bf 1 i)) + fl (qf 2 * Bf 2 i)) * n i - (q 0 * B 0 i + q 1 * B 1 i + q 2 * B 2 i) * n i| ≤ 5 / 2 ^ 34 * 2 ^ 8 := by
    rw [← sub_mul, abs_mul]
    exact mul_le_mul h4 hnq (abs_nonneg _) (by norm_num)
  exact (fl_near h5 hs4).trans (by norm_num)

/-- **C26 in double precision**: for wave vectors and inverse primitive matrices with entries up to 16, known to 1e-12, and supercells up to 256, rounding errors do not matter: `check_commensurate` accepts every
commensurate wave vector, and every wave vector it accepts is commensurate up to 5.02e-5 in each coordinate. -/
theorem C26_double (q qf : Fin 3 → ℚ) (B Bf : Fin 3 → Fin 3 → ℚ) (n : Fin 3 → ℕ) (hq : ∀ i, |q i| ≤ 16) (hqf : ∀ i, |qf i - q i| ≤ 1 / 2 ^ 40)
    (hB : ∀ i j, |B i j| ≤ 16) (hBf : ∀ i j, |Bf i j - B i j| ≤ 1 / 2 ^ 40) (hn : ∀ i, n i ≤ 2 ^ 8) :
    ((∀ i, ∃ m : ℤ, (∑ k, q k * B k i) * n i = m) → checkCommensurateFl qf Bf n = true) ∧
    (checkCommensurateFl qf Bf n = true → ∀ i, ∃ m : ℤ, |(∑ k, q k * B k i) * n i - m| ≤ 502 / 10 ^ 7) := by
  have herr := fun i => transformFl_error q qf B Bf n hq hqf hB hBf hn i
  have hsize : ∀ i, |transformFl qf Bf n i| ≤ 2 ^ 20 := by
    intro i
    obtain ⟨h1, h2⟩ := herr i
    have h1' := abs_le.1 h1
    have h2' := abs_le.1 h2
    rw [abs_le]
    constructor <;> norm_num at h1' h2' ⊢ <;> linarith
  unfold checkCommensurateFl
  rw [decide_eq_true_eq]
  refine ⟨fun h i => ?_, fun h i => ?_⟩
  · obtain ⟨m, hm⟩ := h i
    have h1 := (herr i).1
    rw [hm] at h1
    rw [(aroundFl_int _ (hsize i)).1 m (h1.trans (by norm_num)), Rat.den_intCast]
  · obtain ⟨m, hm⟩ := (aroundFl_int _ (hsize i)).2 (h i)
    refine ⟨m, ?_⟩
    have h1 := abs_le.1 (herr i).1
    have h2 := abs_le.1 hm
    rw [abs_le]
    constructor <;> norm_num at h1 h2 ⊢ <;> linarith

/-- One third in a supercell of three: the float is not 1/3, nor is three times it exactly calculated; still the vector is accepted, and one tenth is not. -/
example : fl (1 / 3) ≠ 1 / 3 ∧ checkCommensurateFl (fun _ => fl (1 / 3)) (fun i j => if i = j then 1 else 0) (fun _ => 3) = true ∧
    checkCommensurateFl (fun _ => fl (1 / 10)) (fun i j => if i = j then 1 else 0) (fun _ => 3) = false := by decide +kernel

/-- The hypotheses of the theorem for that vector. -/
example : |fl (1 / 3) - 1 / 3| ≤ 1 / 2 ^ 40 ∧ |(1 / 3 : ℚ)| ≤ 16 := by decide +kernel

/-! ## C66 -/

/-- **C66** in double precision: every point of a segment between wave vectors with coordinates from -1 to 1 is within `10 / 2 ^ 53` (about `10 ^ -15`) of the point on the straight line, for any resolution. -/
theorem C66_double (n : ℕ) (hn : 0 < n) (q0 q1 : ℚ) (h0 : |q0| ≤ 1) (h1 : |q1| ≤ 1) (i : ℕ) (hi : i ≤ n) :
    |bandPointFl n q0 q1 i - (q0 + (q1 - q0) / n * i)| ≤ 10 / 2 ^ 53 := by
  have hn' : (0 : ℚ) < n := by exact_mod_cast hn
  have hin : (i : ℚ) / n ≤ 1 := by rw [div_le_one hn']; exact_mod_cast hi
  have hi0 : (0 : ℚ) ≤ i := Nat.cast_nonneg i
  have hd : |q1 - q0| ≤ 2 := by rw [abs_le] at *; constructor <;> linarith
  have e1 : |fl (q1 - q0) - (q1 - q0)| ≤ 2 / 2 ^ 53 := (fl_error _).trans (by gcongr)
  have e2 : |fl (fl (q1 - q0) / n) - (q1 - q0) / n| ≤ (2 / 2 ^ 53) / n + (2 / n + (2 / 2 ^ 53) / n) / 2 ^ 53 := by
    refine fl_near ?_ ?_
    · rw [← sub_div, abs_div, abs_of_pos hn']; gcongr
    · rw [abs_div, abs_of_pos hn']; gcongr
  have e3 : |fl (fl (fl (q1 - q0) / n) * i) - (q1 - q0) / n * i| ≤ (4 / 2 ^ 53 + 2 / 2 ^ 106) + (2 + (4 / 2 ^ 53 + 2 / 2 ^ 106)) / 2 ^ 53 := by
    refine fl_near ?_ ?_
    · rw [← sub_mul, abs_mul, abs_of_nonneg hi0]
      calc |fl (fl (q1 - q0) / n) - (q1 - q0) / n| * i ≤ ((2 / 2 ^ 53) / n + (2 / n + (2 / 2 ^ 53) / n) / 2 ^ 53) * i := by gcongr
        _ = (4 / 2 ^ 53 + 2 / 2 ^ 106) * (i / n) := by field_simp; ring
        _ ≤ (4 / 2 ^ 53 + 2 / 2 ^ 106) * 1 := by gcongr
        _ = _ := by ring
    · rw [abs_mul, abs_div, abs_of_pos hn', abs_of_nonneg hi0]
      calc |q1 - q0| / n * i = |q1 - q0| * (i / n) := by ring
        _ ≤ 2 * 1 := by gcongr
        _ = 2 := by ring
  have hM : |q0 + (q1 - q0) / n * i| ≤ 1 := by
    have e : q0 + (q1 - q0) / n * i = q0 * (1 - i / n) + q1 * (i / n) := by ring
    have ht : 0 ≤ (i : ℚ) / n := by positivity
    rw [e, abs_le]
    rw [abs_le] at h0 h1
    constructor <;> nlinarith
  have e3' : |q0 + fl (fl (fl (q1 - q0) / n) * i) - (q0 + (q1 - q0) / n * i)| ≤ (4 / 2 ^ 53 + 2 / 2 ^ 106) + (2 + (4 / 2 ^ 53 + 2 / 2 ^ 106)) / 2 ^ 53 := by
    rw [add_sub_add_left_eq_sub]
    exact e3
  have e4 := fl_near e3' hM
  refine e4.trans ?_
  norm_num

example : |bandPointFl 30 0 (1 / 2) 30 - 1 / 2| ≤ 10 / 2 ^ 53 := by
  have := C66_double 30 (by norm_num) 0 (1 / 2) (by norm_num) (by norm_num) 30 le_rfl
  norm_num at this ⊢
  exact this

/-- **C66** is violated in double precision: with the resolution 30 that is the default, a segment from 1 to the float next to 1/3 does not end at that float. -/
theorem C66_double_violated : ¬ ∀ q0 q1 : ℚ, fl q0 = q0 → fl q1 = q1 → |q0| ≤ 1 → |q1| ≤ 1 → bandPointFl 30 q0 q1 30 = q1 := by
  intro h
  exact absurd (h 1 (fl (1 / 3)) (by decide +kernel) (by decide +kernel) (by decide +kernel) (by decide +kernel)) (by decide +kernel)

end Verif
