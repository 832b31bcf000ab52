import Verif.Model.Double
import Verif.Props.Division
import Verif.Util

/-! # Double precision: properties of the rounding -/

set_option autoImplicit false

namespace Verif

/-! ## Specification -/

/-- A rational number that is a float: a whole number of at most 53 binary digits times a power of two. -/
def IsDouble (x : ℚ) : Prop := ∃ (m e : ℤ), |m| ≤ 2 ^ 53 ∧ x = m * 2 ^ e

/-! ## Rounding -/

theorem two_zpow_pos (e : ℤ) : (0 : ℚ) < 2 ^ e := zpow_pos (by norm_num) e

theorem flExp_lower {x : ℚ} (hx : x ≠ 0) : (2 : ℚ) ^ (flExp x + 52) ≤ |x| := by
  have := Int.zpow_log_le_self (b := 2) (R := ℚ) (by norm_num) (abs_pos.mpr hx)
  unfold flExp
  rw [sub_add_cancel]
  exact_mod_cast this

theorem flExp_upper (x : ℚ) : |x| < (2 : ℚ) ^ (flExp x + 53) := by
  have := Int.lt_zpow_succ_log_self (b := 2) (R := ℚ) (by norm_num) |x|
  unfold flExp
  rw [show Int.log 2 |x| - 52 + 53 = Int.log 2 |x| + 1 by ring]
  exact_mod_cast this

theorem roundEven_le_int {x : ℚ} {m : ℤ} (h : x ≤ m) : roundEven x ≤ m := by
  by_contra hc
  push Not at hc
  have h1 := roundEven_abs_sub x
  rw [abs_le] at h1
  have h2 : (m : ℚ) + 1 ≤ roundEven x := by exact_mod_cast hc
  linarith [h1.1]

theorem int_le_roundEven {x : ℚ} {m : ℤ} (h : (m : ℚ) ≤ x) : m ≤ roundEven x := by
  by_contra hc
  push Not at hc
  have h1 := roundEven_abs_sub x
  rw [abs_le] at h1
  have h2 : (roundEven x : ℚ) + 1 ≤ m := by exact_mod_cast hc
  linarith [h1.2]

theorem fl_zero : fl 0 = 0 := by simp [fl]

/-- The result of an operation is a float. -/
theorem fl_double (x : ℚ) : IsDouble (fl x) := by
  by_cases hx : x = 0
  · exact ⟨0, 0, by norm_num, by simp [fl, hx]⟩
  · refine ⟨roundEven (x / 2 ^ flExp x), flExp x, ?_, by simp [fl, hx]⟩
    have hb : |x / 2 ^ flExp x| ≤ ((2 ^ 53 : ℤ) : ℚ) := by
      rw [abs_div, abs_of_pos (two_zpow_pos _), div_le_iff₀ (two_zpow_pos _)]
      refine (flExp_upper x).le.trans (le_of_eq ?_)
      rw [zpow_add₀ (by norm_num), mul_comm]; norm_num
    rw [abs_le] at hb ⊢
    exact ⟨int_le_roundEven (by push_cast at hb ⊢; exact hb.1), roundEven_le_int hb.2⟩

theorem fl_of_mul {x : ℚ} (k : ℤ) (hx : x = k * 2 ^ flExp x) : fl x = x := by
  by_cases h0 : x = 0
  · simp [fl, h0]
  · unfold fl
    rw [if_neg h0]
    have : x / 2 ^ flExp x = k := by rw [div_eq_iff (two_zpow_pos _).ne']; exact hx
    rw [this, roundEven_intCast]; exact hx.symm

/-- A float is a multiple of any power of two that is not above its last place. -/
theorem double_mul_of_le {x : ℚ} (h : IsDouble x) (E : ℤ) (hE : (2 : ℚ) ^ (E + 52) ≤ |x|) : ∃ k : ℤ, x = k * 2 ^ E := by
  obtain ⟨m, e, hm, rfl⟩ := h
  have hmq : |(m : ℚ)| ≤ 2 ^ 53 := by exact_mod_cast hm
  rw [abs_mul, abs_of_pos (two_zpow_pos e)] at hE
  by_cases he : E ≤ e
  · refine ⟨m * 2 ^ (e - E).toNat, ?_⟩
    push_cast
    rw [mul_assoc, ← zpow_natCast, Int.toNat_of_nonneg (by omega), ← zpow_add₀ (by norm_num)]
    congr 2; ring
  · have he' : e + 1 ≤ E := by omega
    -- then the number is a power of two
    have h1 : (2 : ℚ) ^ (E + 52) ≤ 2 ^ (e + 53) := by
      refine hE.trans ?_
      rw [add_comm e, zpow_add₀ (by norm_num)]
      have : (2 : ℚ) ^ (53 : ℤ) = 2 ^ 53 := by norm_num
      rw [this]
      exact mul_le_mul_of_nonneg_right hmq (two_zpow_pos e).le
    have h2 : E + 52 ≤ e + 53 := (zpow_le_zpow_iff_right₀ (by norm_num)).mp h1
    have h3 : E = e + 1 := by omega
    subst h3
    have h4 : (2 : ℚ) ^ 53 ≤ |(m : ℚ)| := by
      have : (2 : ℚ) ^ (e + 1 + 52) = 2 ^ 53 * 2 ^ e := by
        rw [show e + 1 + 52 = 53 + e by ring, zpow_add₀ (by norm_num)]; norm_num
      rw [this] at hE
      exact le_of_mul_le_mul_right hE (two_zpow_pos e)
    have h5 : |m| = 2 ^ 53 := le_antisymm hm (by exact_mod_cast h4)
    rcases abs_eq (by positivity) |>.mp h5 with h | h
    · exact ⟨2 ^ 52, by rw [h, zpow_add_one₀ (by norm_num)]; push_cast; ring⟩
    · exact ⟨-2 ^ 52, by rw [h, zpow_add_one₀ (by norm_num)]; push_cast; ring⟩

/-- Floats are not changed. -/
theorem fl_of_double {x : ℚ} (h : IsDouble x) : fl x = x := by
  by_cases h0 : x = 0
  · simp [fl, h0]
  · obtain ⟨k, hk⟩ := double_mul_of_le h (flExp x) (flExp_lower h0)
    exact fl_of_mul k hk

/-- The relative error of an operation is at most 2^-53. -/
theorem fl_error (x : ℚ) : |fl x - x| ≤ |x| / 2 ^ 53 := by
  by_cases h0 : x = 0
  · simp [fl, h0]
  · have h1 : fl x - x = (roundEven (x / 2 ^ flExp x) - x / 2 ^ flExp x) * 2 ^ flExp x := by
      unfold fl
      rw [if_neg h0, sub_mul, div_mul_cancel₀ _ (two_zpow_pos _).ne']
    rw [h1, abs_mul, abs_of_pos (two_zpow_pos _), abs_sub_comm]
    have h2 := flExp_lower h0
    rw [zpow_add₀ (by norm_num)] at h2
    have h3 : (2 : ℚ) ^ (52 : ℤ) = 2 ^ 52 := by norm_num
    rw [h3] at h2
    calc |x / 2 ^ flExp x - roundEven (x / 2 ^ flExp x)| * 2 ^ flExp x ≤ 1 / 2 * 2 ^ flExp x :=
          mul_le_mul_of_nonneg_right (roundEven_abs_sub _) (two_zpow_pos _).le
      _ = 2 ^ flExp x * 2 ^ 52 / 2 ^ 53 := by ring
      _ ≤ |x| / 2 ^ 53 := by gcongr

/-- Rounding does not pass a float. -/
theorem fl_le_double {x g : ℚ} (hx : 0 ≤ x) (hg : IsDouble g) (h : x ≤ g) : fl x ≤ g := by
  rcases hx.eq_or_lt with rfl | hx
  · rw [fl_zero]; exact h
  have hg0 : 0 < g := hx.trans_le h
  have hlow := flExp_lower hx.ne'
  rw [abs_of_pos hx] at hlow
  obtain ⟨k, hk⟩ := double_mul_of_le hg (flExp x) (by rw [abs_of_pos hg0]; exact hlow.trans h)
  unfold fl
  rw [if_neg hx.ne']
  have h1 : x / 2 ^ flExp x ≤ k := by
    rw [div_le_iff₀ (two_zpow_pos _), ← hk]; exact h
  calc (roundEven (x / 2 ^ flExp x) : ℚ) * 2 ^ flExp x ≤ k * 2 ^ flExp x :=
        mul_le_mul_of_nonneg_right (by exact_mod_cast roundEven_le_int h1) (two_zpow_pos _).le
    _ = g := hk.symm

theorem double_le_fl {x g : ℚ} (hg0 : 0 ≤ g) (hg : IsDouble g) (h : g ≤ x) : g ≤ fl x := by
  rcases hg0.eq_or_lt with rfl | hg0
  · by_cases hx : x = 0
    · rw [hx, fl_zero]
    · unfold fl
      rw [if_neg hx]
      have : (0 : ℤ) ≤ roundEven (x / 2 ^ flExp x) := int_le_roundEven (by push_cast; exact div_nonneg h (two_zpow_pos _).le)
      have : (0 : ℚ) ≤ roundEven (x / 2 ^ flExp x) := by exact_mod_cast this
      exact mul_nonneg this (two_zpow_pos _).le
  have hx : 0 < x := hg0.trans_le h
  unfold fl
  rw [if_neg hx.ne']
  by_cases hb : (2 : ℚ) ^ (flExp x + 52) ≤ g
  · obtain ⟨k, hk⟩ := double_mul_of_le hg (flExp x) (by rw [abs_of_pos hg0]; exact hb)
    have h1 : (k : ℚ) ≤ x / 2 ^ flExp x := by rw [le_div_iff₀ (two_zpow_pos _), ← hk]; exact h
    rw [hk]
    exact mul_le_mul_of_nonneg_right (by exact_mod_cast int_le_roundEven h1) (two_zpow_pos _).le
  · have hlow := flExp_lower hx.ne'
    rw [abs_of_pos hx] at hlow
    have h1 : ((2 ^ 52 : ℤ) : ℚ) ≤ x / 2 ^ flExp x := by
      rw [le_div_iff₀ (two_zpow_pos _)]
      refine le_trans (le_of_eq ?_) hlow
      rw [zpow_add₀ (by norm_num), mul_comm]; norm_num
    have h2 : ((2 ^ 52 : ℤ) : ℚ) ≤ roundEven (x / 2 ^ flExp x) := by exact_mod_cast int_le_roundEven h1
    refine (not_le.mp hb).le.trans ?_
    rw [zpow_add₀ (by norm_num), mul_comm]
    refine mul_le_mul_of_nonneg_right (le_trans (le_of_eq (by norm_num)) h2) (two_zpow_pos _).le

theorem fl_nonneg {x : ℚ} (h : 0 ≤ x) : 0 ≤ fl x := double_le_fl le_rfl ⟨0, 0, by norm_num, by simp⟩ h

theorem double_int (m : ℤ) (h : |m| ≤ 2 ^ 53) : IsDouble m := ⟨m, 0, h, by simp⟩

theorem double_half (m : ℤ) (h : |m| ≤ 2 ^ 53) : IsDouble ((m : ℚ) / 2) := ⟨m, -1, h, by rw [zpow_neg_one]; rfl⟩

/-- Example: one tenth. -/
example : fl (1 / 10) = 3602879701896397 / 36028797018963968 ∧ fl (fl (3 / 10) / fl (1 / 10)) < 3 := by decide +kernel

end Verif
