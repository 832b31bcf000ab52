import Verif.Props.Text
import Verif.Props.ProgressBar

/-! # C111: printing, reading and printing again gives the same text -/

set_option autoImplicit false

namespace Verif

section
variable {K : Type} [Field K] [LinearOrder K] [IsStrictOrderedRing K] [FloorRing K]

theorem exp_parse (plus : Bool) (dec : ℕ) (x : K) : pyFloat (expText plus dec x) =
    some (if x < 0 then -(((expParts dec x).1 : K) / 10 ^ dec * 10 ^ (expParts dec x).2) else ((expParts dec x).1 : K) / 10 ^ dec * 10 ^ (expParts dec x).2) := by
  have hparse := pyFloat_parts (K := K) [] [] (signText plus x)
    ('e' :: (if (expParts dec x).2 < 0 then '-' else '+') :: (if (expParts dec x).2.natAbs < 10 then '0' :: natText (expParts dec x).2.natAbs else natText (expParts dec x).2.natAbs))
    dec (expParts dec x).1 (expParts dec x).2 (decide (x < 0)) (by intro c hc; simp at hc) (by intro c hc; simp at hc) (signText_cases plus x) (takeExponent_text _) (by
      intro c hc
      rcases List.mem_cons.1 hc with rfl | hc
      · decide
      rcases List.mem_cons.1 hc with rfl | hc
      · split_ifs <;> decide
      have hn := (natText_word (expParts dec x).2.natAbs).2
      split_ifs at hc
      · rcases List.mem_cons.1 hc with rfl | hc
        · decide
        · exact hn c hc
      · exact hn c hc) (by simp [digitVal])
  simp only [decide_eq_true_eq] at hparse
  rw [← hparse]
  simp [expText]

/-- The digits of a number that is not zero: `dec + 1` of them, the first one not zero. -/
theorem expParts_range (dec : ℕ) (x : K) (hx : x ≠ 0) : 10 ^ dec ≤ (expParts dec x).1 ∧ (expParts dec x).1 < 10 ^ (dec + 1) := by
  have hpos : 0 < |x| := abs_pos.2 hx
  have h10 : (10 : K) ≠ 0 := by norm_num
  unfold expParts
  rw [if_neg hx]
  simp only []
  set e := Int.log 10 |x| with he
  have hlo : (10 : K) ^ e ≤ |x| := by
    have := Int.zpow_log_le_self (b := 10) (by norm_num) hpos
    simpa using this
  have hhi : |x| < (10 : K) ^ (e + 1) := by
    have := Int.lt_zpow_succ_log_self (b := 10) (by norm_num) |x|
    simpa using this
  have hp : (0 : K) < 10 ^ ((dec : ℤ) - e) := by positivity
  have h1 : (((10 ^ dec : ℤ)) : K) ≤ |x| * 10 ^ ((dec : ℤ) - e) := by
    calc (((10 ^ dec : ℤ)) : K) = 10 ^ e * 10 ^ ((dec : ℤ) - e) := by
          rw [← zpow_add₀ h10]; push_cast; rw [← zpow_natCast]; congr 1; ring
      _ ≤ _ := by exact mul_le_mul_of_nonneg_right hlo hp.le
  have h2 : |x| * 10 ^ ((dec : ℤ) - e) ≤ (((10 ^ (dec + 1) : ℤ)) : K) := by
    calc |x| * 10 ^ ((dec : ℤ) - e) ≤ 10 ^ (e + 1) * 10 ^ ((dec : ℤ) - e) := mul_le_mul_of_nonneg_right hhi.le hp.le
      _ = _ := by rw [← zpow_add₀ h10]; push_cast; rw [← zpow_natCast]; congr 1; push_cast; ring
  have r1 := roundEven_mono h1
  have r2 := roundEven_mono h2
  rw [roundEven_intCast] at r1 r2
  have n1 : 10 ^ dec ≤ (roundEven (|x| * 10 ^ ((dec : ℤ) - e))).toNat := by
    have : ((10 ^ dec : ℕ) : ℤ) ≤ roundEven (|x| * 10 ^ ((dec : ℤ) - e)) := by push_cast; exact r1
    omega
  have n2 : (roundEven (|x| * 10 ^ ((dec : ℤ) - e))).toNat ≤ 10 ^ (dec + 1) := by
    have : roundEven (|x| * 10 ^ ((dec : ℤ) - e)) ≤ ((10 ^ (dec + 1) : ℕ) : ℤ) := by push_cast; exact r2
    omega
  split_ifs with h
  · exact ⟨le_refl _, Nat.pow_lt_pow_right (by norm_num) (by omega)⟩
  · exact ⟨n1, lt_of_le_of_ne n2 h⟩

/-- The digits and the exponent of a decimal number. -/
theorem expParts_decimal (dec m : ℕ) (e : ℤ) (h1 : 10 ^ dec ≤ m) (h2 : m < 10 ^ (dec + 1)) (y : K) (hy : |y| = (m : K) / 10 ^ dec * 10 ^ e) : expParts dec y = (m, e) := by
  have h10 : (10 : K) ≠ 0 := by norm_num
  have hm : (0 : K) < m := by
    have : 0 < m := lt_of_lt_of_le (by positivity) h1
    exact_mod_cast this
  have hpos : 0 < |y| := by rw [hy]; positivity
  have hlog : Int.log 10 |y| = e := by
    apply le_antisymm
    · have : |y| < ((10 : ℕ) : K) ^ (e + 1) := by
        rw [hy]
        push_cast
        have h2' : (m : K) < 10 ^ (dec + 1) := by exact_mod_cast h2
        rw [zpow_add₀ h10, zpow_one, div_mul_eq_mul_div, div_lt_iff₀ (by positivity)]
        calc (m : K) * 10 ^ e < 10 ^ (dec + 1) * 10 ^ e := mul_lt_mul_of_pos_right h2' (by positivity)
          _ = _ := by rw [pow_succ]; ring
      have := (Int.lt_zpow_iff_log_lt (b := 10) (by norm_num) hpos).1 this
      omega
    · refine (Int.zpow_le_iff_le_log (b := 10) (by norm_num) hpos).1 ?_
      rw [hy]
      push_cast
      have h1' : (10 : K) ^ dec ≤ m := by exact_mod_cast h1
      have : (1 : K) ≤ m / 10 ^ dec := by rwa [le_div_iff₀ (by positivity), one_mul]
      calc (10 : K) ^ e = 1 * 10 ^ e := (one_mul _).symm
        _ ≤ _ := mul_le_mul_of_nonneg_right this (by positivity)
  have hr : (roundEven (|y| * 10 ^ ((dec : ℤ) - e))).toNat = m := by
    have : |y| * 10 ^ ((dec : ℤ) - e) = (((m : ℤ)) : K) := by
      rw [hy, zpow_sub₀ h10, zpow_natCast]
      push_cast
      field_simp
    rw [this, roundEven_intCast]
    simp
  unfold expParts
  rw [if_neg (abs_pos.1 hpos)]
  simp only [hlog, hr]
  rw [if_neg (by omega)]

/-- C111: a number printed with an exponent, read and printed again gives the same text, so a file that is read and written again does not change. -/
theorem C111_exp_stable (plus : Bool) (dec : ℕ) (x y : K) (h : pyFloat (expText plus dec x) = some y) : expText plus dec y = expText plus dec x := by
  rw [exp_parse, Option.some.injEq] at h
  by_cases hx : x = 0
  · subst hx
    have : y = 0 := by rw [← h]; simp [expParts]
    rw [this]
  obtain ⟨h1, h2⟩ := expParts_range dec x hx
  have hm : (0 : K) < (expParts dec x).1 := by
    have : 0 < (expParts dec x).1 := lt_of_lt_of_le (by positivity) h1
    exact_mod_cast this
  have hv : (0 : K) < ((expParts dec x).1 : K) / 10 ^ dec * 10 ^ (expParts dec x).2 := by positivity
  have habs : |y| = ((expParts dec x).1 : K) / 10 ^ dec * 10 ^ (expParts dec x).2 := by
    rw [← h]
    split_ifs
    · rw [abs_neg, abs_of_pos hv]
    · rw [abs_of_pos hv]
  have hsign : (y < 0) ↔ (x < 0) := by
    rw [← h]
    split_ifs with hs
    · simp [hs, hv]
    · simp [hs, hv.le]
  have hp := expParts_decimal dec _ _ h1 h2 y habs
  unfold expText signText
  simp only [hp, hsign]

/-- C111: the same for numbers with a fixed number of decimals, unless they are negative and rounded to zero (where Python has a negative zero). -/
theorem C111_fixed_stable (w dec : ℕ) (x : K) (hx : 0 ≤ x ∨ aroundDec dec x ≠ 0) : fixedField w dec (aroundDec dec x) = fixedField w dec x := by
  have hp : (0 : K) < 10 ^ dec := by positivity
  have habs : roundEven (|aroundDec dec x| * 10 ^ dec) = roundEven (|x| * 10 ^ dec) := by
    have h1 : |aroundDec dec x| * 10 ^ dec = ((|roundEven (x * 10 ^ dec)| : ℤ) : K) := by
      unfold aroundDec
      rw [abs_div, abs_of_pos hp, div_mul_cancel₀ _ hp.ne']
      push_cast
      rfl
    rw [h1, roundEven_intCast]
    by_cases h : 0 ≤ x
    · rw [abs_of_nonneg h, abs_of_nonneg (roundEven_nonneg' (by positivity))]
    · have h' : x < 0 := not_le.1 h
      rw [abs_of_neg h', neg_mul, roundEven_neg, ← abs_neg, ← roundEven_neg, abs_of_nonneg (roundEven_nonneg' ?_), roundEven_neg]
      have : x * 10 ^ dec ≤ 0 := mul_nonpos_of_nonpos_of_nonneg h'.le hp.le
      linarith
  have hsign : (aroundDec dec x < 0) ↔ (x < 0) := by
    constructor
    · intro h
      by_contra hn
      have h0 : 0 ≤ aroundDec dec x := by
        unfold aroundDec
        have : (0 : K) ≤ (roundEven (x * 10 ^ dec) : K) := by
          have := roundEven_nonneg' (x := x * 10 ^ dec) (mul_nonneg (not_lt.1 hn) hp.le)
          exact_mod_cast this
        positivity
      exact absurd h (not_lt.2 h0)
    · intro h
      have hne := hx.resolve_left (not_le.2 h)
      refine lt_of_le_of_ne ?_ hne
      unfold aroundDec
      have h1 : roundEven (x * 10 ^ dec) ≤ 0 := by
        have := roundEven_nonneg' (x := -(x * 10 ^ dec)) (by
          have : x * 10 ^ dec ≤ 0 := mul_nonpos_of_nonpos_of_nonneg h.le hp.le
          linarith)
        rw [roundEven_neg] at this
        omega
      have h2 : (roundEven (x * 10 ^ dec) : K) ≤ 0 := by exact_mod_cast h1
      exact div_nonpos_of_nonpos_of_nonneg h2 hp.le
  unfold fixedField fixedText signText
  simp only [habs, hsign]

example : expText true 3 (2 / 3 : ℚ) = "+6.667e-01".toList ∧ pyFloat (expText true 3 (2 / 3 : ℚ)) = some (6667 / 10000 : ℚ) ∧
    fixedField 10 4 (-1 / 3 : ℚ) = "   -0.3333".toList := by decide +kernel

end

end Verif
