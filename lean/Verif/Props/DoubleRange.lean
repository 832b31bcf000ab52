import Verif.Props.DoublePieces

/-! # The frequency range and the numbers of steps in double precision -/

set_option autoImplicit false

namespace Verif

theorem fl_error_abs {x B : ℚ} (h : |x| ≤ B) : |fl x - x| ≤ B / 2 ^ 53 := by
  refine (fl_error x).trans ?_
  gcongr

/-- The values of the range, for a step `r` not too small against the size of the limits. -/
theorem arangeFl_value (a r M : ℚ) (hr : 0 < r) (ha : |a| + r ≤ M) (hM : M ≤ 2 ^ 20 * r) (i : ℕ) (hi : (i : ℚ) ≤ 2 ^ 20 + 1) :
    |(if i = 0 then a else if i = 1 then fl (a + r) else fl (a + fl (i * fl (fl (a + r) - a)))) - (a + i * r)| ≤ r / 1000 := by
  have ha0 := abs_nonneg a
  have e1 := abs_le.mp (fl_error_abs (show |a + r| ≤ M from (abs_add_le a r).trans (by rw [abs_of_pos hr]; exact ha)))
  have hMr : M / 2 ^ 53 ≤ r / 2 ^ 33 := by
    rw [div_le_div_iff₀ (by norm_num) (by norm_num)]; linarith
  split_ifs with h0 h1
  · subst h0; simp; positivity
  · subst h1
    rw [abs_le]; push_cast
    have : r / 2 ^ 33 ≤ r / 1000 := by gcongr; norm_num
    constructor <;> linarith [e1.1, e1.2]
  · set d := fl (a + r) - a with hd
    have hdr : |d - r| ≤ r / 2 ^ 33 := by rw [abs_le]; constructor <;> linarith [e1.1, e1.2]
    have hdr' := abs_le.mp hdr
    have hr33 : r / 2 ^ 33 ≤ r / 2 := by gcongr; norm_num
    have e2 := abs_le.mp (fl_error_abs (show |d| ≤ 2 * r by rw [abs_le]; constructor <;> linarith [hdr'.1, hdr'.2]))
    set δ := fl d with hδ
    have h53 : 2 * r / 2 ^ 53 ≤ r / 2 ^ 52 := le_of_eq (by ring)
    have hi0 : (0 : ℚ) ≤ i := by positivity
    -- error of the step
    have e3 : |δ - r| ≤ r / 2 ^ 32 := by
      have : r / 2 ^ 33 + r / 2 ^ 52 ≤ r / 2 ^ 32 := by
        have : r / 2 ^ 33 + r / 2 ^ 52 = r * (1 / 2 ^ 33 + 1 / 2 ^ 52) := by ring
        rw [this, show r / 2 ^ 32 = r * (1 / 2 ^ 32) by ring]
        exact mul_le_mul_of_nonneg_left (by norm_num) hr.le
      rw [abs_le]; constructor <;> linarith [e2.1, e2.2, hdr'.1, hdr'.2]
    have e4 : |i * δ - i * r| ≤ r / 2000 := by
      rw [← mul_sub, abs_mul, abs_of_nonneg hi0]
      calc (i : ℚ) * |δ - r| ≤ (2 ^ 20 + 1) * (r / 2 ^ 32) := mul_le_mul hi e3 (abs_nonneg _) (by norm_num)
        _ = r * ((2 ^ 20 + 1) / 2 ^ 32) := by ring
        _ ≤ r * (1 / 2000) := mul_le_mul_of_nonneg_left (by norm_num) hr.le
        _ = r / 2000 := by ring
    have e4' := abs_le.mp e4
    have hir : (i : ℚ) * r ≤ (2 ^ 20 + 1) * r := by gcongr
    have hir0 : 0 ≤ (i : ℚ) * r := by positivity
    have e5 := abs_le.mp (fl_error_abs (show |(i : ℚ) * δ| ≤ 2 ^ 21 * r by
      rw [abs_le]; constructor <;> linarith [e4'.1, e4'.2]))
    set w := fl (i * δ) with hw
    have h21 : 2 ^ 21 * r / 2 ^ 53 ≤ r / 2 ^ 32 := le_of_eq (by ring)
    have h22 : 2 ^ 22 * r / 2 ^ 53 = r / 2 ^ 31 := by ring
    have h32 : r / 2 ^ 32 ≤ r / 8000 := by gcongr; norm_num
    have h31 : r / 2 ^ 31 ≤ r / 8000 := by gcongr; norm_num
    have haa := abs_le.mp (show |a| ≤ 2 ^ 20 * r by linarith)
    have e6 := abs_le.mp (fl_error_abs (show |a + w| ≤ 2 ^ 22 * r by
      rw [abs_le]; constructor <;> linarith [e4'.1, e4'.2, e5.1, e5.2, haa.1, haa.2]))
    rw [h22] at e6
    rw [abs_le]
    constructor <;> linarith [e4'.1, e4'.2, e5.1, e5.2, e6.1, e6.2]

/-- Number of values. -/
theorem limitsRangeFl_quotient (a b r : ℚ) (hr : 0 < r) (hM : |a| + |b| + r ≤ 2 ^ 20 * r) :
    |fl (fl (fl (b + r) - a) / r) - ((b - a) / r + 1)| ≤ 1 / 2 ^ 30 := by
  have ha := abs_le.mp (le_refl |a|)
  have hb := abs_le.mp (le_refl |b|)
  have ha0 := abs_nonneg a
  have hb0 := abs_nonneg b
  have e1 := abs_le.mp (fl_error_abs (show |b + r| ≤ 2 ^ 20 * r by
    rw [abs_le]; constructor <;> linarith [hb.1, hb.2]))
  have r20 : 2 ^ 20 * r / 2 ^ 53 = r / 2 ^ 33 := by ring
  rw [r20] at e1
  have h33 : r / 2 ^ 33 ≤ r := div_le_self hr.le (by norm_num)
  set s := fl (b + r) with hs
  have e2 := abs_le.mp (fl_error_abs (show |s - a| ≤ 2 ^ 21 * r by
    rw [abs_le]; constructor <;> linarith [ha.1, ha.2, hb.1, hb.2, e1.1, e1.2]))
  have r21 : 2 ^ 21 * r / 2 ^ 53 = r / 2 ^ 32 := by ring
  rw [r21] at e2
  set d := fl (s - a) with hd
  have e3 : |d - (b - a + r)| ≤ r / 2 ^ 33 + r / 2 ^ 32 := by
    rw [abs_le]; constructor <;> linarith [e1.1, e1.2, e2.1, e2.2]
  have e4 : |d / r - ((b - a) / r + 1)| ≤ 1 / 2 ^ 33 + 1 / 2 ^ 32 := by
    have : d / r - ((b - a) / r + 1) = (d - (b - a + r)) / r := by field_simp
    rw [this, abs_div, abs_of_pos hr, div_le_iff₀ hr]
    refine e3.trans (le_of_eq (by ring))
  have e4' := abs_le.mp e4
  have hq : |(b - a) / r + 1| ≤ 2 ^ 20 := by
    have : (b - a) / r + 1 = (b - a + r) / r := by field_simp
    rw [this, abs_div, abs_of_pos hr, div_le_iff₀ hr, abs_le]
    constructor <;> linarith [ha.1, ha.2, hb.1, hb.2]
  have hq' := abs_le.mp hq
  have e5 := abs_le.mp (fl_error_abs (show |d / r| ≤ 2 ^ 21 by
    rw [abs_le]; constructor <;> linarith [e4'.1, e4'.2, hq'.1, hq'.2]))
  rw [abs_le]
  constructor <;> linarith [e4'.1, e4'.2, e5.1, e5.2]

theorem length_limitsRangeFl (a b r : ℚ) : (limitsRangeFl a b r).length = ⌈fl (fl (fl (b + r) - a) / r)⌉.toNat := by
  simp [limitsRangeFl, arangeFl]

/-- The frequency range in double precision, when the limits are at most about 10^6 times the resolution: the first value is the lower limit, value
`i` is `a + i r` up to a thousandth of the resolution, the values increase, the last one is not below the upper limit and at most one step above it (up to
1/500 of the resolution), and there is at most one value more or less than without rounding errors. -/
theorem C39_double (a b r : ℚ) (hr : 0 < r) (hab : a ≤ b) (hM : |a| + |b| + r ≤ 2 ^ 20 * r) :
    (limitsRangeFl a b r).head? = some a ∧
    (∀ (i : ℕ) (v : ℚ), (limitsRangeFl a b r)[i]? = some v → |v - (a + i * r)| ≤ r / 1000) ∧
    (limitsRangeFl a b r).Pairwise (· < ·) ∧
    (∃ last, (limitsRangeFl a b r).getLast? = some last ∧ b - r / 500 ≤ last ∧ last ≤ b + r + r / 500) ∧
    |((limitsRangeFl a b r).length : ℤ) - ⌈(b - a) / r + 1⌉| ≤ 1 := by
  have hq := abs_le.mp (limitsRangeFl_quotient a b r hr hM)
  set Q := fl (fl (fl (b + r) - a) / r) with hQ
  have hba : 0 ≤ (b - a) / r := div_nonneg (by linarith) hr.le
  have hba1 : (b - a) / r + 1 ≤ 2 ^ 20 := by
    have : (b - a) / r + 1 = (b - a + r) / r := by field_simp
    rw [this, div_le_iff₀ hr]
    linarith [neg_abs_le a, le_abs_self b]
  have hQ0 : 0 < Q := by linarith [hq.1]
  have hn0 : 0 < ⌈Q⌉ := Int.ceil_pos.mpr hQ0
  have hlen := length_limitsRangeFl a b r
  rw [← hQ] at hlen
  obtain ⟨n, hn⟩ : ∃ n : ℕ, ⌈Q⌉ = (n : ℤ) := ⟨⌈Q⌉.toNat, (Int.toNat_of_nonneg hn0.le).symm⟩
  have hlen' : (limitsRangeFl a b r).length = n := by rw [hlen, hn]; simp
  have hn1 : 1 ≤ n := by omega
  have hnQ : Q ≤ n := by have := Int.le_ceil Q; rw [hn] at this; exact_mod_cast this
  have hnQ' : (n : ℚ) < Q + 1 := by have := Int.ceil_lt_add_one Q; rw [hn] at this; exact_mod_cast this
  have hval : ∀ (i : ℕ) (v : ℚ), (limitsRangeFl a b r)[i]? = some v → |v - (a + i * r)| ≤ r / 1000 := by
    intro i v hv
    have hi : i < n := by
      rw [← hlen']
      exact (List.getElem?_eq_some_iff.mp hv).1
    have hiq : (i : ℚ) ≤ 2 ^ 20 + 1 := by
      have : (i : ℚ) + 1 ≤ n := by exact_mod_cast hi
      linarith [hq.2]
    have := arangeFl_value a r (2 ^ 20 * r) hr (by linarith [abs_nonneg b]) le_rfl i hiq
    simp only [limitsRangeFl, arangeFl, List.getElem?_map, Option.map_eq_some_iff] at hv
    obtain ⟨j, hj, rfl⟩ := hv
    obtain ⟨hjl, hj⟩ := List.getElem?_eq_some_iff.mp hj
    rw [List.getElem_range] at hj
    subst hj
    exact this
  have hhead : (limitsRangeFl a b r).head? = some a := by
    simp only [limitsRangeFl, arangeFl]
    rw [← hQ, hn]
    obtain ⟨m, rfl⟩ : ∃ m, n = m + 1 := ⟨n - 1, by omega⟩
    simp [List.range_succ_eq_map]
  refine ⟨hhead, hval, ?_, ?_, ?_⟩
  · rw [List.pairwise_iff_getElem]
    intro i j hi hj hij
    have h1 := abs_le.mp (hval i _ (List.getElem?_eq_getElem hi))
    have h2 := abs_le.mp (hval j _ (List.getElem?_eq_getElem hj))
    have hij' : (i : ℚ) + 1 ≤ j := by exact_mod_cast hij
    have := mul_le_mul_of_nonneg_right hij' hr.le
    linarith [h1.2, h2.1]
  · have hne : limitsRangeFl a b r ≠ [] := by
      intro h; rw [h] at hlen'; simp at hlen'; omega
    refine ⟨_, List.getLast?_eq_some_getLast hne, ?_⟩
    have hl : (limitsRangeFl a b r)[n - 1]? = some ((limitsRangeFl a b r).getLast hne) := by
      rw [List.getLast_eq_getElem, ← hlen']
      exact List.getElem?_eq_getElem _
    have h1 := abs_le.mp (hval _ _ hl)
    have hc : ((n - 1 : ℕ) : ℚ) = n - 1 := by rw [Nat.cast_sub hn1]; simp
    rw [hc] at h1
    have hlow : (b - a) / r * r ≤ (n - 1 + 1 / 2 ^ 30) * r := mul_le_mul_of_nonneg_right (by linarith [hq.1]) hr.le
    have hup : (n - 1 : ℚ) * r ≤ ((b - a) / r + 1 + 1 / 2 ^ 30) * r := mul_le_mul_of_nonneg_right (by linarith [hq.2]) hr.le
    rw [div_mul_cancel₀ _ hr.ne'] at hlow
    rw [add_mul, add_mul, div_mul_cancel₀ _ hr.ne'] at hup
    constructor <;> linarith [h1.1, h1.2]
  · rw [hlen', ← hn]
    have h1 : ⌈Q⌉ ≤ ⌈(b - a) / r + 1⌉ + 1 := by
      rw [← Int.ceil_add_one]; exact Int.ceil_le_ceil (by linarith [hq.2])
    have h2 : ⌈(b - a) / r + 1⌉ ≤ ⌈Q⌉ + 1 := by
      rw [← Int.ceil_add_one]; exact Int.ceil_le_ceil (by linarith [hq.1])
    rw [abs_le]; omega

/-- `set_spectra_resolution(r)` in double precision, the current frequencies being any list with first value `a` and last value `b` (at most about 10^6
times `r`): the new frequencies begin at `a`, value `i` is `a + i r` up to a thousandth of the resolution, they increase, and the last is not below `b` and at most
one step above it (up to 1/500 of the resolution). -/
theorem C39_double_resolution (range : List ℚ) (a b r : ℚ) (ha : range.head? = some a) (hb : range.getLast? = some b) (hr : 0 < r) (hab : a ≤ b)
    (hM : |a| + |b| + r ≤ 2 ^ 20 * r) :
    ∃ l, resolutionRangeFl range r = some l ∧ l.head? = some a ∧ (∀ (i : ℕ) (v : ℚ), l[i]? = some v → |v - (a + i * r)| ≤ r / 1000) ∧
      l.Pairwise (· < ·) ∧ ∃ last, l.getLast? = some last ∧ b - r / 500 ≤ last ∧ last ≤ b + r + r / 500 := by
  obtain ⟨h1, h2, h3, h4, _⟩ := C39_double a b r hr hab hM
  exact ⟨limitsRangeFl a b r, by simp only [resolutionRangeFl, ha, hb, limitsRangeFl], h1, h2, h3, h4⟩

/-- Example: the hypotheses of `C39_double_resolution` for the frequencies 0, 0.05, ..., 20 and the resolution 0.1. -/
example : (limitsRangeFl 0 20 (fl (1 / 20))).head? = some 0 ∧
    |(0 : ℚ)| + |((limitsRangeFl 0 20 (fl (1 / 20))).getLast?).getD 0| + fl (1 / 10) ≤ 2 ^ 20 * fl (1 / 10) ∧
    (0 : ℚ) ≤ ((limitsRangeFl 0 20 (fl (1 / 20))).getLast?).getD 0 := by decide +kernel

/-- Setting the resolution that is already in use keeps the range, without rounding errors (`C39_repeat`). In double precision it may add a value: limits 0 and 20 with
resolution 0.01 give 2002 values, and setting the resolution 0.01 again, 2003. -/
theorem C39_double_repeat_violated : ¬ ∀ a b r : ℚ, IsDouble a → IsDouble b → IsDouble r → 0 < r → a ≤ b →
    resolutionRangeFl (limitsRangeFl a b r) r = some (limitsRangeFl a b r) := by
  intro h
  have h1 := h 0 20 (fl (1 / 100)) ⟨0, 0, by norm_num, by norm_num⟩ ⟨20, 0, by norm_num, by norm_num⟩ (fl_double _) (by decide +kernel) (by norm_num)
  have h2 : (resolutionRangeFl (limitsRangeFl 0 20 (fl (1 / 100))) (fl (1 / 100))).map List.length ≠ some (limitsRangeFl 0 20 (fl (1 / 100))).length := by
    decide +kernel
  rw [h1] at h2
  exact h2 rfl

/-- Nor is the number of values the one without rounding errors: 0, 0.01, ..., 20 are 2001 values, and one more is obtained. -/
theorem C39_double_count_violated : ¬ ∀ a b r : ℚ, 0 < r → a ≤ b →
    ((limitsRangeFl (fl a) (fl b) (fl r)).length : ℤ) = ⌈(b - a) / r + 1⌉ := by
  intro h
  have h1 := h 0 20 (1 / 100) (by norm_num) (by norm_num)
  revert h1
  decide +kernel

/-- Example: the hypotheses of `C39_double` for the limits 0 and 20 and the default resolution 0.05. -/
example : |(0 : ℚ)| + |20| + fl (1 / 20) ≤ 2 ^ 20 * fl (1 / 20) ∧ 0 < fl (1 / 20) ∧ (limitsRangeFl 0 20 (fl (1 / 20))).length = 401 := by decide +kernel

/-! ## Numbers of steps -/

theorem lammpsLoopsFl_error (T dt : ℚ) (s : ℕ) (hT : 0 ≤ T) (hdt : 0 < dt) (hs : 1 ≤ s) :
    |fl (fl (T / dt) / s) - T / dt / s| ≤ 3 / 2 ^ 53 * (T / dt / s) := by
  have hsq : (0 : ℚ) < s := by exact_mod_cast hs
  have hx : 0 ≤ T / dt := by positivity
  have e1 := fl_error_of_le hx le_rfl
  set y := fl (T / dt) with hy
  have hy0 : 0 ≤ y := fl_nonneg hx
  have e1' := abs_le.mp e1
  have e2 : |y / s - T / dt / s| ≤ T / dt / s / 2 ^ 53 := by
    rw [← sub_div, abs_div, abs_of_pos hsq, div_right_comm (T / dt) (s : ℚ)]
    gcongr
  have e2' := abs_le.mp e2
  have hE : 0 ≤ T / dt / s := by positivity
  set E := T / dt / s
  have hys : y / s ≤ 2 * E := by
    have : E / 2 ^ 53 ≤ E := div_le_self hE (by norm_num)
    linarith [e2'.2]
  have e3 := abs_le.mp (fl_error_of_le (by positivity) hys)
  rw [abs_le]
  have r1 : 2 * E / 2 ^ 53 = 2 * (E / 2 ^ 53) := by ring
  have r2 : 3 / 2 ^ 53 * E = 3 * (E / 2 ^ 53) := by ring
  rw [r1] at e3
  rw [r2]
  constructor <;> linarith [e2'.1, e2'.2, e3.1, e3.2]

/-- The number of frames asked of LAMMPS in double precision differs from `total_time/(time_step*sampling_interval)` by less than 3/2 for up to
10^15 frames; when that is a whole number, it is this number or one less. -/
theorem C85_double (T dt : ℚ) (s : ℕ) (hT : 0 ≤ T) (hdt : 0 < dt) (hs : 1 ≤ s) (hE : T / dt / s ≤ 10 ^ 15) :
    |(lammpsLoopsFl T dt s : ℚ) - T / dt / s| < 3 / 2 ∧
      ∀ n : ℕ, T = n * s * dt → lammpsLoopsFl T dt s = n ∨ lammpsLoopsFl T dt s = n - 1 := by
  have hsq : (0 : ℚ) < s := by exact_mod_cast hs
  have hE0 : 0 ≤ T / dt / s := by positivity
  have e := abs_le.mp (lammpsLoopsFl_error T dt s hT hdt hs)
  have hq0 : 0 ≤ fl (fl (T / dt) / s) := fl_nonneg (div_nonneg (fl_nonneg (by positivity)) hsq.le)
  have hdef : lammpsLoopsFl T dt s = ⌊fl (fl (T / dt) / s)⌋ := by unfold lammpsLoopsFl; rw [pyInt_of_nonneg hq0]
  rw [hdef]
  set q := fl (fl (T / dt) / s)
  have h1 := Int.floor_le q
  have h2 := Int.lt_floor_add_one q
  refine ⟨?_, ?_⟩
  · rw [abs_lt]; constructor <;> linarith [e.1, e.2]
  · intro n hn
    have hEn : T / dt / s = n := by rw [hn]; field_simp
    rw [hEn] at e hE
    have h3 : ⌊q⌋ < n + 1 := by rw [Int.floor_lt]; push_cast; linarith [e.2]
    have h4 : (n : ℤ) - 1 ≤ ⌊q⌋ := by rw [Int.le_floor]; push_cast; linarith [e.1]
    omega

/-- The frames need not fill the total time in double precision (compare `C85_total_time`): 0.3 ps with steps of 0.1 ps gives two frames. -/
theorem C85_double_violated : ¬ ∀ (n : ℕ) (dt : ℚ), 0 < dt → lammpsLoopsFl (fl (n * dt)) (fl dt) 1 = n := by
  intro h
  have h1 := h 3 (1 / 10) (by norm_num)
  revert h1
  decide +kernel

/-- Example: the hypotheses of `C85_double`; 1000 steps of 1 fs sampled every 10. -/
example : fl 1 / fl (1 / 1000) / (10 : ℕ) ≤ 10 ^ 15 ∧ lammpsLoopsFl (fl 1) (fl (1 / 1000)) 10 = 100 := by decide +kernel

end Verif
