import Verif.Props.Double

/-! # Division of the data in double precision -/

set_option autoImplicit false

namespace Verif

/-! ## Specification -/

/-- What is left of `IsDivision` in double precision: `p` is the piece size, `N` the number of samples. Pieces are not empty and lie inside
the data; they have `p` or `p + 1` samples; the first one has exactly the first `p` samples, and every sample but the last one is in some piece. -/
structure IsDivisionFl (N : ℕ) (p : ℕ) (l : List (ℤ × ℤ)) : Prop where
  first : l.head? = some (0, (p : ℤ))
  inside : ∀ q ∈ l, 0 ≤ q.1 ∧ q.1 < q.2 ∧ q.2 ≤ N
  length : ∀ q ∈ l, q.2 - q.1 = p ∨ q.2 - q.1 = p + 1
  cover : ∀ j : ℕ, j + 1 < N → ∃ q ∈ l, q.1 ≤ j ∧ j < q.2

/-! ## Errors -/

theorem fl_error_of_le {x B : ℚ} (h0 : 0 ≤ x) (h : x ≤ B) : |fl x - x| ≤ B / 2 ^ 53 := by
  refine (fl_error x).trans ?_
  rw [abs_of_nonneg h0]
  gcongr

theorem double_nat (n : ℕ) (h : n ≤ 2 ^ 53) : IsDouble (n : ℚ) := by
  have := double_int (n : ℤ) (by rw [abs_of_nonneg (by positivity)]; exact_mod_cast h)
  simpa using this

theorem double_nat_half (n : ℕ) (h : n ≤ 2 ^ 53) : IsDouble ((n : ℚ) / 2) := by
  have := double_half (n : ℤ) (by rw [abs_of_nonneg (by positivity)]; exact_mod_cast h)
  simpa using this

/-- A multiple of one half minus a half-integer is exact when it does not grow. -/
theorem fl_sub_half {s h : ℚ} (hs : IsDouble s) (H : ∃ z : ℤ, h = z / 2) (h0 : 0 ≤ h) (hle : h ≤ s) (hb : s ≤ 2 ^ 50) : fl (s - h) = s - h := by
  obtain ⟨z, rfl⟩ := H
  by_cases hs0 : s = 0
  · have : (z : ℚ) / 2 = 0 := le_antisymm (by rw [← hs0]; exact hle) h0
    rw [this, sub_zero]; exact fl_of_double hs
  have hsp : 0 < s := lt_of_le_of_ne (h0.trans hle) (Ne.symm hs0)
  have hlow := flExp_lower hs0
  obtain ⟨k, hk⟩ := double_mul_of_le hs (flExp s) hlow
  have hup := flExp_upper s
  rw [abs_of_pos hsp] at hlow hup
  have he : flExp s ≤ -1 := by
    have h1 : (2 : ℚ) ^ (flExp s + 52) ≤ 2 ^ (50 : ℤ) := hlow.trans (by exact_mod_cast hb)
    have := (zpow_le_zpow_iff_right₀ (by norm_num : (1 : ℚ) < 2)).mp h1
    omega
  apply fl_of_double
  refine ⟨k - z * 2 ^ (-1 - flExp s).toNat, flExp s, ?_, ?_⟩
  · have hv : ((k - z * 2 ^ (-1 - flExp s).toNat : ℤ) : ℚ) * 2 ^ flExp s = s - z / 2 := by
      push_cast
      rw [← zpow_natCast, Int.toNat_of_nonneg (by omega), sub_mul, ← hk, mul_assoc, ← zpow_add₀ (by norm_num)]
      rw [show -1 - flExp s + flExp s = -1 by ring, zpow_neg_one]; rfl
    have hpos := two_zpow_pos (flExp s)
    have h1 : (0 : ℚ) ≤ ((k - z * 2 ^ (-1 - flExp s).toNat : ℤ) : ℚ) := by
      refine nonneg_of_mul_nonneg_left ?_ hpos
      rw [hv]; linarith
    have h2 : ((k - z * 2 ^ (-1 - flExp s).toNat : ℤ) : ℚ) ≤ ((2 ^ 53 : ℤ) : ℚ) := by
      refine le_of_mul_le_mul_right ?_ hpos
      rw [hv]
      have : (2 : ℚ) ^ (flExp s + 53) = ((2 ^ 53 : ℤ) : ℚ) * 2 ^ flExp s := by
        rw [zpow_add₀ (by norm_num), mul_comm]; norm_num
      rw [← this]; linarith
    rw [abs_of_nonneg (by exact_mod_cast h1)]
    exact_mod_cast h2
  · push_cast
    rw [← zpow_natCast, Int.toNat_of_nonneg (by omega), sub_mul, ← hk, mul_assoc, ← zpow_add₀ (by norm_num)]
    rw [show -1 - flExp s + flExp s = -1 by ring, zpow_neg_one]; rfl

/-- The two ends of a piece before truncation. -/
theorem pieceFl_ends (N p k i : ℕ) (hN : N ≤ 2 ^ 25) (hpN : p < N) (hk1 : 1 ≤ k) (hkN : k < N) (hi : i ≤ k) :
    ∃ d f : ℚ, pieceFl p (fl (((N : ℚ) - (p : ℤ)) / k)) i = (⌊d⌋, ⌊f⌋) ∧ 0 ≤ d ∧ 0 ≤ f ∧ |d - (i * (N - p : ℕ) : ℕ) / k| < 1 / k ∧
      |f - ((i * (N - p : ℕ) : ℕ) / k + p)| < 1 / k ∧ (∀ Y : ℕ, Y ≤ N → (Y : ℚ) ≤ d → ((Y + p : ℕ) : ℚ) ≤ f) ∧ (i = 0 → d = 0 ∧ f = p) ∧
      (N - p = k * p → d = (i * p : ℕ) ∧ f = ((i + 1) * p : ℕ)) := by
  have hkq : (0 : ℚ) < k := by exact_mod_cast hk1
  have hNq : (N : ℚ) ≤ 2 ^ 25 := by exact_mod_cast hN
  have hpq : (p : ℚ) < N := by exact_mod_cast hpN
  have hp0 : (0 : ℚ) ≤ p := by positivity
  have hikq : (i : ℚ) ≤ k := by exact_mod_cast hi
  have hkNq : (k : ℚ) ≤ N := by exact_mod_cast hkN.le
  have hi0 : (0 : ℚ) ≤ i := by positivity
  have hD : ((i * (N - p : ℕ) : ℕ) : ℚ) = i * (N - p) := by push_cast [Nat.cast_sub hpN.le]; ring
  set D : ℚ := (N : ℚ) - p with hDdef
  have hD0 : 0 ≤ D := by linarith
  set X : ℚ := i * D / k with hX
  have hX0 : 0 ≤ X := by positivity
  have hXD : X ≤ D := by
    rw [hX, div_le_iff₀ hkq, mul_comm]; exact mul_le_mul_of_nonneg_left hikq hD0
  set t := fl (D / k) with ht
  have ht0 : 0 ≤ t := fl_nonneg (by positivity)
  have hhalf : fl (((p : ℤ) : ℚ) / 2) = p / 2 := by
    rw [Int.cast_natCast]
    exact fl_of_double (double_nat_half p (by omega))
  -- the product
  have e1 : |t - D / k| ≤ D / k / 2 ^ 53 := fl_error_of_le (by positivity) le_rfl
  have e2 : |i * t - X| ≤ X / 2 ^ 53 := by
    have : i * t - X = i * (t - D / k) := by rw [hX]; ring
    rw [this, abs_mul, abs_of_nonneg hi0]
    calc (i : ℚ) * |t - D / k| ≤ i * (D / k / 2 ^ 53) := mul_le_mul_of_nonneg_left e1 hi0
      _ = X / 2 ^ 53 := by rw [hX]; ring
  have hit0 : 0 ≤ i * t := by positivity
  have e2' := abs_le.mp e2
  have hit : i * t ≤ 2 * N := by
    have : X / 2 ^ 53 ≤ X := div_le_self hX0 (by norm_num)
    linarith [e2'.2]
  set a := fl (i * t) with ha
  have ha0 : 0 ≤ a := fl_nonneg hit0
  have e3 : |a - i * t| ≤ 2 * N / 2 ^ 53 := fl_error_of_le hit0 hit
  have e3' := abs_le.mp e3
  have hXN : X / 2 ^ 53 ≤ N / 2 ^ 53 := by gcongr; linarith
  have ea : |a - X| ≤ 3 * N / 2 ^ 53 := by
    rw [abs_le]; constructor <;> · ring_nf at *; linarith [e2'.1, e2'.2, e3'.1, e3'.2]
  have ea' := abs_le.mp ea
  have hu : 7 * (N : ℚ) / 2 ^ 53 < 1 / k := by
    rw [div_lt_div_iff₀ (by norm_num) hkq]
    have : (N : ℚ) * k ≤ 2 ^ 25 * 2 ^ 25 := mul_le_mul hNq (hkNq.trans hNq) hkq.le (by norm_num)
    nlinarith
  have hu1 : 7 * (N : ℚ) / 2 ^ 53 ≤ N / 2 := by
    rw [div_le_div_iff₀ (by norm_num) (by norm_num)]
    have : (0 : ℚ) ≤ N := by positivity
    nlinarith
  set u : ℚ := N / 2 ^ 53 with hu'
  have hu0 : 0 ≤ u := by positivity
  have r7 : 7 * (N : ℚ) / 2 ^ 53 = 7 * u := by rw [hu']; ring
  have r3 : 3 * (N : ℚ) / 2 ^ 53 = 3 * u := by rw [hu']; ring
  have r2 : 2 * (N : ℚ) / 2 ^ 53 = 2 * u := by rw [hu']; ring
  rw [r7] at hu hu1
  rw [r3] at ea'
  set h : ℚ := p / 2 with hh
  have hh0 : 0 ≤ h := by positivity
  have hph : (p : ℚ) = h + h := by rw [hh]; ring
  have hha : h + a ≤ 2 * N := by linarith [ea'.2]
  set s := fl (h + a) with hs
  have es := abs_le.mp (fl_error_of_le (by positivity) hha)
  rw [r2, ← hs] at es
  have hdh : IsDouble h := double_nat_half p (by omega)
  have hhs : h ≤ s := double_le_fl hh0 hdh (by linarith)
  have hsb : s ≤ 3 * N := by linarith [es.2]
  have hds : fl (s - h) = s - h :=
    fl_sub_half (fl_double _) ⟨(p : ℤ), by rw [hh]; push_cast; rfl⟩ hh0 hhs (by linarith)
  have hsh : s + h ≤ 2 * N := by linarith [es.2, ea'.2]
  have ef := abs_le.mp (fl_error_of_le (by linarith) hsh)
  rw [r2] at ef
  have hf0 : 0 ≤ fl (s + h) := fl_nonneg (by linarith)
  refine ⟨s - h, fl (s + h), ?_, by linarith, hf0, ?_, ?_, ?_, ?_, ?_⟩
  · unfold pieceFl
    rw [hhalf]
    have : ((N : ℚ) - ((p : ℤ) : ℚ)) = D := by rw [hDdef]; push_cast; rfl
    rw [this, ← ht, ← ha, ← hs, hds, pyInt_of_nonneg (by linarith), pyInt_of_nonneg hf0]
  · rw [hD, ← hX, abs_lt]
    constructor <;> linarith [es.1, es.2, ea'.1, ea'.2]
  · rw [hD, ← hX, abs_lt]
    constructor <;> linarith [es.1, es.2, ea'.1, ea'.2, ef.1, ef.2]
  · intro Y hY hd
    have : IsDouble ((Y + p : ℕ) : ℚ) := double_nat _ (by omega)
    refine double_le_fl (by positivity) this ?_
    push_cast; linarith
  · rintro rfl
    have ha' : a = 0 := by rw [ha]; simp [fl_zero]
    have hs' : s = h := by rw [hs, ha', add_zero]; exact fl_of_double hdh
    refine ⟨by rw [hs']; ring, ?_⟩
    rw [hs', ← hph]
    exact fl_of_double (double_nat p (by omega))
  · intro hkp
    have hDk : D = k * p := by
      rw [hDdef, ← Nat.cast_sub hpN.le, hkp]; push_cast; rfl
    have ht' : t = p := by
      rw [ht, hDk, mul_comm, mul_div_assoc, div_self hkq.ne', mul_one]
      exact fl_of_double (double_nat p (by omega))
    have hip : i * p ≤ N := by
      have : i * p ≤ k * p := Nat.mul_le_mul_right _ hi
      omega
    have ha' : a = (i * p : ℕ) := by
      rw [ha, ht']
      have := double_nat (i * p) (by omega)
      push_cast at this ⊢
      exact fl_of_double this
    have hs' : s = h + (i * p : ℕ) := by
      rw [hs, ha']
      have h2 := double_nat_half (p + 2 * (i * p)) (by omega)
      have h3 : ((p + 2 * (i * p) : ℕ) : ℚ) / 2 = h + (i * p : ℕ) := by rw [hh]; push_cast; ring
      rw [h3] at h2
      exact fl_of_double h2
    refine ⟨by rw [hs']; ring, ?_⟩
    have h3 : s + h = ((i + 1) * p : ℕ) := by rw [hs']; push_cast; linarith
    rw [h3]
    exact fl_of_double (double_nat _ (by rw [Nat.add_mul]; omega))

/-- Truncation of the ends. -/
theorem pieceFl_spec (N p k i : ℕ) (hN : N ≤ 2 ^ 25) (hpN : p < N) (hk1 : 1 ≤ k) (hkN : k < N) (hi : i ≤ k) (q : ℤ × ℤ)
    (hq : q = pieceFl p (fl (((N : ℚ) - (p : ℤ)) / k)) i) (m r : ℕ) (hm : i * (N - p) = k * m + r) (hr : r < k) :
    0 ≤ q.1 ∧ (m : ℤ) - 1 ≤ q.1 ∧ q.1 ≤ m ∧ (m : ℤ) + p - 1 ≤ q.2 ∧ q.2 ≤ m + p ∧ (q.2 - q.1 = p ∨ q.2 - q.1 = p + 1) ∧
      (r ≠ 0 ∨ i = 0 ∨ N - p = k * p → q = ((m : ℤ), (m + p : ℤ))) := by
  obtain ⟨d, f, he, hd0, hf0, hd, hf, hY, hi0, hex⟩ := pieceFl_ends N p k i hN hpN hk1 hkN hi
  rw [← hq] at he
  subst he
  have hkq : (0 : ℚ) < k := by exact_mod_cast hk1
  have hX : ((i * (N - p : ℕ) : ℕ) : ℚ) / k = m + r / k := by
    rw [hm]; push_cast; field_simp
  rw [hX] at hd hf
  have hd' := abs_lt.mp hd
  have hf' := abs_lt.mp hf
  have hrk : (r : ℚ) / k + 1 / k ≤ 1 := by
    rw [← add_div, div_le_one hkq]; exact_mod_cast hr
  have hrk0 : (0 : ℚ) ≤ r / k := by positivity
  have hk1' : (1 : ℚ) / k ≤ 1 := by linarith
  have hmN : m ≤ N := by
    have h1 : k * m ≤ k * (N - p) := by
      have := Nat.mul_le_mul_right (N - p) hi; omega
    have := Nat.le_of_mul_le_mul_left h1 hk1
    omega
  have a1 : (0 : ℤ) ≤ ⌊d⌋ := Int.floor_nonneg.mpr hd0
  have a2 : (m : ℤ) - 1 ≤ ⌊d⌋ := by rw [Int.le_floor]; push_cast; linarith [hd'.1]
  have a3 : ⌊d⌋ ≤ (m : ℤ) := by
    rw [← Int.lt_add_one_iff, Int.floor_lt]; push_cast; linarith [hd'.2]
  have a4 : (m : ℤ) + p - 1 ≤ ⌊f⌋ := by rw [Int.le_floor]; push_cast; linarith [hf'.1]
  have a5 : ⌊f⌋ ≤ (m : ℤ) + p := by
    rw [← Int.lt_add_one_iff, Int.floor_lt]; push_cast; linarith [hf'.2]
  have a6 : ⌊d⌋ = m → ⌊f⌋ = m + p := by
    intro h
    refine le_antisymm a5 ?_
    have h1 : (m : ℚ) ≤ d := by have := Int.floor_le d; rw [h] at this; exact_mod_cast this
    have h2 := hY m hmN h1
    rw [Int.le_floor]; push_cast at h2 ⊢; exact h2
  refine ⟨a1, a2, a3, a4, a5, ?_, ?_⟩
  · by_cases h : ⌊d⌋ = m
    · have := a6 h; simp only; omega
    · simp only; omega
  · rintro (h | h | h)
    · have h1 : (1 : ℚ) / k ≤ r / k := by
        gcongr; exact_mod_cast Nat.one_le_iff_ne_zero.mpr h
      have h2 : ⌊d⌋ = m := le_antisymm a3 (by rw [Int.le_floor]; push_cast; linarith [hd'.1])
      rw [h2, a6 h2]
    · have h2 := hi0 h
      have h3 : m = 0 := by
        subst h
        have : k * m = 0 := by omega
        rcases Nat.mul_eq_zero.mp this with h | h <;> omega
      rw [h2.1, h2.2, h3]; simp
    · have h2 := hex h
      have h3 : m = i * p := by
        rw [h] at hm
        have e1 : i * (k * p) = k * (i * p) := by ring
        rw [e1] at hm
        have h4 : k * m ≤ k * (i * p) := by omega
        have h5 := Nat.le_of_mul_le_mul_left h4 hk1
        by_contra hne
        have h6 : m + 1 ≤ i * p := by omega
        have h7 := Nat.mul_le_mul_left k h6
        rw [Nat.mul_add] at h7
        omega
      rw [h2.1, h2.2, h3]
      simp only [Int.floor_natCast, Prod.mk.injEq]
      refine ⟨trivial, ?_⟩
      push_cast; ring

/-- The number of pieces is not changed by the rounding of the quotient. -/
theorem numberOfPieces_fl (N p : ℕ) (hN : N ≤ 2 ^ 25) (hp : 1 ≤ p) (hN1 : 1 ≤ N) :
    pyInt (fl (((N : ℚ) - 1) / ((p : ℤ) : ℚ))) = ((N - 1) / p : ℕ) := by
  have hpq : (0 : ℚ) < p := by exact_mod_cast hp
  have hNq : (N : ℚ) ≤ 2 ^ 25 := by exact_mod_cast hN
  have e0 : ((N : ℚ) - 1) / ((p : ℤ) : ℚ) = ((N - 1 : ℕ) : ℚ) / p := by push_cast [Nat.cast_sub hN1]; rfl
  rw [e0]
  set n := N - 1 with hn
  have hnq : (n : ℚ) < 2 ^ 53 := by
    have : n < 2 ^ 53 := by omega
    exact_mod_cast this
  have hdm := Nat.div_add_mod n p
  have hmod := Nat.mod_lt n hp
  set m := n / p
  have hq : (n : ℚ) / p = m + (n % p : ℕ) / p := by
    rw [eq_comm, ← sub_eq_zero]; field_simp
    have : (n : ℚ) = p * m + (n % p : ℕ) := by exact_mod_cast hdm.symm
    linarith
  have h0 : (0 : ℚ) ≤ n / p := by positivity
  have hmod0 : (0 : ℚ) ≤ (n % p : ℕ) / p := by positivity
  have hmod1 : ((n % p : ℕ) : ℚ) / p + 1 / p ≤ 1 := by
    rw [← add_div, div_le_one hpq]; exact_mod_cast hmod
  rw [pyInt_of_nonneg (fl_nonneg h0)]
  have hmn : m ≤ n := Nat.div_le_self _ _
  apply le_antisymm
  · rw [← Int.lt_add_one_iff, Int.floor_lt]
    have e := abs_le.mp (fl_error_of_le h0 le_rfl)
    have h1 : (n : ℚ) / p / 2 ^ 53 < 1 / p := by
      rw [div_div, mul_comm (p : ℚ), ← div_div]
      gcongr
      rw [div_lt_one (by norm_num)]; exact hnq
    push_cast
    linarith [e.2]
  · rw [Int.le_floor]
    rw [Int.cast_natCast]
    refine double_le_fl (by positivity) (double_nat m (by omega)) ?_
    linarith

theorem divisionPlanFl_many (resolution timeStep : ℚ) (N p : ℕ) (hN : N ≤ 2 ^ 25) (hp : 1 ≤ p) (hpN : p < N)
    (hz : fl (timeStep * resolution) ≠ 0) (hr : roundEven (fl (1 / fl (timeStep * resolution))) = p) :
    divisionPlanFl resolution N timeStep = some (fl (((N : ℚ) - (p : ℤ)) / ((N - 1) / p : ℕ)), (N - 1) / p, (p : ℤ)) := by
  unfold divisionPlanFl
  rw [if_neg hz, hr, if_neg (by omega)]
  simp only []
  rw [numberOfPieces_fl N p hN hp (by omega)]
  have h1 : 0 < (N - 1) / p := Nat.div_pos (by omega) hp
  rw [if_pos (by exact_mod_cast h1)]
  simp only [Int.toNat_natCast, Int.cast_natCast]

/-- Division of the data in double precision, for up to 2^25 samples (33 million) and a piece size smaller than the number of samples: `(N - 1)/p + 1` pieces with
`IsDivisionFl`. -/
theorem C27_double (resolution timeStep : ℚ) (N p : ℕ) (hN : N ≤ 2 ^ 25) (hp : 1 ≤ p) (hpN : p < N)
    (hz : fl (timeStep * resolution) ≠ 0) (hr : roundEven (fl (1 / fl (timeStep * resolution))) = p) :
    ∃ l, divisionOfDataFl resolution N timeStep = some l ∧ l.length = (N - 1) / p + 1 ∧ IsDivisionFl N p l := by
  set k := (N - 1) / p with hk
  have hk1 : 1 ≤ k := Nat.div_pos (by omega) hp
  have hkN : k < N := lt_of_le_of_lt (Nat.div_le_self _ _) (by omega)
  set t := fl (((N : ℚ) - (p : ℤ)) / k) with ht
  refine ⟨(List.range (k + 1)).map fun i => pieceFl p t i, ?_, by simp, ?_⟩
  · unfold divisionOfDataFl
    rw [divisionPlanFl_many resolution timeStep N p hN hp hpN hz hr]
    rfl
  have hmem : ∀ q : ℤ × ℤ, q ∈ ((List.range (k + 1)).map fun i => pieceFl p t i) → ∃ i, i ≤ k ∧ q = pieceFl p t i := by
    intro q hq
    obtain ⟨i, hi, rfl⟩ := List.mem_map.mp hq
    exact ⟨i, by have := List.mem_range.mp hi; omega, rfl⟩
  have hspec : ∀ i, i ≤ k → _ := fun i hi =>
    pieceFl_spec N p k i hN hpN hk1 hkN hi (pieceFl p t i) rfl (i * (N - p) / k) (i * (N - p) % k) (Nat.div_add_mod _ _).symm
      (Nat.mod_lt _ hk1)
  have hle : ∀ i, i ≤ k → i * (N - p) / k ≤ N - p := by
    intro i hi
    apply Nat.div_le_of_le_mul
    exact Nat.mul_le_mul_right _ hi
  have hkp : k * p ≤ N - 1 := Nat.div_mul_le_self _ _
  have hkp' : N - p ≤ k * p := by
    have := Nat.lt_mul_div_succ (N - 1) hp
    rw [← hk, Nat.mul_add, Nat.mul_comm] at this
    omega
  -- no gap between consecutive pieces
  have hgap : ∀ i, i + 1 ≤ k → (pieceFl p t (i + 1)).1 ≤ (pieceFl p t i).2 := by
    intro i hi
    have h1 := hspec i (by omega)
    have h2 := hspec (i + 1) hi
    have hm1 := Nat.div_add_mod (i * (N - p)) k
    have hm2 := Nat.div_add_mod ((i + 1) * (N - p)) k
    have hr1 := Nat.mod_lt (i * (N - p)) hk1
    have hr2 := Nat.mod_lt ((i + 1) * (N - p)) hk1
    set m1 := i * (N - p) / k
    set m2 := (i + 1) * (N - p) / k
    set r1 := i * (N - p) % k
    set r2 := (i + 1) * (N - p) % k
    have hadd : (i + 1) * (N - p) = i * (N - p) + (N - p) := by ring
    -- m2 ≤ m1 + p
    have hb1 : m2 ≤ m1 + p := by
      by_contra hc
      have h3 : m1 + p + 1 ≤ m2 := by omega
      have h4 := Nat.mul_le_mul_left k h3
      rw [Nat.mul_add, Nat.mul_add] at h4
      omega
    by_cases hcase : r1 ≠ 0 ∨ i = 0 ∨ N - p = k * p
    · have h3 := h1.2.2.2.2.2.2 hcase
      have h4 := h2.2.2.1
      rw [h3]
      simp only
      omega
    · push Not at hcase
      have hb2 : m2 + 1 ≤ m1 + p := by
        by_contra hc
        have h3 : m1 + p ≤ m2 := by omega
        have h4 := Nat.mul_le_mul_left k h3
        rw [Nat.mul_add] at h4
        omega
      have h4 := h2.2.2.1
      have h5 := h1.2.2.2.1
      omega
  refine ⟨?_, ?_, ?_, ?_⟩
  · have h1 := (hspec 0 (by omega)).2.2.2.2.2.2 (Or.inr (Or.inl rfl))
    rw [List.range_succ_eq_map]
    simp only [List.map_cons, List.head?_cons, h1]
    simp
  · intro q hq
    obtain ⟨i, hi, rfl⟩ := hmem q hq
    have h1 := hspec i hi
    have h2 := hle i hi
    refine ⟨h1.1, by omega, by omega⟩
  · intro q hq
    obtain ⟨i, hi, rfl⟩ := hmem q hq
    exact (hspec i hi).2.2.2.2.2.1
  · intro j hj
    -- the first piece that ends after j
    have hlast : (N : ℤ) - 1 ≤ (pieceFl p t k).2 := by
      have h1 := (hspec k le_rfl).2.2.2.1
      rw [Nat.mul_div_cancel_left _ hk1] at h1
      omega
    have hex : ∃ i, i ≤ k ∧ (j : ℤ) < (pieceFl p t i).2 := ⟨k, le_rfl, by omega⟩
    classical
    have hmin := Nat.find_spec hex
    have hlt := fun m (hm : m < Nat.find hex) => Nat.find_min hex hm
    set i := Nat.find hex
    refine ⟨pieceFl p t i, List.mem_map.mpr ⟨i, List.mem_range.mpr (by omega), rfl⟩, ?_, hmin.2⟩
    rcases Nat.eq_zero_or_pos i with h0 | h0
    · have h1 := (hspec 0 (by omega)).2.2.2.2.2.2 (Or.inr (Or.inl rfl))
      rw [h0, h1]; simp
    · obtain ⟨i', hi'⟩ : ∃ i', i = i' + 1 := ⟨i - 1, by omega⟩
      have h1 := hlt i' (by omega)
      push Not at h1
      have h2 := h1 (by omega)
      have h3 := hgap i' (by omega)
      rw [hi']
      omega

/-- With a piece size not below the number of samples all the data form the only piece, which is used twice. -/
theorem C27_double_one (resolution timeStep : ℚ) (N p : ℕ) (hN : N ≤ 2 ^ 25) (hp : N ≤ p) (hN1 : 1 ≤ N)
    (hz : fl (timeStep * resolution) ≠ 0) (hr : roundEven (fl (1 / fl (timeStep * resolution))) = p) :
    divisionOfDataFl resolution N timeStep = some [(0, (N : ℤ)), (0, (N : ℤ))] := by
  unfold divisionOfDataFl divisionPlanFl
  rw [if_neg hz, hr, if_neg (by omega)]
  simp only []
  rw [numberOfPieces_fl N p hN (by omega) hN1, Nat.div_eq_of_lt (by omega)]
  have hh : fl (((N : ℤ) : ℚ) / 2) = N / 2 := by
    rw [Int.cast_natCast]
    exact fl_of_double (double_nat_half N (by omega))
  have hh1 : fl ((N : ℚ) / 2) = N / 2 := fl_of_double (double_nat_half N (by omega))
  have hh2 : fl ((N : ℚ) / 2 + N / 2) = N := by
    rw [add_halves]; exact fl_of_double (double_nat N (by omega))
  have e : ∀ i : ℕ, pieceFl (N : ℤ) 0 i = (0, (N : ℤ)) := by
    intro i
    unfold pieceFl
    rw [hh, mul_zero, fl_zero, add_zero, hh1, sub_self, fl_zero, hh2]
    simp [pyInt]
  simp [e, List.range_succ]

/-- The piece size of the two theorems above: the number of samples in a time `1/resolution` to the nearest whole number, but for an error of
some parts in 10^16. -/
theorem C27_double_size (resolution timeStep : ℚ) (hr : 0 < resolution) (ht : 0 < timeStep) :
    fl (timeStep * resolution) ≠ 0 ∧
      |(roundEven (fl (1 / fl (timeStep * resolution))) : ℚ) - 1 / (timeStep * resolution)| ≤ 1 / 2 + 3 / 2 ^ 53 * (1 / (timeStep * resolution)) := by
  set x := timeStep * resolution with hx
  have hx0 : 0 < x := mul_pos ht hr
  have e1 := abs_le.mp (fl_error_of_le hx0.le le_rfl)
  set y := fl x with hy
  have hy1 : x * (1 - 1 / 2 ^ 53) ≤ y := by
    have : x / 2 ^ 53 = x * (1 / 2 ^ 53) := by ring
    linarith [e1.1]
  have hy0 : 0 < y := lt_of_lt_of_le (mul_pos hx0 (by norm_num)) hy1
  have hyi : 1 / y ≤ 3 / 2 * (1 / x) := by
    rw [show 3 / 2 * (1 / x) = (3 / 2) / x by ring, div_le_div_iff₀ hy0 hx0]
    linarith
  have e2 := abs_le.mp (fl_error_of_le (by positivity : 0 ≤ 1 / y) le_rfl)
  have e3 : |1 / y - 1 / x| ≤ 1 / y / 2 ^ 53 := by
    have h1 : 1 / y - 1 / x = (x - y) * (1 / x) * (1 / y) := by field_simp
    rw [h1, abs_mul, abs_mul, abs_of_pos (by positivity : 0 < 1 / x), abs_of_pos (by positivity : 0 < 1 / y)]
    have h2 : |x - y| ≤ x / 2 ^ 53 := by rw [abs_le]; constructor <;> linarith [e1.1, e1.2]
    calc |x - y| * (1 / x) * (1 / y) ≤ x / 2 ^ 53 * (1 / x) * (1 / y) := by gcongr
      _ = 1 / y / 2 ^ 53 := by field_simp
  have e3' := abs_le.mp e3
  have e4 := abs_le.mp (roundEven_abs_sub (fl (1 / y)))
  refine ⟨hy0.ne', ?_⟩
  have h5 : 1 / y / 2 ^ 53 ≤ 3 / 2 * (1 / x) / 2 ^ 53 := by gcongr
  have h6 : 3 / 2 ^ 53 * (1 / x) = 2 * (3 / 2 * (1 / x) / 2 ^ 53) := by ring
  rw [abs_le, h6]
  constructor <;> linarith [e2.1, e2.2, e3'.1, e3'.2, e4.1, e4.2]

/-- The full claim (every sample in a piece, as `C27_division` has it without rounding errors) does not hold in double precision: of 107 samples
in pieces of 5, the last one belongs to no piece. -/
theorem C27_double_violated : ¬ ∀ (resolution timeStep : ℚ) (N : ℕ) (l : List (ℤ × ℤ)), IsDouble resolution → IsDouble timeStep → 0 < resolution →
    0 < timeStep → divisionOfDataFl resolution N timeStep = some l → ∀ j : ℕ, j < N → ∃ q ∈ l, q.1 ≤ j ∧ j < q.2 := by
  intro h
  have h1 : ((divisionOfDataFl (fl (1 / 5)) 107 1).any fun l => l.all fun q => !(decide (q.1 ≤ 106) && decide (106 < q.2))) = true := by decide +kernel
  rw [Option.any_eq_true_iff_get] at h1
  obtain ⟨hs, h1⟩ := h1
  obtain ⟨q, hq, hj, hj'⟩ := h (fl (1 / 5)) 1 107 _ (fl_double _) ⟨1, 0, by norm_num, by norm_num⟩ (by decide +kernel) (by norm_num) (Option.some_get hs).symm 106
    (by norm_num)
  have h2 := List.all_eq_true.mp h1 q hq
  simp only [Bool.not_eq_true', Bool.and_eq_false_iff, decide_eq_false_iff_not] at h2
  norm_num at hj hj'
  omega

/-- Nor do the pieces have the same length, and then the average of the spectra of the pieces fails, so that no spectrum is obtained:
136000 samples, time step 0.001 ps and resolution 0.1 THz. -/
theorem C27_ragged_violated : ¬ ∀ (resolution timeStep : ℚ) (N : ℕ) (l : List (ℤ × ℤ)), IsDouble resolution → IsDouble timeStep → 0 < resolution →
    0 < timeStep → divisionOfDataFl resolution N timeStep = some l → ∃ n, averageLength (l.map fun q => q.2 - q.1) = some n := by
  intro h
  have h1 : ((divisionOfDataFl (fl (1 / 10)) 136000 (fl (1 / 1000))).any fun l => (averageLength (l.map fun q => q.2 - q.1)).isNone) = true := by
    decide +kernel
  rw [Option.any_eq_true_iff_get] at h1
  obtain ⟨hs, h1⟩ := h1
  obtain ⟨n, hn⟩ := h (fl (1 / 10)) (fl (1 / 1000)) 136000 _ (fl_double _) (fl_double _) (by decide +kernel) (by decide +kernel) (Option.some_get hs).symm
  rw [hn] at h1
  simp at h1

/-- Without rounding errors the average does not fail. -/
theorem C27_average_exact (resolution timeStep : ℚ) (hr : 0 < resolution) (ht : 0 < timeStep) (N : ℕ) (l : List (ℤ × ℤ))
    (h : divisionOfData resolution N timeStep = some l) : ∃ n, averageLength (l.map fun q => q.2 - q.1) = some n := by
  have hd := C27_division resolution timeStep hr ht N l h
  obtain ⟨L, -, -, hL⟩ := hd.sameLength
  cases l with
  | nil => exact absurd rfl hd.nonempty
  | cons q l =>
    refine ⟨L, ?_⟩
    have h1 := hL q (by simp)
    simp only [List.map_cons, averageLength, h1]
    rw [if_pos]
    intro m hm
    obtain ⟨q', hq', rfl⟩ := List.mem_map.mp hm
    exact hL q' (List.mem_cons_of_mem _ hq')

/-- Example: the hypotheses of `C27_double` for 107 samples. -/
example : ∃ l, divisionOfDataFl (fl (1 / 5)) 107 1 = some l ∧ l.length = 22 ∧ IsDivisionFl 107 5 l :=
  C27_double (fl (1 / 5)) 1 107 5 (by norm_num) (by norm_num) (by norm_num) (by decide +kernel) (by decide +kernel)

end Verif
