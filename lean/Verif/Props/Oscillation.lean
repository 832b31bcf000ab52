import Verif.Props.Spectra
import Verif.Props.NormalModes

/-! # C108: a pure oscillation shows up at its frequency -/

set_option autoImplicit false
set_option linter.unusedSectionVars false

namespace Verif

open Complex

/-- The samples `A exp(2 π i f t)` at `t = 0, dt, 2 dt, ...`. -/
noncomputable def tone (A : ℂ) (f dt : ℝ) (N : ℕ) : List ℂ := (List.range N).map fun (j : ℕ) => A * exp (2 * Real.pi * I * f * (j * dt))

theorem tone_length (A : ℂ) (f dt : ℝ) (N : ℕ) : (tone A f dt N).length = N := by simp [tone]

theorem tone_getD (A : ℂ) (f dt : ℝ) (N j : ℕ) (h : j < N) : (tone A f dt N).getD j 0 = A * exp (2 * Real.pi * I * f * (j * dt)) := by
  unfold tone
  rw [List.getD_eq_getElem?_getD, List.getElem?_map, List.getElem?_range h]
  rfl

/-- The number of pairs of samples at a distance `lag`. -/
def pairsAtLag (N : ℕ) (lag : ℤ) : ℕ := N - lag.natAbs

theorem card_pairsAtLag (N : ℕ) (lag : ℤ) :
    ((Finset.range N ×ˢ Finset.range N).filter fun p : ℕ × ℕ => (p.2 : ℤ) - p.1 = lag).card = pairsAtLag N lag := by
  unfold pairsAtLag
  rcases le_total 0 lag with h | h
  · obtain ⟨l, rfl⟩ := Int.eq_ofNat_of_zero_le h
    rw [Int.natAbs_natCast, ← Finset.card_range (N - l)]
    symm
    apply Finset.card_bij (fun a _ => (a, a + l))
    · intro a ha
      simp only [Finset.mem_range, Finset.mem_filter, Finset.mem_product] at *
      omega
    · intro a _ b _ hab
      simp only [Prod.mk.injEq] at hab
      exact hab.1
    · rintro ⟨a, b⟩ hb
      simp only [Finset.mem_range, Finset.mem_filter, Finset.mem_product, Prod.mk.injEq] at *
      exact ⟨a, by omega, rfl, by omega⟩
  · obtain ⟨l, hl⟩ := Int.eq_ofNat_of_zero_le (Int.neg_nonneg_of_nonpos h)
    obtain rfl : lag = -(l : ℤ) := by omega
    rw [Int.natAbs_neg, Int.natAbs_natCast, ← Finset.card_range (N - l)]
    symm
    apply Finset.card_bij (fun a _ => (a + l, a))
    · intro a ha
      simp only [Finset.mem_range, Finset.mem_filter, Finset.mem_product] at *
      omega
    · intro a _ b _ hab
      simp only [Prod.mk.injEq] at hab
      exact hab.2
    · rintro ⟨a, b⟩ hb
      simp only [Finset.mem_range, Finset.mem_filter, Finset.mem_product, Prod.mk.injEq] at *
      exact ⟨b, by omega, by omega, rfl⟩

theorem autocorr_tone (A : ℂ) (f dt : ℝ) (N : ℕ) (lag : ℤ) :
    autocorr (tone A f dt N) lag = ((‖A‖ ^ 2 * pairsAtLag N lag : ℝ) : ℂ) * exp (2 * Real.pi * I * f * (lag * dt)) := by
  unfold autocorr
  rw [tone_length, ← Finset.sum_product', ← Finset.sum_filter]
  rw [Finset.sum_congr rfl (g := fun _ => ((‖A‖ ^ 2 : ℝ) : ℂ) * exp (2 * Real.pi * I * f * (lag * dt)))]
  · rw [Finset.sum_const, card_pairsAtLag, nsmul_eq_mul]
    push_cast
    ring
  · rintro ⟨a, b⟩ hb
    simp only [Finset.mem_range, Finset.mem_filter, Finset.mem_product] at hb
    obtain ⟨⟨ha, hb'⟩, rfl⟩ := hb
    simp only
    rw [tone_getD _ _ _ _ _ ha, tone_getD _ _ _ _ _ hb', map_mul, ← exp_conj]
    have : starRingEnd ℂ (2 * Real.pi * I * f * (a * dt)) = -(2 * Real.pi * I * f * (a * dt)) := by
      simp only [map_mul, conj_ofReal, conj_I, map_natCast, map_ofNat]
      ring
    rw [this]
    calc A * exp (2 * Real.pi * I * f * (b * dt)) * (starRingEnd ℂ A * exp (-(2 * Real.pi * I * f * (a * dt))))
        = (A * starRingEnd ℂ A) * (exp (2 * Real.pi * I * f * (b * dt)) * exp (-(2 * Real.pi * I * f * (a * dt)))) := by ring
      _ = _ := by
        rw [conj_mul_self', ← exp_add]
        congr 2
        push_cast
        ring

/-- The line shape of `N` samples: the spectrum of an oscillation of frequency `f` and amplitude `A` at a grid frequency `g` is
`|A|^2` times this, at `x = f - g`. -/
noncomputable def lineShape (N : ℕ) (dt x : ℝ) : ℝ :=
  dt / N * ‖∑ lag ∈ Finset.Ico (-(N / 2 : ℕ) : ℤ) (N - (N / 2 : ℕ) : ℤ), (pairsAtLag N lag : ℂ) * exp (2 * Real.pi * I * x * (lag * dt))‖

theorem piecePower_tone (A : ℂ) (f dt : ℝ) (hdt : 0 < dt) (N k : ℕ) (hk : k < N) :
    (piecePower dt (tone A f dt N)).getD k 0 = ‖A‖ ^ 2 * lineShape N dt (f - fftFreq N dt k) := by
  rw [C31_correlogram dt hdt _ k (by rwa [tone_length]), tone_length]
  unfold lineShape
  have : ∀ lag : ℤ, autocorr (tone A f dt N) lag * exp (-2 * Real.pi * I * fftFreq N dt k * (lag * dt)) =
      ((‖A‖ ^ 2 : ℝ) : ℂ) * ((pairsAtLag N lag : ℂ) * exp (2 * Real.pi * I * (f - fftFreq N dt k : ℝ) * (lag * dt))) := by
    intro lag
    rw [autocorr_tone]
    have : exp (2 * Real.pi * I * (f - fftFreq N dt k : ℝ) * (lag * dt)) = exp (2 * Real.pi * I * f * (lag * dt)) * exp (-2 * Real.pi * I * fftFreq N dt k * (lag * dt)) := by
      rw [← exp_add]
      congr 1
      push_cast
      ring
    rw [this]
    push_cast
    ring
  simp only [this]
  rw [← Finset.mul_sum, norm_mul, norm_real, Real.norm_of_nonneg (by positivity)]
  ring

/-! ### The shape is largest at 0 -/

theorem norm_one_turn {a b : ℝ} (ha : 0 < a) (hb : 0 < b) (w : ℂ) (hw : ‖w‖ = 1) (hw1 : w ≠ 1) : ‖(a : ℂ) + b * w‖ < a + b := by
  have hre : w.re < 1 := by
    have h1 : w.re ≤ 1 := (re_le_norm w).trans hw.le
    refine lt_of_le_of_ne h1 fun h => hw1 ?_
    have h2 : normSq w = 1 := by rw [normSq_eq_norm_sq, hw]; norm_num
    rw [normSq_apply, h] at h2
    have : w.im = 0 := by nlinarith
    exact Complex.ext h this
  have h2 : normSq w = 1 := by rw [normSq_eq_norm_sq, hw]; norm_num
  rw [normSq_apply] at h2
  have h3 : ‖(a : ℂ) + b * w‖ ^ 2 < (a + b) ^ 2 := by
    rw [← normSq_eq_norm_sq, normSq_apply]
    simp only [add_re, ofReal_re, mul_re, ofReal_im, zero_mul, sub_zero, add_im, mul_im, zero_add, add_zero]
    have h4 := mul_pos (mul_pos ha hb) (sub_pos.2 hre)
    have h5 : b ^ 2 * (w.re * w.re + w.im * w.im) = b ^ 2 := by rw [h2, mul_one]
    nlinarith
  exact lt_of_pow_lt_pow_left₀ 2 (by positivity) h3

theorem lineShape_le (N : ℕ) (dt : ℝ) (hdt : 0 < dt) (x : ℝ) : lineShape N dt x ≤ lineShape N dt 0 := by
  have hz : ∀ lag : ℤ, exp (2 * Real.pi * I * ((0 : ℝ) : ℂ) * (lag * dt)) = 1 := by intro lag; simp
  unfold lineShape
  apply mul_le_mul_of_nonneg_left _ (by positivity)
  simp only [hz, mul_one]
  refine (norm_sum_le _ _).trans (le_of_eq ?_)
  rw [← Nat.cast_sum, norm_natCast, Nat.cast_sum]
  apply Finset.sum_congr rfl
  intro lag _
  rw [norm_mul, norm_natCast, show (2 * Real.pi * I * x * (lag * dt) : ℂ) = ((2 * Real.pi * x * (lag * dt) : ℝ) : ℂ) * I by push_cast; ring,
    norm_exp_ofReal_mul_I, mul_one]

theorem lineShape_lt (N : ℕ) (hN : 2 ≤ N) (dt : ℝ) (hdt : 0 < dt) (x : ℝ) (hx : ∀ z : ℤ, x * dt ≠ z) : lineShape N dt x < lineShape N dt 0 := by
  have hz : ∀ lag : ℤ, exp (2 * Real.pi * I * ((0 : ℝ) : ℂ) * (lag * dt)) = 1 := by intro lag; simp
  unfold lineShape
  apply mul_lt_mul_of_pos_left _ (by positivity)
  simp only [hz, mul_one]
  set S := Finset.Ico (-(N / 2 : ℕ) : ℤ) (N - (N / 2 : ℕ) : ℤ) with hS
  have h0 : (0 : ℤ) ∈ S := by rw [hS, Finset.mem_Ico]; omega
  have h1 : (-1 : ℤ) ∈ S.erase 0 := by rw [Finset.mem_erase, hS, Finset.mem_Ico]; omega
  rw [← Finset.add_sum_erase S _ h0, ← Finset.add_sum_erase (S.erase 0) _ h1, ← add_assoc]
  rw [← Nat.cast_sum, norm_natCast, ← Finset.add_sum_erase S _ h0, ← Finset.add_sum_erase (S.erase 0) _ h1, ← add_assoc]
  refine (norm_add_le _ _).trans_lt ?_
  rw [Nat.cast_add]
  apply add_lt_add_of_lt_of_le
  · have := norm_one_turn (a := (pairsAtLag N 0 : ℕ)) (b := (pairsAtLag N (-1) : ℕ)) (by unfold pairsAtLag; exact_mod_cast (by simp; omega)) (by unfold pairsAtLag; exact_mod_cast (by simp; omega))
      (exp (2 * Real.pi * I * x * (((-1 : ℤ) : ℂ) * dt)))
      (by rw [show (2 * Real.pi * I * x * (((-1 : ℤ) : ℂ) * dt) : ℂ) = ((2 * Real.pi * x * (-dt) : ℝ) : ℂ) * I by push_cast; ring, norm_exp_ofReal_mul_I])
      (by
        intro he
        rw [exp_eq_one_iff] at he
        obtain ⟨z, hz⟩ := he
        apply hx (-z)
        have hpi : (2 * Real.pi * I : ℂ) ≠ 0 := by simp [Real.pi_ne_zero]
        have : (2 * Real.pi * I : ℂ) * (-(x * dt)) = (2 * Real.pi * I) * z := by
          push_cast at hz
          linear_combination hz
        have := mul_left_cancel₀ hpi this
        have h3 : -(x * dt) = z := by exact_mod_cast this
        push_cast
        linarith)
    rw [Nat.cast_add]
    simpa using this
  · refine (norm_sum_le _ _).trans (le_of_eq ?_)
    rw [Nat.cast_sum]
    apply Finset.sum_congr rfl
    intro lag _
    rw [norm_mul, norm_natCast, show (2 * Real.pi * I * x * (lag * dt) : ℂ) = ((2 * Real.pi * x * (lag * dt) : ℝ) : ℂ) * I by push_cast; ring,
      norm_exp_ofReal_mul_I, mul_one]

/-- The height of a line, by its number of samples. -/
theorem lineShape_zero (N : ℕ) (hN : 0 < N) (dt : ℝ) (hdt : 0 < dt) :
    lineShape N dt 0 = dt * (3 * N ^ 2 + (N % 2 : ℕ)) / (4 * N) := by
  have hz : ∀ lag : ℤ, exp (2 * Real.pi * I * ((0 : ℝ) : ℂ) * (lag * dt)) = 1 := by intro lag; simp
  unfold lineShape
  simp only [hz, mul_one]
  rw [← Nat.cast_sum, norm_natCast]
  -- the sum
  have key : ∀ M a : ℕ, a ≤ M → (∑ lag ∈ Finset.Ico (-(a : ℕ) : ℤ) 0, (pairsAtLag M lag : ℤ)) = a * M - ∑ i ∈ Finset.range a, ((i : ℤ) + 1) := by
    intro M a
    induction a with
    | zero => simp
    | succ a ih =>
      intro h
      have : Finset.Ico (-((a + 1 : ℕ) : ℤ)) 0 = insert (-((a + 1 : ℕ) : ℤ)) (Finset.Ico (-(a : ℤ)) 0) := by
        ext x
        simp only [Finset.mem_Ico, Finset.mem_insert]
        omega
      rw [this, Finset.sum_insert (by simp only [Finset.mem_Ico]; omega), ih (by omega), Finset.sum_range_succ]
      unfold pairsAtLag
      rw [Int.natAbs_neg, Int.natAbs_natCast, Nat.cast_sub h]
      push_cast
      ring
  have key2 : ∀ M b : ℕ, b ≤ M → (∑ lag ∈ Finset.Ico (0 : ℤ) b, (pairsAtLag M lag : ℤ)) = b * M - ∑ i ∈ Finset.range b, (i : ℤ) := by
    intro M b
    induction b with
    | zero => simp
    | succ b ih =>
      intro h
      have : Finset.Ico (0 : ℤ) ((b + 1 : ℕ) : ℤ) = insert (b : ℤ) (Finset.Ico (0 : ℤ) b) := by
        ext x
        simp only [Finset.mem_Ico, Finset.mem_insert]
        omega
      rw [this, Finset.sum_insert (by simp only [Finset.mem_Ico]; omega), ih (by omega), Finset.sum_range_succ]
      unfold pairsAtLag
      rw [Int.natAbs_natCast, Nat.cast_sub (by omega)]
      push_cast
      ring
  have gauss : ∀ b : ℕ, 2 * ∑ i ∈ Finset.range b, (i : ℤ) = b * (b - 1) := by
    intro b
    induction b with
    | zero => simp
    | succ b ih => rw [Finset.sum_range_succ, mul_add, ih]; push_cast; ring
  have gauss1 : ∀ a : ℕ, 2 * ∑ i ∈ Finset.range a, ((i : ℤ) + 1) = a * (a + 1) := by
    intro b
    induction b with
    | zero => simp
    | succ b ih => rw [Finset.sum_range_succ, mul_add, ih]; push_cast; ring
  have hsplit : ∑ lag ∈ Finset.Ico (-(N / 2 : ℕ) : ℤ) (N - (N / 2 : ℕ) : ℤ), (pairsAtLag N lag : ℤ) =
      ∑ lag ∈ Finset.Ico (-(N / 2 : ℕ) : ℤ) 0, (pairsAtLag N lag : ℤ) + ∑ lag ∈ Finset.Ico (0 : ℤ) ((N - N / 2 : ℕ) : ℤ), (pairsAtLag N lag : ℤ) := by
    rw [show ((N : ℤ) - (N / 2 : ℕ)) = ((N - N / 2 : ℕ) : ℤ) by omega, ← Finset.sum_union (Finset.Ico_disjoint_Ico_consecutive _ _ _),
      Finset.Ico_union_Ico_eq_Ico (by omega) (by omega)]
  have hsum : 4 * ∑ lag ∈ Finset.Ico (-(N / 2 : ℕ) : ℤ) (N - (N / 2 : ℕ) : ℤ), (pairsAtLag N lag : ℤ) = 3 * (N : ℤ) ^ 2 + (N % 2 : ℕ) := by
    rw [hsplit, key N (N / 2) (by omega), key2 N (N - N / 2) (by omega)]
    have g1 := gauss (N - N / 2)
    have g2 := gauss1 (N / 2)
    rcases Nat.even_or_odd' N with ⟨c, hc | hc⟩
    · have e1 : N / 2 = c := by omega
      have e2 : N - c = c := by omega
      have e3 : N % 2 = 0 := by omega
      rw [e1] at g2 g1 ⊢
      rw [e2] at g1 ⊢
      rw [e3, hc]
      push_cast
      linear_combination (-2) * g1 - 2 * g2
    · have e1 : N / 2 = c := by omega
      have e2 : N - c = c + 1 := by omega
      have e3 : N % 2 = 1 := by omega
      rw [e1] at g2 g1 ⊢
      rw [e2] at g1 ⊢
      rw [e3, hc]
      push_cast at g1 ⊢
      linear_combination (-2) * g1 - 2 * g2
  have hsum' : 4 * ((∑ lag ∈ Finset.Ico (-(N / 2 : ℕ) : ℤ) (N - (N / 2 : ℕ) : ℤ), pairsAtLag N lag : ℕ) : ℝ) = 3 * (N : ℝ) ^ 2 + (N % 2 : ℕ) := by
    have : 4 * ((∑ lag ∈ Finset.Ico (-(N / 2 : ℕ) : ℤ) (N - (N / 2 : ℕ) : ℤ), pairsAtLag N lag : ℕ) : ℤ) = 3 * (N : ℤ) ^ 2 + (N % 2 : ℕ) := by
      rw [← hsum, Nat.cast_sum]
    exact_mod_cast this
  have hN' : (0 : ℝ) < N := by exact_mod_cast hN
  rw [← hsum']
  field_simp

/-! ### The pieces -/

/-- C27: the length of the pieces. -/
theorem C27_length (resolution timeStep : ℝ) (hr : 0 < resolution) (ht : 0 < timeStep) (N : ℕ) (hN : 0 < N) (pieces : List (ℤ × ℤ))
    (h : divisionOfData resolution N timeStep = some pieces) : ∀ p ∈ pieces, p.2 - p.1 = min (N : ℤ) (roundEven (1 / (timeStep * resolution))) := by
  have hpos : 0 < timeStep * resolution := mul_pos ht hr
  have hd := C27_division resolution timeStep hr ht N pieces h
  unfold divisionOfData divisionPlan at h
  rw [if_neg hpos.ne'] at h
  simp only at h
  have hP0 : 0 ≤ roundEven (1 / (timeStep * resolution)) := roundEven_nonneg (by positivity)
  generalize roundEven (1 / (timeStep * resolution)) = P at h hP0
  obtain ⟨L, -, -, hL⟩ := hd.sameLength
  have hall : ∀ q ∈ pieces, q.2 - q.1 = min (N : ℤ) P → ∀ p ∈ pieces, p.2 - p.1 = min (N : ℤ) P := by
    intro q hq e p hp
    rw [hL p hp, ← hL q hq, e]
  have h1N : (1 : ℝ) ≤ N := by exact_mod_cast hN
  split_ifs at h with hP hn
  · simp at h
  · rw [Option.map_some, Option.some.injEq] at h
    have hPpos : (0 : ℤ) < P := lt_of_le_of_ne hP0 (Ne.symm hP)
    have hPr : (0 : ℝ) < P := by exact_mod_cast hPpos
    have hq : 0 ≤ ((N : ℝ) - 1) / (P : ℝ) := div_nonneg (by linarith) hPr.le
    rw [pyInt_of_nonneg hq] at hn
    have hle : P ≤ N := by
      have : (1 : ℝ) ≤ ((N : ℝ) - 1) / P := by
        have h2 : (1 : ℤ) ≤ ⌊((N : ℝ) - 1) / (P : ℝ)⌋ := by omega
        have := Int.le_floor.1 h2
        exact_mod_cast this
      rw [le_div_iff₀ hPr] at this
      have : (P : ℝ) ≤ (N : ℤ) := by push_cast; linarith
      exact_mod_cast this
    apply hall (0, P)
    · rw [← h, List.mem_map]
      refine ⟨0, by simp, ?_⟩
      simp only [Nat.cast_zero, zero_mul, add_zero, sub_self, add_halves]
      simp [pyInt, hP0]
    · simp [hle]
  · rw [Option.map_some, Option.some.injEq] at h
    have hPpos : (0 : ℤ) < P := lt_of_le_of_ne hP0 (Ne.symm hP)
    have hPr : (0 : ℝ) < P := by exact_mod_cast hPpos
    have hq : 0 ≤ ((N : ℝ) - 1) / (P : ℝ) := div_nonneg (by linarith) hPr.le
    rw [pyInt_of_nonneg hq] at hn
    have hle : (N : ℤ) ≤ P := by
      have : ((N : ℝ) - 1) / P < 1 := by
        have h2 : ⌊((N : ℝ) - 1) / (P : ℝ)⌋ < 1 := by omega
        have := Int.floor_lt.1 h2
        exact_mod_cast this
      rw [div_lt_one hPr] at this
      have : ((N : ℤ) : ℝ) - 1 < P := by push_cast; linarith
      have : (N : ℤ) - 1 < P := by exact_mod_cast this
      omega
    apply hall (0, (N : ℤ))
    · rw [← h, List.mem_map]
      refine ⟨0, by simp, ?_⟩
      simp only [Nat.cast_zero, zero_mul, add_zero, sub_self, add_halves]
      simp [pyInt]
    · simp [hle]

theorem slice_tone (A : ℂ) (f dt : ℝ) (N L : ℕ) (s : ℕ) (h : s + L ≤ N) :
    slice (tone A f dt N) ((s : ℤ), ((s + L : ℕ) : ℤ)) = (tone A f dt L).map (exp (2 * Real.pi * I * f * (s * dt)) * ·) := by
  apply List.ext_getElem?
  intro j
  unfold slice tone
  simp only [Int.toNat_natCast, List.getElem?_drop, List.getElem?_take, List.getElem?_map]
  by_cases hj : j < L
  · rw [if_pos (by omega), List.getElem?_range (by omega), List.getElem?_range hj]
    simp only [Option.map_some, Option.some.injEq]
    rw [mul_left_comm (exp _) A, ← exp_add]
    congr 2
    push_cast
    ring
  · rw [if_neg (by omega), List.getElem?_eq_none (by simp; omega)]
    rfl

theorem averageRows_const (n : ℕ) (r : List ℝ) (hr : r.length = n) (ps : List (List ℝ)) (hne : ps ≠ []) (h : ∀ row ∈ ps, row = r) : averageRows n ps = r := by
  have : ps = List.replicate ps.length r := List.eq_replicate_of_mem h
  apply List.ext_getElem?
  intro k
  unfold averageRows
  rw [List.getElem?_map]
  by_cases hk : k < n
  · rw [List.getElem?_range hk, this]
    have hpos : (ps.length : ℝ) ≠ 0 := by simpa using hne
    simp only [Option.map_some, List.map_replicate, List.sum_replicate, List.length_replicate, nsmul_eq_mul]
    rw [mul_div_cancel_left₀ _ hpos, List.getD_eq_getElem?_getD, List.getElem?_eq_getElem (by omega)]
    rfl
  · rw [List.getElem?_eq_none (by simp; omega), List.getElem?_eq_none (by omega)]
    rfl

/-- The length of the pieces for a frequency range and `N` samples. -/
noncomputable def pieceLength (f0 f1 dt : ℝ) (N : ℕ) : ℕ := min N (roundEven (1 / (dt * (f1 - f0)))).toNat

theorem fftAverage_tone (A : ℂ) (f dt : ℝ) (hdt : 0 < dt) (N : ℕ) (hN : 0 < N) (f0 f1 : ℝ) (fs : List ℝ) (hf : f0 < f1) (hr : f1 - f0 < 2 / dt) :
    fftAverage (f0 :: f1 :: fs) (tone A f dt N) dt = some (piecePower dt (tone A f dt (pieceLength f0 f1 dt N))) := by
  have hd : (divisionOfData (f1 - f0) (tone A f dt N).length dt).isSome := by
    rw [C27_returns (f1 - f0) dt (by linarith) hdt, lt_div_iff₀ (mul_pos hdt (by linarith))]
    rw [lt_div_iff₀ hdt] at hr
    linarith
  obtain ⟨pieces, hp⟩ := Option.isSome_iff_exists.1 hd
  unfold fftAverage
  simp only
  have hne : tone A f dt N ≠ [] := by
    intro h
    have := congrArg List.length h
    rw [tone_length] at this
    simp at this
    omega
  rw [if_neg hne, hp, Option.map_some]
  rw [tone_length] at hp
  have hdiv := C27_division (f1 - f0) dt (by linarith) hdt N pieces hp
  have hlen := C27_length (f1 - f0) dt (by linarith) hdt N hN pieces hp
  have hpos : 0 < f1 - f0 := by linarith
  have hP0 : 0 ≤ roundEven (1 / (dt * (f1 - f0))) := roundEven_nonneg (by positivity)
  have hrow : ∀ p ∈ pieces, piecePower dt (slice (tone A f dt N) p) = piecePower dt (tone A f dt (pieceLength f0 f1 dt N)) := by
    intro p hpm
    have h1 := hdiv.inside p hpm
    have h2 := hlen p hpm
    have h3 : ((pieceLength f0 f1 dt N : ℕ) : ℤ) = min (N : ℤ) (roundEven (1 / (dt * (f1 - f0)))) := by
      unfold pieceLength
      rw [Nat.cast_min, Int.toNat_of_nonneg hP0]
    obtain ⟨s, hs⟩ := Int.eq_ofNat_of_zero_le h1.1
    have : p = ((s : ℤ), ((s + pieceLength f0 f1 dt N : ℕ) : ℤ)) := by
      apply Prod.ext
      · exact hs
      · push_cast
        omega
    rw [this, slice_tone _ _ _ _ _ _ (by omega), piecePower_smul,
      show (2 * Real.pi * I * f * (s * dt) : ℂ) = ((2 * Real.pi * f * (s * dt) : ℝ) : ℂ) * I by push_cast; ring, norm_exp_ofReal_mul_I]
    simp
  congr 1
  set r := piecePower dt (tone A f dt (pieceLength f0 f1 dt N)) with hrd
  have hall : ∀ row ∈ (pieces.map fun p => piecePower dt (slice (tone A f dt N) p)), row = r := by
    intro row hm
    obtain ⟨p, hpm, rfl⟩ := List.mem_map.1 hm
    exact hrow p hpm
  have hpne : (pieces.map fun p => piecePower dt (slice (tone A f dt N) p)) ≠ [] := by simpa using hdiv.nonempty
  apply averageRows_const _ _ _ _ hpne hall
  have hl : 0 < (pieces.map fun p => piecePower dt (slice (tone A f dt N) p)).length := List.length_pos_iff.2 hpne
  rw [List.getD_eq_getElem?_getD, List.getElem?_eq_getElem (by omega), Option.getD_some, hall _ (List.getElem_mem _)]

/-! ### Interpolation -/

theorem interp_lt (g f M : ℝ) (hgf : g ≠ f) : ∀ l : List (ℝ × ℝ), l.Pairwise (fun p q => p.1 < q.1) → (∀ p ∈ l, p.2 ≤ M ∧ (p.2 = M → p.1 = f)) →
    (∃ p ∈ l, p.1 ≤ g) → (∃ p ∈ l, g ≤ p.1) → interp g l < M
  | [], _, _, h, _ => by simp at h
  | [(a, fa)], _, hM, h1, h2 => by
    simp only [List.mem_singleton, exists_eq_left] at h1 h2
    have h3 := hM (a, fa) (by simp)
    rw [interp]
    refine lt_of_le_of_ne h3.1 fun h => hgf ?_
    have := h3.2 h
    linarith
  | (a, fa) :: (b, fb) :: t, hp, hM, h1, h2 => by
    have ha := hM (a, fa) (by simp)
    have hb := hM (b, fb) (by simp)
    have hab : a < b := (List.pairwise_cons.1 hp).1 (b, fb) (by simp)
    rw [interp]
    split_ifs with hga hgb
    · refine lt_of_le_of_ne ha.1 fun h => hgf ?_
      have h3 := ha.2 h
      simp only at h3
      obtain ⟨p, hpm, hpg⟩ := h1
      rcases List.mem_cons.1 hpm with rfl | hpm
      · simp only at hpg; linarith
      · have := (List.pairwise_cons.1 hp).1 p hpm
        simp only at this
        linarith
    · push Not at hga
      have hw1 : 0 < (g - a) / (b - a) := div_pos (by linarith) (by linarith)
      have hw2 : (g - a) / (b - a) < 1 := (div_lt_one (by linarith)).2 (by linarith)
      rw [show (fb - fa) / (b - a) * (g - a) + fa = (g - a) / (b - a) * fb + (1 - (g - a) / (b - a)) * fa by ring]
      set w := (g - a) / (b - a)
      rcases lt_or_eq_of_le ha.1 with h | h
      · simp only at h
        have := mul_lt_mul_of_pos_left h (by linarith : 0 < 1 - w)
        have := mul_le_mul_of_nonneg_left hb.1 hw1.le
        simp only at this
        linarith
      · have hfb : fb < M := by
          refine lt_of_le_of_ne hb.1 fun h' => ?_
          have h3 := ha.2 h
          have h4 := hb.2 h'
          simp only at h3 h4
          linarith
        have := mul_lt_mul_of_pos_left hfb hw1
        have := mul_le_mul_of_nonneg_left ha.1 (by linarith : 0 ≤ 1 - w)
        simp only at this
        linarith
    · push Not at hga hgb
      apply interp_lt g f M hgf _ (List.pairwise_cons.1 hp).2 (fun p hpm => hM p (List.mem_cons_of_mem _ hpm)) ⟨(b, fb), by simp, hgb⟩
      obtain ⟨p, hpm, hpg⟩ := h2
      rcases List.mem_cons.1 hpm with rfl | hpm
      · simp only at hpg; linarith
      · exact ⟨p, hpm, hpg⟩

/-! ### The theorems -/

/-- The grid of frequencies of a Fourier transform of `L` samples: `j / (L dt)` for integers `j` from `-(L/2)` on. -/
def OnGrid (L : ℕ) (dt g : ℝ) : Prop := ∃ j : ℤ, -((L / 2 : ℕ) : ℤ) ≤ j ∧ j < L - (L / 2 : ℕ) ∧ g = j / (L * dt)

theorem onGrid_fftFreq {L : ℕ} {dt g : ℝ} (h : OnGrid L dt g) : ∃ k, k < L ∧ g = fftFreq L dt k := by
  obtain ⟨j, h1, h2, rfl⟩ := h
  rcases le_total 0 j with h | h
  · obtain ⟨k, rfl⟩ := Int.eq_ofNat_of_zero_le h
    refine ⟨k, by omega, ?_⟩
    unfold fftFreq
    rw [if_pos (by omega)]
    push_cast
    rfl
  · by_cases h0 : j = 0
    · subst h0
      refine ⟨0, by omega, ?_⟩
      unfold fftFreq
      rw [if_pos (by omega)]
      simp
    · refine ⟨(j + L).toNat, by omega, ?_⟩
      unfold fftFreq
      rw [if_neg (by omega)]
      have : ((j + L).toNat : ℝ) = j + L := by
        have : (((j + L).toNat : ℤ) : ℝ) = ((j + L : ℤ) : ℝ) := by rw [Int.toNat_of_nonneg (by omega)]
        push_cast at this
        exact this
      rw [this]
      ring_nf

theorem numpyPower_tone (A : ℂ) (f dt : ℝ) (hdt : 0 < dt) (N : ℕ) (hN : 0 < N) (f0 f1 : ℝ) (fs : List ℝ) (hf : f0 < f1) (hr : f1 - f0 < 2 / dt) :
    numpyPower (f0 :: f1 :: fs) (tone A f dt N) dt = some ((f0 :: f1 :: fs).map fun g =>
      interp g (sortedSpectrum dt (piecePower dt (tone A f dt (pieceLength f0 f1 dt N))))) := by
  unfold numpyPower
  rw [fftAverage_tone A f dt hdt N hN f0 f1 fs hf hr]
  rfl

theorem interp_tone_grid (A : ℂ) (f dt : ℝ) (hdt : 0 < dt) (L : ℕ) (g : ℝ) (hg : OnGrid L dt g) :
    interp g (sortedSpectrum dt (piecePower dt (tone A f dt L))) = ‖A‖ ^ 2 * lineShape L dt (f - g) := by
  obtain ⟨k, hk, rfl⟩ := onGrid_fftFreq hg
  have hl : (piecePower dt (tone A f dt L)).length = L := by rw [length_piecePower, tone_length]
  have := C31_grid dt hdt (piecePower dt (tone A f dt L)) k (by rw [hl]; exact hk)
  rw [hl] at this
  rw [this, piecePower_tone A f dt hdt L k hk]

theorem sortedSpectrum_grid (dt : ℝ) (ps : List ℝ) (hps : ps ≠ []) : ∀ p ∈ sortedSpectrum dt ps, OnGrid ps.length dt p.1 := by
  intro p hp
  unfold sortedSpectrum at hp
  obtain ⟨j, hj, rfl⟩ := List.mem_map.1 hp
  rw [List.mem_range] at hj
  refine ⟨(j : ℤ) - (ps.length / 2 : ℕ), by omega, by omega, ?_⟩
  push_cast
  rfl

theorem sortedSpectrum_pairwise (dt : ℝ) (hdt : 0 < dt) (ps : List ℝ) : (sortedSpectrum dt ps).Pairwise fun p q => p.1 < q.1 := by
  unfold sortedSpectrum
  rw [List.pairwise_map]
  rcases Nat.eq_zero_or_pos ps.length with h | h
  · rw [h]; simp
  · have hn : (0 : ℝ) < ps.length * dt := mul_pos (by exact_mod_cast h) hdt
    refine List.pairwise_lt_range.imp ?_
    intro i j hij
    simp only
    have : (i : ℝ) < j := by exact_mod_cast hij
    exact div_lt_div_of_pos_right (by linarith) hn

theorem tone_grid_step {L : ℕ} (hL : 0 < L) {dt : ℝ} (hdt : 0 < dt) {f g : ℝ} (hf : OnGrid L dt f) (hg : OnGrid L dt g) (z : ℤ) (h : (f - g) * dt = z) : f = g := by
  obtain ⟨i, hi1, hi2, rfl⟩ := hf
  obtain ⟨j, hj1, hj2, rfl⟩ := hg
  have hLr : (0 : ℝ) < L := by exact_mod_cast hL
  have h2 : ((i - j : ℤ) : ℝ) = ((L * z : ℤ) : ℝ) := by
    push_cast
    rw [← h]
    field_simp
  have h3 : i - j = L * z := by exact_mod_cast h2
  have h4 : z = 0 := by
    by_contra hz
    rcases lt_or_gt_of_ne hz with hz | hz
    · have : (L : ℤ) * z ≤ L * (-1) := mul_le_mul_of_nonneg_left (by omega) (by omega)
      omega
    · have : (L : ℤ) * 1 ≤ L * z := mul_le_mul_of_nonneg_left (by omega) (by omega)
      omega
  rw [h4, mul_zero, sub_eq_zero] at h3
  rw [h3]

/-- The spectrum of an oscillation is nowhere larger than at its frequency. -/
theorem interp_tone_lt (A : ℂ) (hA : A ≠ 0) (f dt : ℝ) (hdt : 0 < dt) (L : ℕ) (hL : 2 ≤ L) (hf : OnGrid L dt f) (g : ℝ) (hgf : g ≠ f)
    (hg : ∃ a b, OnGrid L dt a ∧ OnGrid L dt b ∧ a ≤ g ∧ g ≤ b) :
    interp g (sortedSpectrum dt (piecePower dt (tone A f dt L))) < ‖A‖ ^ 2 * lineShape L dt 0 := by
  have hl : (piecePower dt (tone A f dt L)).length = L := by rw [length_piecePower, tone_length]
  have hne : piecePower dt (tone A f dt L) ≠ [] := by
    intro h
    rw [h] at hl
    simp at hl
    omega
  have hmem : ∀ a, OnGrid L dt a → ∃ p ∈ sortedSpectrum dt (piecePower dt (tone A f dt L)), p.1 = a := by
    rintro a ⟨j, h1, h2, rfl⟩
    unfold sortedSpectrum
    rw [hl]
    refine ⟨_, List.mem_map.2 ⟨(j + (L / 2 : ℕ)).toNat, List.mem_range.2 (by omega), rfl⟩, ?_⟩
    simp only
    have : ∀ c : ℕ, -(c : ℤ) ≤ j → (((j + (c : ℕ)).toNat : ℕ) : ℝ) = j + c := by
      intro c hc
      have : (((j + (c : ℕ)).toNat : ℤ) : ℝ) = ((j + (c : ℕ) : ℤ) : ℝ) := by rw [Int.toNat_of_nonneg (by omega)]
      push_cast at this
      exact this
    rw [this _ h1]
    ring
  apply interp_lt g f _ hgf _ (sortedSpectrum_pairwise dt hdt _)
  · intro p hp
    have hpg := sortedSpectrum_grid dt _ hne p hp
    rw [hl] at hpg
    have hval : p.2 = ‖A‖ ^ 2 * lineShape L dt (f - p.1) := by
      rw [← interp_tone_grid A f dt hdt L p.1 hpg]
      exact (interp_grid p.1 p.2 _ (sortedSpectrum_pairwise dt hdt _) hp).symm
    have hA2 : 0 < ‖A‖ ^ 2 := by positivity
    refine ⟨?_, ?_⟩
    · rw [hval]
      exact mul_le_mul_of_nonneg_left (lineShape_le L dt hdt _) hA2.le
    · intro h
      rw [hval] at h
      have h2 := mul_left_cancel₀ hA2.ne' h
      by_contra hne'
      refine absurd h2 (ne_of_lt (lineShape_lt L hL dt hdt _ ?_))
      intro z hz
      exact hne' (tone_grid_step (by omega) hdt hf hpg z hz).symm
  · obtain ⟨a, b, ha, hb, h1, h2⟩ := hg
    obtain ⟨p, hp, rfl⟩ := hmem a ha
    exact ⟨p, hp, h1⟩
  · obtain ⟨a, b, ha, hb, h1, h2⟩ := hg
    obtain ⟨p, hp, rfl⟩ := hmem b hb
    exact ⟨p, hp, h2⟩

variable {m : ℕ}

theorem column_tone (vq : List (Fin m → ℂ)) (i : Fin m) (A : ℂ) (f dt : ℝ)
    (h : ∀ (t : ℕ) (row : Fin m → ℂ), vq[t]? = some row → row i = A * exp (2 * Real.pi * I * f * (t * dt))) : column vq i = tone A f dt vq.length := by
  apply List.ext_getElem?
  intro t
  unfold column tone
  rw [List.getElem?_map, List.getElem?_map]
  by_cases ht : t < vq.length
  · rw [List.getElem?_range ht, List.getElem?_eq_getElem ht]
    simp only [Option.map_some, Option.some.injEq]
    exact h t _ (List.getElem?_eq_getElem ht)
  · rw [List.getElem?_eq_none (by omega), List.getElem?_eq_none (by simp; omega)]
    rfl

theorem tone_entry (env : SpecEnv) (alg : ℤ) (ha : 2 ≤ alg ∧ alg ≤ 5) (p : SpecParams) (f0 f1 : ℝ) (fs : List ℝ) (hp : p.freqs = f0 :: f1 :: fs)
    (hf : f0 < f1) (vq : List (Fin m → ℂ)) (dt : ℝ) (hdt : 0 < dt) (w : Bool) (psd : List (List ℝ)) (h : powerSpectra env alg p vq dt = .ok (w, psd))
    (hvq : vq ≠ []) (hr : f1 - f0 < 2 / dt) (i : Fin m) (A : ℂ) (f : ℝ)
    (hi : ∀ (t : ℕ) (row : Fin m → ℂ), vq[t]? = some row → row i = A * exp (2 * Real.pi * I * f * (t * dt)))
    (k : ℕ) (g : ℝ) (hk : p.freqs[k]? = some g) :
    (psd[k]?.bind fun row => row[(i : ℕ)]?) =
      some (interp g (sortedSpectrum dt (piecePower dt (tone A f dt (pieceLength f0 f1 dt vq.length)))) * unitConversion) := by
  obtain ⟨-, r, hr', rfl⟩ := powerSpectra_elim h
  have hkl : k < p.freqs.length := (List.getElem?_eq_some_iff.1 hk).1
  rw [psdRows_get _ _ k hkl]
  have h1 := hr' i
  unfold columnSpec at h1
  rw [if_neg (by omega), if_neg (by omega), hp, column_tone vq i A f dt hi,
    numpyPower_tone A f dt hdt vq.length (List.length_pos_iff.2 hvq) f0 f1 fs hf hr] at h1
  simp only [Except.ok.injEq] at h1
  rw [← h1, List.getD_eq_getElem?_getD, List.getElem?_map, ← hp, hk]
  rfl

/-- C108: the line of an oscillation. With the FFT methods, the spectrum of a column `A exp(2 π i f t)` at a frequency `g` of the Fourier grid is
`|A|^2` times a shape that only depends on `f - g`, the time step and the number of samples per piece. -/
theorem C108_line (env : SpecEnv) (alg : ℤ) (ha : 2 ≤ alg ∧ alg ≤ 5) (p : SpecParams) (f0 f1 : ℝ) (fs : List ℝ) (hp : p.freqs = f0 :: f1 :: fs)
    (hf : f0 < f1) (vq : List (Fin m → ℂ)) (dt : ℝ) (hdt : 0 < dt) (w : Bool) (psd : List (List ℝ)) (h : powerSpectra env alg p vq dt = .ok (w, psd))
    (hvq : vq ≠ []) (hr : f1 - f0 < 2 / dt) (i : Fin m) (A : ℂ) (f : ℝ)
    (hi : ∀ (t : ℕ) (row : Fin m → ℂ), vq[t]? = some row → row i = A * exp (2 * Real.pi * I * f * (t * dt)))
    (k : ℕ) (g : ℝ) (hk : p.freqs[k]? = some g) (hg : OnGrid (pieceLength f0 f1 dt vq.length) dt g) :
    ∃ row x, psd[k]? = some row ∧ row[(i : ℕ)]? = some x ∧ x = ‖A‖ ^ 2 * lineShape (pieceLength f0 f1 dt vq.length) dt (f - g) * 0.00010585723 := by
  have := tone_entry env alg ha p f0 f1 fs hp hf vq dt hdt w psd h hvq hr i A f hi k g hk
  rw [interp_tone_grid A f dt hdt _ g hg, Option.bind_eq_some_iff] at this
  obtain ⟨row, h1, h2⟩ := this
  exact ⟨row, _, h1, h2, rfl⟩

/-- C108: a pure oscillation shows up at its frequency. With the FFT methods, if the frequency of the oscillation is a requested one on the Fourier grid of
the pieces (of `L ≥ 2` samples), its value in the spectrum is `|A|^2 dt (3 L^2 + L mod 2) / (4 L)` in the units of the program, and every other requested
frequency within the grid has a smaller value. The frequency counts with its sign: `exp(-i ω t)` is at `-ω / 2 π`. -/
theorem C108_peak (env : SpecEnv) (alg : ℤ) (ha : 2 ≤ alg ∧ alg ≤ 5) (p : SpecParams) (f0 f1 : ℝ) (fs : List ℝ) (hp : p.freqs = f0 :: f1 :: fs)
    (hf : f0 < f1) (vq : List (Fin m → ℂ)) (dt : ℝ) (hdt : 0 < dt) (w : Bool) (psd : List (List ℝ)) (h : powerSpectra env alg p vq dt = .ok (w, psd))
    (hvq : vq ≠ []) (hr : f1 - f0 < 2 / dt) (i : Fin m) (A : ℂ) (hA : A ≠ 0) (f : ℝ)
    (hi : ∀ (t : ℕ) (row : Fin m → ℂ), vq[t]? = some row → row i = A * exp (2 * Real.pi * I * f * (t * dt)))
    (L : ℕ) (hL : L = pieceLength f0 f1 dt vq.length) (hL2 : 2 ≤ L) (hfg : OnGrid L dt f) (k : ℕ) (hk : p.freqs[k]? = some f) :
    ∃ row x, psd[k]? = some row ∧ row[(i : ℕ)]? = some x ∧ x = ‖A‖ ^ 2 * (dt * (3 * L ^ 2 + (L % 2 : ℕ)) / (4 * L)) * 0.00010585723 ∧
      ∀ (k' : ℕ) (g : ℝ), p.freqs[k']? = some g → g ≠ f → (∃ a b, OnGrid L dt a ∧ OnGrid L dt b ∧ a ≤ g ∧ g ≤ b) →
        ∃ row' x', psd[k']? = some row' ∧ row'[(i : ℕ)]? = some x' ∧ x' < x := by
  subst hL
  obtain ⟨row, x, h1, h2, h3⟩ := C108_line env alg ha p f0 f1 fs hp hf vq dt hdt w psd h hvq hr i A f hi k f hk hfg
  rw [sub_self] at h3
  refine ⟨row, x, h1, h2, by rw [h3, lineShape_zero _ (by omega) dt hdt], ?_⟩
  intro k' g hk' hgf hg
  have := tone_entry env alg ha p f0 f1 fs hp hf vq dt hdt w psd h hvq hr i A f hi k' g hk'
  rw [Option.bind_eq_some_iff] at this
  obtain ⟨row', h1', h2'⟩ := this
  refine ⟨row', _, h1', h2', ?_⟩
  rw [h3]
  apply mul_lt_mul_of_pos_right _ (by norm_num [unitConversion])
  exact interp_tone_lt A hA f dt hdt _ hL2 hfg g hgf hg

/-- C108: with the FFT methods a column of zeros has the spectrum 0. -/
theorem C108_absent (env : SpecEnv) (alg : ℤ) (ha : 2 ≤ alg ∧ alg ≤ 5) (p : SpecParams) (vq : List (Fin m → ℂ)) (dt : ℝ) (w : Bool) (psd : List (List ℝ))
    (h : powerSpectra env alg p vq dt = .ok (w, psd)) (i : Fin m) (hi : ∀ row ∈ vq, row i = 0) (k : ℕ) (g : ℝ) (hk : p.freqs[k]? = some g) :
    ∃ row, psd[k]? = some row ∧ row[(i : ℕ)]? = some 0 := by
  obtain ⟨-, r, hr', rfl⟩ := powerSpectra_elim h
  have hkl : k < p.freqs.length := (List.getElem?_eq_some_iff.1 hk).1
  have h0 := psdRows_get p.freqs.length r k hkl i
  rw [Option.bind_eq_some_iff] at h0
  obtain ⟨row, h1, h2⟩ := h0
  refine ⟨row, h1, ?_⟩
  rw [h2]
  have h3 := hr' i
  unfold columnSpec at h3
  rw [if_neg (by omega), if_neg (by omega)] at h3
  have hcol : column vq i = (column vq i).map ((0 : ℂ) * ·) := by
    unfold column
    rw [List.map_map]
    apply List.map_congr_left
    intro row hrow
    simp [hi row hrow]
  rw [hcol, C31_scale] at h3
  cases hn : numpyPower p.freqs (column vq i) dt with
  | none => rw [hn] at h3; simp at h3
  | some l =>
    rw [hn] at h3
    simp only [Option.map_some, Except.ok.injEq] at h3
    rw [← h3, List.getD_eq_getElem?_getD, List.getElem?_map]
    cases l[k]? <;> simp

/-! ### What the other methods do -/

/-- C108 fails for the direct Fourier method (algorithm 0): the spectrum of a motion with constant velocity, which has the frequency 0, grows with the
frequency, for every number of steps from 3 on. -/
theorem C108_fourier_violated (N : ℕ) (hN : 3 ≤ N) (dt : ℝ) (hdt : 0 < dt) (f0 f1 : ℝ) (hf : f0 < f1) (env : SpecEnv) (hfuel : N < env.fuel)
    (coefs padding : ℕ) :
    ∃ w psd x0 x1, powerSpectra env 0 ⟨[f0, f1], 1, 1, coefs, padding⟩ (List.replicate N fun _ : Fin 1 => (1 : ℂ)) dt = .ok (w, psd) ∧
      (psd[0]?.bind fun row => row[0]?) = some x0 ∧ (psd[1]?.bind fun row => row[0]?) = some x1 ∧ x0 < x1 := by
  have hlen : (List.replicate N (1 : ℂ)).length = N := by simp
  obtain ⟨r, h1, h2, h3⟩ := C28_returns env.fuel [f0, f1] (List.replicate N (1 : ℂ)) dt 1 one_pos (by rw [hlen]; exact hfuel) 1 (Or.inr rfl)
  obtain ⟨y0, hy0, hv0⟩ := h3 0 f0 rfl
  obtain ⟨y1, hy1, hv1⟩ := h3 1 f1 rfl
  have hcol : ∀ i : Fin 1, column (List.replicate N fun _ : Fin 1 => (1 : ℂ)) i = List.replicate N (1 : ℂ) := by
    intro i
    simp [column]
  have hs := powerSpectra_intro (env := env) (alg := 0) (p := ⟨[f0, f1], 1, 1, coefs, padding⟩) (vq := List.replicate N fun _ : Fin 1 => (1 : ℂ)) (dt := dt)
    (w := false) (by simp [specCheck]) (fun _ => r) (by
      intro i
      unfold columnSpec
      rw [if_pos rfl, hcol, h1]
      rfl)
  refine ⟨_, _, _, _, hs, psdRows_get _ _ 0 (by simp) 0, psdRows_get _ _ 1 (by simp) 0, ?_⟩
  rw [List.getD_eq_getElem?_getD, List.getD_eq_getElem?_getD, hy0, hy1]
  simp only [Option.getD_some]
  apply mul_lt_mul_of_pos_right _ (by norm_num [unitConversion])
  rw [hv0 rfl, hv1 rfl, hlen, Nat.div_one]
  have hNr : (0 : ℝ) < N := by exact_mod_cast (by omega : 0 < N)
  apply mul_lt_mul_of_pos_left _ (by positivity)
  have hcos : 0 < Real.cos 1 := Real.cos_pos_of_mem_Ioo ⟨by linarith [Real.pi_gt_three], by linarith [Real.pi_gt_three]⟩
  have hval : ∀ g : ℝ, (lagSum N 1 fun i j => 2 * (starRingEnd ℂ ((List.replicate N (1 : ℂ)).getD j 0) * (List.replicate N (1 : ℂ)).getD (j + i) 0 *
      exp ((2 * Real.pi * g * (i * dt) : ℝ) + I))).re = ∑ l ∈ (Finset.range N).filter (fun l => l * 1 < N), ∑ j ∈ Finset.range (N - l * 1 - 1),
        2 * Real.cos 1 * Real.exp (2 * Real.pi * g * ((l : ℝ) * dt)) := by
    intro g
    unfold lagSum
    rw [re_sum]
    apply Finset.sum_congr rfl
    intro l _
    rw [re_sum]
    apply Finset.sum_congr rfl
    intro j hj
    rw [Finset.mem_range] at hj
    beta_reduce
    rw [List.getD_eq_getElem?_getD, List.getD_eq_getElem?_getD, List.getElem?_replicate, List.getElem?_replicate, if_pos (by omega), if_pos (by omega)]
    simp only [Option.getD_some, map_one, one_mul, mul_one]
    rw [show (2 : ℂ) = ((2 : ℝ) : ℂ) by norm_num, re_ofReal_mul, exp_re]
    simp only [add_re, ofReal_re, I_re, add_zero, add_im, ofReal_im, I_im, zero_add]
    ring
  rw [hval, hval]
  have hpi := Real.pi_pos
  apply Finset.sum_lt_sum
  · intro l _
    apply Finset.sum_le_sum
    intro j _
    apply mul_le_mul_of_nonneg_left _ (by positivity)
    apply Real.exp_le_exp.2
    apply mul_le_mul_of_nonneg_right _ (by positivity)
    nlinarith
  · refine ⟨1, by simp; omega, ?_⟩
    apply Finset.sum_lt_sum_of_nonempty
    · rw [Finset.nonempty_range_iff]; omega
    · intro j _
      apply mul_lt_mul_of_pos_left _ (by positivity)
      apply Real.exp_lt_exp.2
      rw [Nat.cast_one, one_mul]
      apply mul_lt_mul_of_pos_right _ hdt
      nlinarith

/-- C108, the sign of the frequency with the maximum entropy method: the spectrum at `-g` is the one at `g`, for every velocity. An oscillation
`exp(2 π i f t)` therefore shows up at `-f` as well. -/
theorem C108_mem_even (slack : ℕ) (hs : 1 ≤ slack) (junk : ℕ → ℕ → ℕ → ℝ) (freqs : List ℝ) (v : List ℂ) (hv : 2 ≤ v.length) (dt : ℝ) (M : ℕ) :
    mem slack junk (freqs.map (- ·)) v dt M = mem slack junk freqs v dt M := by
  have hpart : ∀ (d : ℕ → ℝ) (δ : ℝ), memPart d v.length M (-δ) = memPart d v.length M δ := by
    intro d δ
    unfold memPart
    congr 3
    have h1 : exp (((-δ : ℝ) : ℂ) * I) = starRingEnd ℂ (exp ((δ : ℂ) * I)) := by
      rw [← exp_conj]
      congr 1
      simp
    rw [h1]
    have h2 : ∀ z : ℂ, predPoly (burg d v.length M).a M (starRingEnd ℂ z) = starRingEnd ℂ (predPoly (burg d v.length M).a M z) := by
      intro z
      simp [predPoly, map_sub, map_sum, map_mul, map_pow]
    rw [h2, norm_conj]
  rw [mem_value slack hs junk _ v hv, mem_value slack hs junk _ v hv, List.map_map]
  congr 1
  apply List.map_congr_left
  intro g _
  simp only [Function.comp_apply]
  rw [show -g * 2 * Real.pi * dt = -(g * 2 * Real.pi * dt) by ring, hpart, hpart]

/-- A case of `C108_peak`: 4 samples of `exp(2 π i t / 4)`, `dt = 1`, frequencies 0, 1/4, 1/2: the piece has all 4 samples, `1/4` is on the grid, and the
height is `3 * 16 / 16 = 3` times the unit. -/
example (env : SpecEnv) : ∃ (p : SpecParams) (vq : List (Fin 1 → ℂ)), vq ≠ [] ∧ p.freqs = [0, 1 / 4, 1 / 2] ∧ pieceLength 0 (1 / 4) 1 vq.length = 4 ∧
    OnGrid 4 1 (1 / 4 : ℝ) ∧ (∃ a b : ℝ, OnGrid 4 1 a ∧ OnGrid 4 1 b ∧ a ≤ 0 ∧ 0 ≤ b) ∧
    (∀ (t : ℕ) (row : Fin 1 → ℂ), vq[t]? = some row → row 0 = 2 * exp (2 * Real.pi * I * (1 / 4 : ℝ) * (t * (1 : ℝ)))) ∧
    ∃ w psd, powerSpectra env 2 p vq 1 = .ok (w, psd) := by
  refine ⟨⟨[0, 1 / 4, 1 / 2], 1, 1, 1, 0⟩, (List.range 4).map fun (t : ℕ) _ => 2 * exp (2 * Real.pi * I * (1 / 4 : ℝ) * (t * (1 : ℝ))), by simp, rfl, ?_,
    ⟨1, by norm_num, by norm_num, by norm_num⟩, ⟨0, 1 / 4, ⟨0, by norm_num, by norm_num, by norm_num⟩, ⟨1, by norm_num, by norm_num, by norm_num⟩, le_rfl, by norm_num⟩, ?_, ?_⟩
  · unfold pieceLength
    have : roundEven (1 / ((1 : ℝ) * (1 / 4 - 0))) = 4 := by
      rw [show (1 / ((1 : ℝ) * (1 / 4 - 0))) = ((4 : ℤ) : ℝ) by norm_num]
      exact roundEven_intCast 4
    rw [this]
    simp
  · intro t row ht
    rw [List.getElem?_map] at ht
    cases h : (List.range 4)[t]? with
    | none => rw [h] at ht; simp at ht
    | some t' =>
      obtain ⟨h1, h2⟩ := List.getElem?_eq_some_iff.1 h
      rw [List.getElem_range] at h2
      rw [h] at ht
      simp only [Option.map_some, Option.some.injEq] at ht
      rw [← ht, h2]
  · obtain ⟨psd, w, h, -⟩ := C105_fft_returns env 2 ⟨le_rfl, by norm_num⟩ ⟨[0, 1 / 4, 1 / 2], 1, 1, 1, 0⟩ 0 (1 / 4) [1 / 2] rfl (by norm_num)
      ((List.range 4).map fun (t : ℕ) (_ : Fin 1) => 2 * exp (2 * Real.pi * I * (1 / 4 : ℝ) * (t * (1 : ℝ)))) (by simp) 1 one_pos (by norm_num)
    exact ⟨w, psd, h⟩

section modes
variable {d e f : ℕ} {Q : Type*} [Fintype Q] [DecidableEq Q]
variable {positions : List (Fin d → ℝ)} {types : List ℕ} {cell P : Matrix (Fin d) (Fin d) ℝ} {n : Fin d → ℕ} {T : ℕ} {qred : Q → Fin d → ℝ}
  {ev : Q → Fin f → Fin T → Fin e → ℂ}

/-- C108, from the trajectory to the spectrum: in a crystal whose atoms move in a superposition of normal modes, mode `(q, s)` with the amplitude `A q s` and the
frequency `F q s`, the spectrum of each mode has its maximum at the frequency of that mode, whatever the other modes do. `get_vq` projects every time step. -/
theorem C108_normal_modes (hs : Setting positions types cell P n T qred ev) (A : Q → Fin f → ℂ) (F : Q → Fin f → ℝ) (N : ℕ) (hN : 0 < N)
    (env : SpecEnv) (alg : ℤ) (ha : 2 ≤ alg ∧ alg ≤ 5) (p : SpecParams) (f0 f1 : ℝ) (fs : List ℝ) (hp : p.freqs = f0 :: f1 :: fs)
    (hf : f0 < f1) (dt : ℝ) (hdt : 0 < dt) (hr : f1 - f0 < 2 / dt) (q : Q) (w : Bool) (psd : List (List ℝ))
    (h : powerSpectra env alg p ((List.range N).map fun (t : ℕ) => vqAt positions types cell P n T (qred q) (ev q)
      (modeVelocity positions types cell P n T qred ev fun q' s => A q' s * exp (2 * Real.pi * I * F q' s * (t * dt)))) dt = .ok (w, psd))
    (s : Fin f) (hA : A q s ≠ 0) (L : ℕ) (hL : L = pieceLength f0 f1 dt N) (hL2 : 2 ≤ L) (hfg : OnGrid L dt (F q s)) (k : ℕ) (hk : p.freqs[k]? = some (F q s)) :
    ∃ row x, psd[k]? = some row ∧ row[(s : ℕ)]? = some x ∧ x = ‖A q s‖ ^ 2 * (dt * (3 * L ^ 2 + (L % 2 : ℕ)) / (4 * L)) * 0.00010585723 ∧
      ∀ (k' : ℕ) (g : ℝ), p.freqs[k']? = some g → g ≠ F q s → (∃ a b, OnGrid L dt a ∧ OnGrid L dt b ∧ a ≤ g ∧ g ≤ b) →
        ∃ row' x', psd[k']? = some row' ∧ row'[(s : ℕ)]? = some x' ∧ x' < x := by
  have hrow : ∀ t : ℕ, vqAt positions types cell P n T (qred q) (ev q)
      (modeVelocity positions types cell P n T qred ev fun q' s => A q' s * exp (2 * Real.pi * I * F q' s * (t * dt))) =
      fun s => A q s * exp (2 * Real.pi * I * F q s * (t * dt)) := fun t => funext fun s => C103_amplitudes hs _ q s
  simp only [hrow] at h
  have hlen : ((List.range N).map fun (t : ℕ) => fun s => A q s * exp (2 * Real.pi * I * F q s * (t * dt))).length = N := by simp
  apply C108_peak env alg ha p f0 f1 fs hp hf _ dt hdt w psd h (by
    intro h0
    rw [h0] at hlen
    simp at hlen
    omega) hr s (A q s) hA (F q s) _ L (by rw [hlen]; exact hL) hL2 hfg k hk
  intro t row ht
  rw [List.getElem?_map] at ht
  by_cases htN : t < N
  · rw [List.getElem?_range htN] at ht
    simp only [Option.map_some, Option.some.injEq] at ht
    rw [← ht]
  · rw [List.getElem?_eq_none (by simp; omega)] at ht
    simp at ht

/-- C108: and a mode without amplitude has no spectrum, whatever the other modes do. -/
theorem C108_other_modes (hs : Setting positions types cell P n T qred ev) (a : ℕ → Q → Fin f → ℂ) (N : ℕ)
    (env : SpecEnv) (alg : ℤ) (ha : 2 ≤ alg ∧ alg ≤ 5) (p : SpecParams) (dt : ℝ) (q : Q) (w : Bool) (psd : List (List ℝ))
    (h : powerSpectra env alg p ((List.range N).map fun (t : ℕ) => vqAt positions types cell P n T (qred q) (ev q)
      (modeVelocity positions types cell P n T qred ev (a t))) dt = .ok (w, psd))
    (s : Fin f) (h0 : ∀ t, t < N → a t q s = 0) (k : ℕ) (g : ℝ) (hk : p.freqs[k]? = some g) : ∃ row, psd[k]? = some row ∧ row[(s : ℕ)]? = some 0 := by
  apply C108_absent env alg ha p _ dt w psd h s _ k g hk
  intro row hrow
  obtain ⟨t, ht, rfl⟩ := List.mem_map.1 hrow
  rw [C103_amplitudes hs]
  exact h0 t (List.mem_range.1 ht)

end modes

end Verif
