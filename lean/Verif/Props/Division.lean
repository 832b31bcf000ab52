import Verif.Model.Division
import Verif.Util
import Mathlib.Data.Rat.Floor

/-! # C27 -/

set_option autoImplicit false

namespace Verif

variable {K : Type*} [Field K] [LinearOrder K] [IsStrictOrderedRing K] [FloorRing K]

/-- Specification of a division of `N` samples into windows `[ini, fin)`. -/
structure IsDivision (N : ℕ) (pieces : List (ℤ × ℤ)) : Prop where
  nonempty : pieces ≠ []
  sameLength : ∃ L : ℤ, 0 ≤ L ∧ (0 < N → 0 < L) ∧ ∀ p ∈ pieces, p.2 - p.1 = L
  inside : ∀ p ∈ pieces, 0 ≤ p.1 ∧ p.2 ≤ N
  starts : ∃ p, pieces.head? = some p ∧ p.1 = 0
  ends : ∃ p, pieces.getLast? = some p ∧ p.2 = N
  covers : ∀ s : ℕ, s < N → ∃ p ∈ pieces, p.1 ≤ s ∧ (s : ℤ) < p.2

omit [IsStrictOrderedRing K] in
theorem pyInt_of_nonneg {x : K} (h : 0 ≤ x) : pyInt x = ⌊x⌋ := if_pos h

/-- Windows of size `P` starting at `⌊i*t⌋`, `0 ≤ t ≤ P`, `n*t = N - P`, form a division. -/
theorem isDivision_of_plan (N n : ℕ) (P : ℤ) (t : K) (hP : 0 ≤ P) (hN : 0 < N → 0 < P) (ht0 : 0 ≤ t) (htP : t ≤ P)
    (hn : n * t = N - P) :
    IsDivision N ((List.range (n + 1)).map fun (i : ℕ) =>
      (pyInt (((P : K) / 2 + i * t) - (P : K) / 2), pyInt (((P : K) / 2 + i * t) + (P : K) / 2))) := by
  have hPK : (0 : K) ≤ P := by exact_mod_cast hP
  have hit : ∀ i : ℕ, (0 : K) ≤ i * t := fun i => mul_nonneg (Nat.cast_nonneg i) ht0
  have h1 : ∀ i : ℕ, pyInt (((P : K) / 2 + i * t) - (P : K) / 2) = ⌊(i : K) * t⌋ := fun i => by
    rw [show ((P : K) / 2 + i * t) - (P : K) / 2 = i * t by ring, pyInt_of_nonneg (hit i)]
  have h2 : ∀ i : ℕ, pyInt (((P : K) / 2 + i * t) + (P : K) / 2) = ⌊(i : K) * t⌋ + P := fun i => by
    rw [show ((P : K) / 2 + i * t) + (P : K) / 2 = i * t + P by ring, pyInt_of_nonneg (add_nonneg (hit i) hPK),
      Int.floor_add_intCast]
  simp only [h1, h2]
  have hlast : ⌊(n : K) * t⌋ = N - P := by
    rw [hn, show ((N : K) - P) = (((N : ℤ) - P : ℤ) : K) by push_cast; ring, Int.floor_intCast]
  refine ⟨by simp, ⟨P, hP, hN, ?_⟩, ?_, ?_, ?_, ?_⟩
  · intro p hp
    obtain ⟨i, -, rfl⟩ := List.mem_map.1 hp
    simp
  · intro p hp
    obtain ⟨i, hi, rfl⟩ := List.mem_map.1 hp
    rw [List.mem_range] at hi
    refine ⟨Int.floor_nonneg.2 (hit i), ?_⟩
    have : ⌊(i : K) * t⌋ ≤ ⌊(n : K) * t⌋ := Int.floor_le_floor
      (mul_le_mul_of_nonneg_right (by exact_mod_cast Nat.lt_succ_iff.1 hi) ht0)
    simp only; omega
  · refine ⟨(0, P), ?_, rfl⟩
    rw [List.range_succ_eq_map]; simp
  · refine ⟨(N - P, N), ?_, rfl⟩
    rw [List.range_succ, List.map_append, List.map_singleton, List.getLast?_append, hlast]; simp
  · intro s hs
    -- the last window that starts at or before s
    have key : ∀ m : ℕ, m ≤ n → (s : ℤ) < ⌊(m : K) * t⌋ + P →
        ∃ i ≤ m, ⌊(i : K) * t⌋ ≤ s ∧ (s : ℤ) < ⌊(i : K) * t⌋ + P := by
      intro m
      induction m with
      | zero => intro _ h; exact ⟨0, le_rfl, by simp, h⟩
      | succ m ih =>
        intro hm h
        by_cases hle : ⌊((m + 1 : ℕ) : K) * t⌋ ≤ s
        · exact ⟨m + 1, le_rfl, hle, h⟩
        · have : ⌊((m + 1 : ℕ) : K) * t⌋ ≤ ⌊(m : K) * t⌋ + P := by
            rw [← Int.floor_add_intCast]
            apply Int.floor_le_floor
            push_cast
            linarith [add_mul (m : K) 1 t, one_mul t]
          obtain ⟨i, hi, h3, h4⟩ := ih (by omega) (by omega)
          exact ⟨i, by omega, h3, h4⟩
    obtain ⟨i, hi, h3, h4⟩ := key n le_rfl (by rw [hlast]; omega)
    exact ⟨_, List.mem_map.2 ⟨i, List.mem_range.2 (by omega), rfl⟩, h3, h4⟩

theorem roundEven_nonneg {x : K} (h : 0 ≤ x) : 0 ≤ roundEven x := by
  have h1 := roundEven_abs_sub x
  rw [abs_le] at h1
  by_contra hneg
  have : (roundEven x : K) ≤ -1 := by
    have : roundEven x ≤ -1 := by omega
    exact_mod_cast this
  linarith

/-- C27: for every positive resolution and time step and every number of data (empty data included), whenever
`_division_of_data` returns, the windows all have the same length, stay inside the data, start at 0, end at the number of
data and leave no sample out. -/
theorem C27_division (resolution timeStep : K) (hr : 0 < resolution) (ht : 0 < timeStep) (N : ℕ)
    (pieces : List (ℤ × ℤ)) (h : divisionOfData resolution N timeStep = some pieces) : IsDivision N pieces := by
  have hpos : 0 < timeStep * resolution := mul_pos ht hr
  unfold divisionOfData divisionPlan at h
  rw [if_neg hpos.ne'] at h
  simp only at h
  have hP0 : 0 ≤ roundEven (1 / (timeStep * resolution)) := roundEven_nonneg (by positivity)
  generalize roundEven (1 / (timeStep * resolution)) = P at h hP0
  split_ifs at h with hP hn
  · simp at h
  · rw [Option.map_some, Option.some.injEq] at h
    subst h
    simp only
    have hPpos : (0 : K) < P := by
      have : 0 < P := lt_of_le_of_ne hP0 (Ne.symm hP)
      exact_mod_cast this
    have hq : 0 ≤ ((N : K) - 1) / (P : K) := by
      by_contra hneg
      unfold pyInt at hn
      rw [if_neg hneg] at hn
      have : 0 ≤ ⌊-(((N : K) - 1) / (P : K))⌋ := Int.floor_nonneg.2 (by linarith)
      omega
    rw [pyInt_of_nonneg hq] at hn ⊢
    obtain ⟨m, hm⟩ : ∃ m : ℕ, ⌊((N : K) - 1) / (P : K)⌋ = m := ⟨_, (Int.toNat_of_nonneg hn.le).symm⟩
    have h3 := Int.floor_le (((N : K) - 1) / (P : K))
    have h4 := Int.lt_floor_add_one (((N : K) - 1) / (P : K))
    rw [hm] at h3 h4 hn ⊢
    have hm1 : (1 : K) ≤ m := by exact_mod_cast (by omega : 1 ≤ m)
    have hmpos : (0 : K) < m := by linarith
    simp only [Int.cast_natCast, Int.toNat_natCast] at h3 h4 ⊢
    rw [le_div_iff₀ hPpos] at h3
    rw [div_lt_iff₀ hPpos] at h4
    have h5 : (N : ℤ) ≤ (m + 1) * P := by
      have : ((N : ℤ) - 1 : ℤ) < (m + 1) * P := by exact_mod_cast h4
      omega
    have h6 : (N : K) ≤ (m + 1) * P := by exact_mod_cast h5
    apply isDivision_of_plan N m P _ hP0 (fun _ => lt_of_le_of_ne hP0 (Ne.symm hP))
    · apply div_nonneg _ hmpos.le
      nlinarith
    · rw [div_le_iff₀ hmpos]; linarith
    · field_simp
  · rw [Option.map_some, Option.some.injEq] at h
    subst h
    simp only
    apply isDivision_of_plan N 1 (N : ℤ) (0 : K) (by omega) (by omega) le_rfl (by simp)
    simp

/-- C27: it returns exactly when the piece size `round(1/(time_step*resolution))` is not 0 (otherwise it raises
ZeroDivisionError). -/
theorem C27_returns (resolution timeStep : K) (hr : 0 < resolution) (ht : 0 < timeStep) (N : ℕ) :
    (divisionOfData resolution N timeStep).isSome ↔ 1 / 2 < 1 / (timeStep * resolution) := by
  have hpos : 0 < timeStep * resolution := mul_pos ht hr
  unfold divisionOfData divisionPlan
  rw [if_neg hpos.ne', Option.isSome_map]
  simp only
  have key : roundEven (1 / (timeStep * resolution)) = 0 ↔ ¬ 1 / 2 < 1 / (timeStep * resolution) := by
    have hx : 0 ≤ 1 / (timeStep * resolution) := by positivity
    generalize 1 / (timeStep * resolution) = x at hx
    constructor
    · intro h hlt
      have := roundEven_abs_sub x
      rw [h, abs_le] at this
      simp at this
      have h7 := this.2
      norm_num at hlt h7
      linarith
    · intro h
      rw [not_lt] at h
      have hf : ⌊x⌋ = 0 := by rw [Int.floor_eq_iff]; constructor <;> norm_num <;> linarith
      unfold roundEven
      simp only [hf, Int.cast_zero, sub_zero]
      rw [if_neg (not_lt.2 h)]
      split_ifs <;> simp_all
  by_cases h : 1 / 2 < 1 / (timeStep * resolution)
  · have : ¬ roundEven (1 / (timeStep * resolution)) = 0 := fun h' => key.1 h' h
    rw [if_neg this]
    simp only [h, iff_true]
    split_ifs <;> rfl
  · rw [if_pos (key.2 h)]; simpa using h

/-- 10 samples, pieces of 4: three overlapping windows. -/
example : divisionOfData (1 / 4 : ℚ) 10 1 = some [(0, 4), (3, 7), (6, 10)] := by decide +kernel

end Verif
