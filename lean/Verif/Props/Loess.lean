import Verif.Props.Fitdata
import Mathlib.Algebra.Order.BigOperators.Group.List
import Mathlib.Tactic.Positivity
import Mathlib.Tactic.LinearCombination

/-! # C84: when the smoothing is defined -/

set_option autoImplicit false
set_option linter.unusedSectionVars false

namespace Verif

section
variable {K : Type*} [Field K] [LinearOrder K] [IsStrictOrderedRing K] [FloorRing K]

/-- An entry of a sorted list is beyond `v` iff at most `r` entries are not. -/
theorem sorted_getElem_lt (l : List K) (hl : l.Pairwise (· ≤ ·)) (v : K) (r : ℕ) (hr : r < l.length) : v < l[r] ↔ l.countP (fun x => decide (x ≤ v)) ≤ r := by
  induction l generalizing r with
  | nil => simp at hr
  | cons a l ih =>
    rw [List.pairwise_cons] at hl
    cases r with
    | zero =>
      simp only [List.getElem_cons_zero, Nat.le_zero, List.countP_eq_zero, List.mem_cons, decide_eq_true_eq, not_le]
      constructor
      · rintro h x (rfl | hx)
        · exact h
        · exact h.trans_le (hl.1 x hx)
      · exact fun h => h a (Or.inl rfl)
    | succ r =>
      rw [List.length_cons] at hr
      rw [List.getElem_cons_succ, ih hl.2 r (by omega), List.countP_cons]
      by_cases ha : a ≤ v
      · simp [ha]
      · have h0 : l.countP (fun x => decide (x ≤ v)) = 0 := by
          rw [List.countP_eq_zero]
          intro x hx
          have := hl.1 x hx
          simp only [decide_eq_true_eq, not_le]
          exact (not_le.1 ha).trans_le this
        simp [ha, h0]

theorem loessA_det (pts : List (K × K × K)) (c : K) :
    (loessA pts).det = (pts.map fun p => p.1).sum * (pts.map fun p => p.1 * (p.2.1 - c) ^ 2).sum - (pts.map fun p => p.1 * (p.2.1 - c)).sum ^ 2 := by
  have h1 : (pts.map fun p => p.1 * (p.2.1 - c)).sum = (pts.map fun p => p.1 * p.2.1).sum - c * (pts.map fun p => p.1).sum := by
    induction pts with
    | nil => simp
    | cons p pts ih => simp only [List.map_cons, List.sum_cons, ih]; ring
  have h2 : (pts.map fun p => p.1 * (p.2.1 - c) ^ 2).sum = (pts.map fun p => p.1 * p.2.1 * p.2.1).sum - 2 * c * (pts.map fun p => p.1 * p.2.1).sum + c ^ 2 * (pts.map fun p => p.1).sum := by
    clear h1
    induction pts with
    | nil => simp
    | cons p pts ih => simp only [List.map_cons, List.sum_cons, ih]; ring
  rw [h1, h2, loessA, Matrix.det_fin_two]
  simp
  ring

theorem loessA_det_zero (pts : List (K × K × K)) (c : K) (h : ∀ p ∈ pts, p.2.1 ≠ c → p.1 = 0) : (loessA pts).det = 0 := by
  have h0 : ∀ g : K × K × K → K, (∀ p, p.2.1 = c → g p = 0) → (∀ p, p.1 = 0 → g p = 0) → (pts.map g).sum = 0 := by
    intro g g1 g2
    refine List.sum_eq_zero ?_
    intro x hx
    obtain ⟨p, hp, rfl⟩ := List.mem_map.1 hx
    by_cases hc : p.2.1 = c
    · exact g1 p hc
    · exact g2 p (h p hp hc)
  rw [loessA_det pts c, h0 (fun p => p.1 * (p.2.1 - c) ^ 2) (fun p hp => by simp [hp]) (fun p hp => by simp [hp]), h0 (fun p => p.1 * (p.2.1 - c)) (fun p hp => by simp [hp]) (fun p hp => by simp [hp])]
  ring

theorem loessA_det_pos (pts : List (K × K × K)) (hw : ∀ p ∈ pts, 0 ≤ p.1) (p q : K × K × K) (hp : p ∈ pts) (hq : q ∈ pts) (hp0 : 0 < p.1) (hq0 : 0 < q.1) (hne : p.2.1 ≠ q.2.1) :
    (loessA pts).det ≠ 0 := by
  have hW : 0 < (pts.map fun p => p.1).sum := lt_of_lt_of_le hp0 (List.single_le_sum (by
    intro x hx
    obtain ⟨r, hr, rfl⟩ := List.mem_map.1 hx
    exact hw r hr) _ (List.mem_map.2 ⟨p, hp, rfl⟩))
  set W := (pts.map fun p => p.1).sum with hWdef
  set c := (pts.map fun p => p.1 * p.2.1).sum / W with hc
  have h1 : (pts.map fun p => p.1 * (p.2.1 - c)).sum = 0 := by
    have : (pts.map fun p => p.1 * (p.2.1 - c)).sum = (pts.map fun p => p.1 * p.2.1).sum - c * W := by
      rw [hWdef]
      clear_value c
      clear hc
      clear hWdef hW hw hp hq
      clear_value W
      induction pts with
      | nil => simp
      | cons p pts ih => simp only [List.map_cons, List.sum_cons, ih]; ring
    rw [this, hc, div_mul_cancel₀ _ hW.ne', sub_self]
  rw [loessA_det pts c, h1, ← hWdef]
  have hpos : 0 < (pts.map fun p => p.1 * (p.2.1 - c) ^ 2).sum := by
    obtain ⟨r, hr, hr0, hrc⟩ : ∃ r ∈ pts, 0 < r.1 ∧ r.2.1 ≠ c := by
      by_cases e : p.2.1 = c
      · exact ⟨q, hq, hq0, fun e' => hne (e.trans e'.symm)⟩
      · exact ⟨p, hp, hp0, e⟩
    have hterm : 0 < r.1 * (r.2.1 - c) ^ 2 := mul_pos hr0 (by have := sub_ne_zero.2 hrc; positivity)
    refine lt_of_lt_of_le hterm (List.single_le_sum ?_ _ (List.mem_map.2 ⟨r, hr, rfl⟩))
    intro x hx
    obtain ⟨s, hs, rfl⟩ := List.mem_map.1 hx
    exact mul_nonneg (hw s hs) (sq_nonneg _)
  have := mul_pos hW hpos
  rw [zero_pow two_ne_zero, sub_zero]
  exact this.ne'

theorem loessWeight_nonneg (x : List K) (h xi xj : K) : 0 ≤ loessWeight x h xi xj := by
  unfold loessWeight
  have h1 : max 0 (min 1 |(xj - xi) / h|) ≤ 1 := max_le zero_le_one (min_le_left _ _)
  have h0 : 0 ≤ max 0 (min 1 |(xj - xi) / h|) := le_max_left _ _
  exact pow_nonneg (sub_nonneg.2 (pow_le_one₀ h0 h1)) _

theorem loessWeight_pos (x : List K) (h xi xj : K) (hh : 0 < h) : 0 < loessWeight x h xi xj ↔ |xj - xi| < h := by
  unfold loessWeight
  have h0 : 0 ≤ |(xj - xi) / h| := abs_nonneg _
  have e : |(xj - xi) / h| < 1 ↔ |xj - xi| < h := by rw [abs_div, abs_of_pos hh, div_lt_one hh]
  constructor
  · intro hp
    by_contra hn
    rw [← e, not_lt] at hn
    rw [min_eq_left hn, max_eq_right zero_le_one] at hp
    norm_num at hp
  · intro hlt
    rw [← e] at hlt
    rw [min_eq_right hlt.le, max_eq_right h0]
    exact pow_pos (sub_pos.2 (pow_lt_one₀ h0 hlt three_ne_zero)) _

/-- **C84**: the smoothed value at a point is defined exactly if another point is strictly inside the window. -/
theorem C84_defined (pts : List (K × K)) (f xi h : K) (hxi : xi ∈ pts.map Prod.fst) (hh : loessH (pts.map Prod.fst) f xi = some h) :
    (loessAt (pts.map Prod.fst) (pts.map Prod.snd) f xi).isSome ↔ ∃ xj ∈ pts.map Prod.fst, xj ≠ xi ∧ |xj - xi| < h := by
  have hzip : (pts.map Prod.fst).zip (pts.map Prod.snd) = pts := by rw [List.zip_map']; simp
  have hh0 : 0 ≤ h := by
    have := List.mem_of_getElem? hh
    rw [List.mem_insertionSort] at this
    obtain ⟨x, -, rfl⟩ := List.mem_map.1 this
    exact abs_nonneg _
  unfold loessAt
  rw [hh, Option.bind_some, hzip]
  simp only
  set L := pts.map fun p => (loessWeight (pts.map Prod.fst) h xi p.1, p.1, p.2) with hL
  rcases hh0.eq_or_lt with rfl | hpos
  · rw [if_pos (Or.inl rfl)]
    constructor
    · intro h; simp at h
    · rintro ⟨x, -, -, hx⟩
      exact absurd hx (not_lt.2 (abs_nonneg _))
  · by_cases hex : ∃ xj ∈ pts.map Prod.fst, xj ≠ xi ∧ |xj - xi| < h
    · have hdet : (loessA L).det ≠ 0 := by
        obtain ⟨xj, hxj, hne, hlt⟩ := hex
        obtain ⟨p, hp, rfl⟩ := List.mem_map.1 hxj
        obtain ⟨q, hq, rfl⟩ := List.mem_map.1 hxi
        refine loessA_det_pos L ?_ _ _ (List.mem_map.2 ⟨p, hp, rfl⟩) (List.mem_map.2 ⟨q, hq, rfl⟩) ((loessWeight_pos (pts.map Prod.fst) _ _ _ hpos).2 hlt) ((loessWeight_pos (pts.map Prod.fst) _ _ _ hpos).2 (by simpa using hpos)) hne
        intro r hr
        obtain ⟨s, -, rfl⟩ := List.mem_map.1 hr
        exact loessWeight_nonneg (pts.map Prod.fst) _ _ _
      rw [if_neg (by rintro (e | e); exacts [hpos.ne' e, hdet e])]
      exact ⟨fun _ => hex, fun _ => rfl⟩
    · have hdet : (loessA L).det = 0 := by
        refine loessA_det_zero L xi ?_
        intro r hr hne
        obtain ⟨s, hs, rfl⟩ := List.mem_map.1 hr
        refine le_antisymm (not_lt.1 fun hw => hex ⟨s.1, List.mem_map.2 ⟨s, hs, rfl⟩, hne, (loessWeight_pos (pts.map Prod.fst) _ _ _ hpos).1 hw⟩) (loessWeight_nonneg (pts.map Prod.fst) _ _ _)
      rw [if_pos (Or.inr hdet)]
      exact ⟨fun h => by simp at h, fun h => absurd h hex⟩

/-- The weights of a local regression: `(1 - d³)³` at distance `d < 1` in units of the window, nothing outside. -/
def tricube (d : K) : K := if d < 1 then (1 - d ^ 3) ^ 3 else 0

theorem loessWeight_tricube (x : List K) (h xi xj : K) (hh : 0 < h) : loessWeight x h xi xj = tricube (|xj - xi| / h) := by
  unfold loessWeight tricube
  have h0 : 0 ≤ |(xj - xi) / h| := abs_nonneg _
  have e : |xj - xi| / h = |(xj - xi) / h| := by rw [abs_div, abs_of_pos hh]
  rw [e]
  split
  · rename_i hlt; rw [min_eq_right hlt.le, max_eq_right h0]
  · rename_i hn; rw [min_eq_left (not_lt.1 hn), max_eq_right zero_le_one]; norm_num

/-- The sum of weighted squares of a straight line. -/
theorem loess_normal (pts : List (K × K × K)) (hw : ∀ p ∈ pts, 0 ≤ p.1) (β : Fin 2 → K) (hβ : (loessA pts).mulVec β = loessB pts) (a b : K) :
    (pts.map fun p => p.1 * (p.2.2 - (β 0 + β 1 * p.2.1)) ^ 2).sum ≤ (pts.map fun p => p.1 * (p.2.2 - (a + b * p.2.1)) ^ 2).sum := by
  have e0 := congrFun hβ 0
  have e1 := congrFun hβ 1
  simp only [loessA, loessB, Matrix.mulVec, dotProduct, Fin.sum_univ_two, Matrix.of_apply, Matrix.cons_val_zero, Matrix.cons_val_one] at e0 e1
  have key : (pts.map fun p => p.1 * (p.2.2 - (a + b * p.2.1)) ^ 2).sum = (pts.map fun p => p.1 * (p.2.2 - (β 0 + β 1 * p.2.1)) ^ 2).sum + (pts.map fun p => p.1 * ((β 0 - a) + (β 1 - b) * p.2.1) ^ 2).sum +
      2 * (β 0 - a) * ((pts.map fun p => p.1 * p.2.2).sum - ((pts.map fun p => p.1).sum * β 0 + (pts.map fun p => p.1 * p.2.1).sum * β 1)) +
      2 * (β 1 - b) * ((pts.map fun p => p.1 * p.2.2 * p.2.1).sum - ((pts.map fun p => p.1 * p.2.1).sum * β 0 + (pts.map fun p => p.1 * p.2.1 * p.2.1).sum * β 1)) := by
    clear e0 e1 hβ hw
    induction pts with
    | nil => simp
    | cons p pts ih => simp only [List.map_cons, List.sum_cons, ih]; ring
  rw [key, e0, e1, sub_self, sub_self, mul_zero, mul_zero, add_zero, add_zero]
  refine le_add_of_nonneg_right (List.sum_nonneg ?_)
  intro x hx
  obtain ⟨p, hp, rfl⟩ := List.mem_map.1 hx
  exact mul_nonneg (hw p hp) (sq_nonneg _)

/-- **C84**: the smoothed value is the value of the straight line that fits the points best, in the sense of least squares with tricube weights. -/
theorem C84_least_squares (pts : List (K × K)) (f xi h v : K) (hh : loessH (pts.map Prod.fst) f xi = some h) (hv : loessAt (pts.map Prod.fst) (pts.map Prod.snd) f xi = some v) :
    ∃ c0 c1 : K, v = c0 + c1 * xi ∧ ∀ a b : K, (pts.map fun p => tricube (|p.1 - xi| / h) * (p.2 - (c0 + c1 * p.1)) ^ 2).sum ≤ (pts.map fun p => tricube (|p.1 - xi| / h) * (p.2 - (a + b * p.1)) ^ 2).sum := by
  have hzip : (pts.map Prod.fst).zip (pts.map Prod.snd) = pts := by rw [List.zip_map']; simp
  have hh0 : 0 ≤ h := by
    have := List.mem_of_getElem? hh
    rw [List.mem_insertionSort] at this
    obtain ⟨x, -, rfl⟩ := List.mem_map.1 this
    exact abs_nonneg _
  unfold loessAt at hv
  rw [hh, Option.bind_some, hzip] at hv
  simp only at hv
  set L := pts.map fun p => (loessWeight (pts.map Prod.fst) h xi p.1, p.1, p.2) with hL
  split at hv
  · exact absurd hv (by simp)
  · rename_i hn
    rw [not_or] at hn
    have hpos : 0 < h := lt_of_le_of_ne hh0 (Ne.symm hn.1)
    have hβ : (loessA L).mulVec (((loessA L)⁻¹).mulVec (loessB L)) = loessB L := by
      rw [Matrix.mulVec_mulVec, Matrix.mul_nonsing_inv _ (isUnit_iff_ne_zero.2 hn.2), Matrix.one_mulVec]
    have hw : ∀ p ∈ L, 0 ≤ p.1 := by
      intro p hp
      obtain ⟨q, -, rfl⟩ := List.mem_map.1 hp
      exact loessWeight_nonneg (pts.map Prod.fst) _ _ _
    refine ⟨_, _, (Option.some.inj hv).symm, fun a b => ?_⟩
    have := loess_normal L hw _ hβ a b
    rw [hL, List.map_map, List.map_map, ← hL] at this
    simp only [Function.comp_def, loessWeight_tricube _ _ _ _ hpos] at this
    exact this

/-- Evenly spaced points. -/
def evenPoints (x0 s : K) (n : ℕ) : List K := (List.range n).map fun (k : ℕ) => x0 + (k : K) * s

theorem evenPoints_count (x0 s : K) (hs : 0 < s) (n i : ℕ) :
    ((evenPoints x0 s n).map fun xj => |xj - (x0 + (i : K) * s)|).countP (fun d => decide (d ≤ s)) = (List.range n).countP fun j => decide (j ≤ i + 1 ∧ i ≤ j + 1) := by
  unfold evenPoints
  rw [List.map_map, List.countP_map]
  refine List.countP_congr ?_
  intro j _
  simp only [Function.comp_apply, decide_eq_true_eq]
  have e : x0 + (j : K) * s - (x0 + (i : K) * s) = ((j : K) - i) * s := by ring
  rw [e, abs_mul, abs_of_pos hs, mul_le_iff_le_one_left hs, abs_le]
  constructor
  · rintro ⟨h1, h2⟩
    have a : (i : K) ≤ (j : K) + 1 := by linarith
    have b : (j : K) ≤ (i : K) + 1 := by linarith
    exact ⟨by exact_mod_cast b, by exact_mod_cast a⟩
  · rintro ⟨h1, h2⟩
    have a : (i : K) ≤ (j : K) + 1 := by exact_mod_cast h2
    have b : (j : K) ≤ (i : K) + 1 := by exact_mod_cast h1
    constructor <;> linarith

theorem range_count_near (n i : ℕ) (hi : i < n) : ((List.range n).countP fun j => decide (j ≤ i + 1 ∧ i ≤ j + 1)) = min n (i + 2) - (i - 1) := by
  have key : ∀ n : ℕ, ((List.range n).countP fun j => decide (j ≤ i + 1 ∧ i ≤ j + 1)) = min n (i + 2) - (i - 1) := by
    intro n
    induction n with
    | zero => simp
    | succ n ih =>
      rw [List.range_succ, List.countP_append, ih, List.countP_singleton]
      by_cases h : n ≤ i + 1 ∧ i ≤ n + 1
      · simp only [h, and_self, decide_true, if_true]; omega
      · simp only [h, decide_false]
        simp only [Bool.false_eq_true, if_false]
        omega
  exact key n

/-- **C84**: the spectra are evenly spaced. For these all smoothed values are defined exactly if the window `r = ⌈f n⌉` is at least 3 and less than the number of points; with the default
factor 0.02 this needs more than 100 points. -/
theorem C84_even (x0 s f : K) (hs : 0 < s) (n : ℕ) (hn : 0 < n) (y : List K) (hy : y.length = n) :
    (∀ i : ℕ, i < n → (loessAt (evenPoints x0 s n) y f (x0 + (i : K) * s)).isSome) ↔ 3 ≤ ⌈f * (n : K)⌉.toNat ∧ ⌈f * (n : K)⌉.toNat < n := by
  have hlen : (evenPoints x0 s n).length = n := by simp [evenPoints]
  obtain ⟨pts, hp1, hp2⟩ : ∃ pts : List (K × K), pts.map Prod.fst = evenPoints x0 s n ∧ pts.map Prod.snd = y := by
    refine ⟨(evenPoints x0 s n).zip y, ?_, ?_⟩
    · rw [List.map_fst_zip (by omega)]
    · rw [List.map_snd_zip (by omega)]
  set r := ⌈f * (n : K)⌉.toNat with hr
  have hmem : ∀ i : ℕ, i < n → x0 + (i : K) * s ∈ evenPoints x0 s n := fun i hi => List.mem_map.2 ⟨i, List.mem_range.2 hi, rfl⟩
  have hH : ∀ i : ℕ, r < n → ∃ h, loessH (evenPoints x0 s n) f (x0 + (i : K) * s) = some h ∧ (i < n → (s < h ↔ min n (i + 2) - (i - 1) ≤ r)) := by
    intro i hrn
    have hl : ((List.map (fun xj => |xj - (x0 + (i : K) * s)|) (evenPoints x0 s n)).insertionSort (· ≤ ·)).length = n := by
      rw [List.length_insertionSort, List.length_map, hlen]
    refine ⟨_, by unfold loessH; rw [hlen, ← hr]; exact List.getElem?_eq_getElem (by rw [hl]; exact hrn), ?_⟩
    intro hi
    rw [sorted_getElem_lt _ (List.pairwise_insertionSort _ _), (List.perm_insertionSort _ _).countP_eq, evenPoints_count x0 s hs, range_count_near n i hi]
  have hdef : ∀ i : ℕ, i < n → r < n → ((loessAt (evenPoints x0 s n) y f (x0 + (i : K) * s)).isSome ↔ 2 ≤ n ∧ min n (i + 2) - (i - 1) ≤ r) := by
    intro i hi hrn
    obtain ⟨h, hh, hiff⟩ := hH i hrn
    rw [← hiff hi]
    have hmi := hmem i hi
    rw [← hp1] at hh hmi ⊢
    rw [← hp2, C84_defined pts f _ h hmi hh]
    constructor
    · rintro ⟨xj, hxj, hne, hlt⟩
      rw [hp1] at hxj
      obtain ⟨j, hj, rfl⟩ := List.mem_map.1 hxj
      rw [List.mem_range] at hj
      have hij : j ≠ i := by rintro rfl; exact hne rfl
      refine ⟨by omega, lt_of_le_of_lt ?_ hlt⟩
      have e : x0 + (j : K) * s - (x0 + (i : K) * s) = ((j : K) - i) * s := by ring
      rw [e, abs_mul, abs_of_pos hs, le_mul_iff_one_le_left hs]
      have : (1 : ℤ) ≤ |(j : ℤ) - i| := Int.one_le_abs (by omega)
      exact_mod_cast this
    · rintro ⟨h2, hlt⟩
      obtain ⟨j, hj, hji⟩ : ∃ j < n, j = i + 1 ∨ i = j + 1 := by
        by_cases h : i + 1 < n
        · exact ⟨i + 1, h, Or.inl rfl⟩
        · exact ⟨i - 1, by omega, Or.inr (by omega)⟩
      have hm := hmem j hj
      rw [← hp1] at hm
      refine ⟨_, hm, ?_, ?_⟩
      · intro e
        have : (j : K) = i := mul_right_cancel₀ hs.ne' (by linarith)
        have : j = i := by exact_mod_cast this
        omega
      · refine lt_of_eq_of_lt ?_ hlt
        rcases hji with rfl | rfl
        · push_cast
          rw [show x0 + ((i : K) + 1) * s - (x0 + (i : K) * s) = s by ring, abs_of_pos hs]
        · push_cast
          rw [show x0 + (j : K) * s - (x0 + ((j : K) + 1) * s) = -s by ring, abs_neg, abs_of_pos hs]
  constructor
  · intro hall
    by_cases hrn : r < n
    · refine ⟨?_, hrn⟩
      have h0 := (hdef 0 hn hrn).1 (hall 0 hn)
      by_contra hlt
      by_cases h3 : 3 ≤ n
      · have h1 := (hdef 1 (by omega) hrn).1 (hall 1 (by omega))
        omega
      · omega
    · exfalso
      have h0 := hall 0 hn
      have : loessH (evenPoints x0 s n) f (x0 + ((0 : ℕ) : K) * s) = none := by
        unfold loessH
        rw [List.getElem?_eq_none]
        rw [List.length_insertionSort, List.length_map, hlen, ← hr]
        omega
      unfold loessAt at h0
      rw [this] at h0
      simp at h0
  · rintro ⟨h3, hrn⟩ i hi
    rw [hdef i hi hrn]
    omega

/-- Default factor: 100 points are too few, 101 suffice. -/
example : ¬ 3 ≤ ⌈(2 / 100 : ℚ) * (100 : ℕ)⌉.toNat ∧ 3 ≤ ⌈(2 / 100 : ℚ) * (101 : ℕ)⌉.toNat := by decide +kernel

end
end Verif
