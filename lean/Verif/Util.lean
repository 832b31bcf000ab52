import Verif.Model.Rounding
import Mathlib.Algebra.BigOperators.Group.Finset.Basic
import Mathlib.Algebra.BigOperators.Fin
import Mathlib.Data.List.Range

/-! # Helper lemmas (no model definitions here) -/

set_option autoImplicit false

namespace Verif

section Rounding
variable {K : Type*} [Field K] [LinearOrder K] [IsStrictOrderedRing K] [FloorRing K]

theorem roundEven_abs_sub (x : K) : |x - roundEven x| ≤ 1 / 2 := by
  have h1 := Int.floor_le x
  have h2 := Int.lt_floor_add_one x
  unfold roundEven
  simp only
  split_ifs <;> rw [abs_le] <;> constructor <;> push_cast <;> linarith

theorem roundAway_abs_sub (x : K) : |x - roundAway x| ≤ 1 / 2 := by
  unfold roundAway
  split_ifs with h
  · have h1 := Int.floor_le (x + 1 / 2)
    have h2 := Int.lt_floor_add_one (x + 1 / 2)
    rw [abs_le]; constructor <;> linarith
  · have h1 := Int.floor_le (-x + 1 / 2)
    have h2 := Int.lt_floor_add_one (-x + 1 / 2)
    rw [abs_le]; push_cast; constructor <;> linarith

/-- An integer at distance `< 1/2` is unique. -/
theorem int_near_unique {x : K} {m n : ℤ} (hm : |x - m| < 1 / 2) (hn : |x - n| ≤ 1 / 2) : m = n := by
  rw [abs_lt] at hm
  rw [abs_le] at hn
  have h1 : (m : K) < n + 1 := by linarith
  have h2 : (n : K) < m + 1 := by linarith
  have h1' : m < n + 1 := by exact_mod_cast h1
  have h2' : n < m + 1 := by exact_mod_cast h2
  omega

theorem roundEven_eq_of_near {x : K} {m : ℤ} (hm : |x - m| < 1 / 2) : roundEven x = m :=
  (int_near_unique hm (roundEven_abs_sub x)).symm

theorem roundAway_eq_of_near {x : K} {m : ℤ} (hm : |x - m| < 1 / 2) : roundAway x = m :=
  (int_near_unique hm (roundAway_abs_sub x)).symm

@[simp] theorem roundEven_intCast (m : ℤ) : roundEven (m : K) = m :=
  roundEven_eq_of_near (by simp)

@[simp] theorem roundAway_intCast (m : ℤ) : roundAway (m : K) = m :=
  roundAway_eq_of_near (by simp)

@[simp] theorem roundEven_zero : roundEven (0 : K) = 0 := by
  simpa using roundEven_intCast (K := K) 0

@[simp] theorem roundEven_one : roundEven (1 : K) = 1 := by
  simpa using roundEven_intCast (K := K) 1

@[simp] theorem roundEven_natCast (m : ℕ) : roundEven (m : K) = m := by
  simpa using roundEven_intCast (K := K) m

theorem roundAway_neg (x : K) : roundAway (-x) = - roundAway x := by
  unfold roundAway
  rcases lt_trichotomy x 0 with h | h | h
  · rw [if_pos (by linarith), if_neg (by linarith)]; simp
  · subst h
    have : ⌊(1 / 2 : K)⌋ = 0 := by rw [Int.floor_eq_iff]; norm_num
    simp only [neg_zero, le_refl, if_true, zero_add, this]
  · rw [if_neg (by linarith), if_pos h.le]; simp

theorem roundEven_add_even_int (x : K) (m : ℤ) (hm : m % 2 = 0) :
    roundEven (x + m) = roundEven x + m := by
  unfold roundEven
  simp only [Int.floor_add_intCast, Int.cast_add]
  have : x + m - ((⌊x⌋ : K) + m) = x - ⌊x⌋ := by ring
  rw [this]
  have e : ((⌊x⌋ + m) % 2 = 0) = (⌊x⌋ % 2 = 0) := by
    apply propext; omega
  simp only [e]
  split_ifs <;> ring

end Rounding

section Lists

/-- Indexing into a `flatMap` whose pieces all have length `n`. -/
theorem getElem?_flatMap_const {α β : Type*} (f : α → List β) (n : ℕ) :
    ∀ (l : List α), (∀ a ∈ l, (f a).length = n) → ∀ (i j : ℕ), j < n →
      (l.flatMap f)[n * i + j]? = l[i]?.bind (fun a => (f a)[j]?)
  | [], _, i, j, _ => by simp
  | a :: l, h, 0, j, hj => by
      have ha := h a (by simp)
      simp [List.getElem?_append_left (by omega : j < (f a).length)]
  | a :: l, h, i + 1, j, hj => by
      have ha := h a (by simp)
      have ih := getElem?_flatMap_const f n l (fun b hb => h b (by simp [hb])) i j hj
      rw [List.flatMap_cons, List.getElem?_append_right (by rw [ha]; nlinarith)]
      have : n * (i + 1) + j - (f a).length = n * i + j := by rw [ha, Nat.mul_succ]; omega
      rw [this, ih]; simp

theorem length_flatMap_const {α β : Type*} (f : α → List β) (n : ℕ) (l : List α)
    (h : ∀ a ∈ l, (f a).length = n) : (l.flatMap f).length = n * l.length := by
  induction l with
  | nil => simp
  | cons a l ih =>
    rw [List.flatMap_cons, List.length_append, ih (fun b hb => h b (by simp [hb])), h a (by simp)]
    simp [Nat.mul_succ]; omega

/-- A loop accumulating `acc += f i` is a sum. -/
theorem foldl_add_eq_sum {M : Type*} [AddCommMonoid M] (f : ℕ → M) (n : ℕ) (a : M) :
    (List.range n).foldl (fun acc i => acc + f i) a = a + ∑ i ∈ Finset.range n, f i := by
  induction n with
  | zero => simp
  | succ n ih => rw [List.range_succ, List.foldl_append, ih, Finset.sum_range_succ]; simp [add_assoc]

theorem foldl_add_list {M ι : Type*} [AddCommMonoid M] (f : ι → M) (l : List ι) (a : M) :
    l.foldl (fun acc i => acc + f i) a = a + (l.map f).sum := by
  induction l generalizing a with
  | nil => simp
  | cons x l ih => simp [ih, add_assoc]

/-- A loop `M[k(i)] += f(i)`: each entry ends as the sum over the indices with that key. -/
theorem foldl_update_add {M ι κ : Type*} [AddCommMonoid M] [DecidableEq κ] (k : ι → κ) (f : ι → M) (l : List ι)
    (M0 : κ → M) (t : κ) :
    l.foldl (fun M i => Function.update M (k i) (M (k i) + f i)) M0 t
      = M0 t + ((l.filter fun i => k i = t).map f).sum := by
  induction l generalizing M0 with
  | nil => simp
  | cons x l ih =>
    rw [List.foldl_cons, ih]
    by_cases h : k x = t
    · subst h; simp [add_assoc]
    · rw [Function.update_of_ne (Ne.symm h)]; simp [h]

theorem sum_map_filter_range {M : Type*} [AddCommMonoid M] (f : ℕ → M) (p : ℕ → Prop) [DecidablePred p] (n : ℕ) :
    (((List.range n).filter fun i => p i).map f).sum = ∑ i ∈ (Finset.range n).filter p, f i := by
  rw [Finset.sum_filter]
  induction n with
  | zero => simp
  | succ n ih =>
    rw [List.range_succ, List.filter_append, List.map_append, List.sum_append, ih, Finset.sum_range_succ]
    by_cases h : p n <;> simp [h]

theorem sum_map_range {M : Type*} [AddCommMonoid M] (f : ℕ → M) (n : ℕ) :
    ((List.range n).map f).sum = ∑ i ∈ Finset.range n, f i := by
  simpa using sum_map_filter_range f (fun _ => True) n

end Lists

end Verif
