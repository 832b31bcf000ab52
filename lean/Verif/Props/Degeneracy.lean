import Verif.Model.Degeneracy
import Mathlib.Logic.Relation
import Mathlib.Tactic.Linarith
import Mathlib.Tactic.NormNum
import Mathlib.Algebra.BigOperators.Group.List.Basic
import Mathlib.Tactic.FieldSimp
import Mathlib.Algebra.Order.Ring.Unbundled.Rat
import Mathlib.Algebra.Field.Rat

/-! # C37, C38 -/

set_option autoImplicit false
set_option linter.unusedSectionVars false

namespace Verif

variable {K : Type*} [Field K] [LinearOrder K] [IsStrictOrderedRing K]

/-- Specification: branches linked by a chain of frequencies with gaps below the cutoff. -/
def Linked (n : ℕ) (f : ℕ → K) (cutoff : K) : ℕ → ℕ → Prop :=
  Relation.ReflTransGen fun a b => a < n ∧ b < n ∧ |f a - f b| < cutoff

/-! ## Coverage, for any order of the frequencies -/

theorem degInner_done (f : ℕ → K) (cutoff : K) (l : List ℕ) : ∀ st : List ℕ × List ℕ,
    (∀ k ∈ st.1, k ∈ (l.foldl (degInner f cutoff) st).1) ∧
    (∀ k ∈ (l.foldl (degInner f cutoff) st).2, k ∈ st.2 ∨ k ∈ (l.foldl (degInner f cutoff) st).1) := by
  induction l with
  | nil => intro st; exact ⟨fun k h => h, fun k h => Or.inl h⟩
  | cons j l ih =>
    intro st
    obtain ⟨h1, h2⟩ := ih (degInner f cutoff st j)
    rw [List.foldl_cons]
    refine ⟨fun k hk => h1 k ?_, fun k hk => ?_⟩
    · unfold degInner; split
      · simp [hk]
      · exact hk
    · rcases h2 k hk with h | h
      · have : k ∈ st.2 ∨ k ∈ (degInner f cutoff st j).1 := by
          unfold degInner at h ⊢
          split at h
          · rename_i hc; rw [if_pos hc]
            rcases List.mem_append.1 h with h | h
            · exact Or.inl h
            · exact Or.inr (by simp at h; simp [h])
          · exact Or.inl h
        rcases this with h | h
        · exact Or.inl h
        · exact Or.inr (h1 k h)
      · exact Or.inr h

/-- C37: every branch is in at least one of the sets, whatever the frequencies. -/
theorem C37_cover (n : ℕ) (f : ℕ → K) (cutoff : K) (i : ℕ) (hi : i < n) : ∃ S ∈ degenerateSets n f cutoff, i ∈ S := by
  have key : ∀ (l : List ℕ) (st : List (List ℕ) × List ℕ), (∀ k ∈ st.2, ∃ S ∈ st.1, k ∈ S) →
      (∀ k ∈ (l.foldl (degOuter n f cutoff) st).2, ∃ S ∈ (l.foldl (degOuter n f cutoff) st).1, k ∈ S) ∧
      (∀ k ∈ st.2, k ∈ (l.foldl (degOuter n f cutoff) st).2) ∧
      (∀ k ∈ l, ∃ S ∈ (l.foldl (degOuter n f cutoff) st).1, k ∈ S) ∧
      (∀ S ∈ st.1, S ∈ (l.foldl (degOuter n f cutoff) st).1) := by
    intro l
    induction l with
    | nil => intro st h; exact ⟨h, fun k hk => hk, by simp, fun S hS => hS⟩
    | cons i l ih =>
      intro st h
      have hd := degInner_done f cutoff (List.range' (i + 1) (n - (i + 1))) ([i], st.2 ++ [i])
      have hst : (∀ k ∈ (degOuter n f cutoff st i).2, ∃ S ∈ (degOuter n f cutoff st i).1, k ∈ S) ∧
          (∃ S ∈ (degOuter n f cutoff st i).1, i ∈ S) ∧ (∀ S ∈ st.1, S ∈ (degOuter n f cutoff st i).1) := by
        unfold degOuter
        by_cases hc : i ∈ st.2
        · rw [if_pos hc]; exact ⟨h, h i hc, fun S hS => hS⟩
        · rw [if_neg hc]
          refine ⟨fun k hk => ?_, ⟨_, by simp, hd.1 i (by simp)⟩, fun S hS => by simp [hS]⟩
          rcases hd.2 k hk with h' | h'
          · rcases List.mem_append.1 h' with h' | h'
            · obtain ⟨S, hS, hkS⟩ := h k h'; exact ⟨S, by simp [hS], hkS⟩
            · simp at h'; subst h'; exact ⟨_, by simp, hd.1 k (by simp)⟩
          · exact ⟨_, by simp, h'⟩
      obtain ⟨i1, i2, i3, i4⟩ := ih (degOuter n f cutoff st i) hst.1
      rw [List.foldl_cons]
      refine ⟨i1, fun k hk => i2 k ?_, fun k hk => ?_, fun S hS => i4 S (hst.2.2 S hS)⟩
      · unfold degOuter
        by_cases hc : i ∈ st.2
        · rw [if_pos hc]; exact hk
        · rw [if_neg hc]
          have : ∀ (l : List ℕ) (st : List ℕ × List ℕ), k ∈ st.2 → k ∈ (l.foldl (degInner f cutoff) st).2 := by
            intro l
            induction l with
            | nil => intro st h; exact h
            | cons j l ih =>
              intro st h
              rw [List.foldl_cons]
              refine ih _ ?_
              unfold degInner; split
              · simp [h]
              · exact h
          exact this _ _ (by simp [hk])
      · rcases List.mem_cons.1 hk with rfl | hk
        · obtain ⟨S, hS, hkS⟩ := hst.2.1; exact ⟨S, i4 S hS, hkS⟩
        · exact i3 k hk
  exact (key (List.range n) ([], []) (by simp)).2.2.1 i (by simpa using hi)

/-! ## Sorted frequencies -/

/-- A maximal run of branches with small gaps. -/
def IsRun (n : ℕ) (f : ℕ → K) (cutoff : K) (a m : ℕ) : Prop :=
  0 < m ∧ a + m ≤ n ∧ (∀ k, a ≤ k → k + 1 < a + m → f (k + 1) - f k < cutoff) ∧
  (a + m < n → cutoff ≤ f (a + m) - f (a + m - 1)) ∧ (0 < a → cutoff ≤ f a - f (a - 1))

section sorted
variable (n : ℕ) (f : ℕ → K) (cutoff : K)

theorem inner_sorted (hs : ∀ i j, i ≤ j → j < n → f i ≤ f j) (i : ℕ) (hi : i < n) (done : List ℕ) (t : ℕ) (ht : i + t < n) :
    ∃ m, 0 < m ∧ m ≤ t + 1 ∧
      (List.range' (i + 1) t).foldl (degInner f cutoff) ([i], done ++ [i]) = (List.range' i m, done ++ List.range' i m) ∧
      (∀ k, i ≤ k → k + 1 < i + m → f (k + 1) - f k < cutoff) ∧
      (m < t + 1 → cutoff ≤ f (i + m) - f (i + m - 1)) := by
  induction t with
  | zero => exact ⟨1, by omega, by omega, by simp, by intro k h1 h2; omega, by omega⟩
  | succ t ih =>
    obtain ⟨m, h1, h2, h3, h4, h5⟩ := ih (by omega)
    have e : List.range' (i + 1) (t + 1) = List.range' (i + 1) t ++ [i + 1 + t] := by rw [List.range'_1_concat]
    rw [e, List.foldl_append, h3, List.foldl_cons, List.foldl_nil]
    by_cases hm : m = t + 1
    · -- still in the run
      by_cases hgap : f (i + m) - f (i + m - 1) < cutoff
      · refine ⟨m + 1, by omega, by omega, ?_, ?_, by omega⟩
        · have hc : ∃ k ∈ List.range' i m, |f k - f (i + 1 + t)| < cutoff := by
            refine ⟨i + m - 1, by rw [List.mem_range'_1]; omega, ?_⟩
            have hle : f (i + m - 1) ≤ f (i + m) := hs _ _ (by omega) (by omega)
            have : i + 1 + t = i + m := by omega
            rw [this, abs_sub_comm, abs_of_nonneg (by linarith)]
            exact hgap
          unfold degInner
          rw [if_pos hc]
          have : i + 1 + t = i + m := by omega
          simp only [this]
          rw [List.range'_1_concat, List.append_assoc]
        · intro k hk1 hk2
          by_cases hk : k + 1 < i + m
          · exact h4 k hk1 hk
          · obtain rfl : k = i + m - 1 := by omega
            have : i + m - 1 + 1 = i + m := by omega
            rw [this]; exact hgap
      · refine ⟨m, h1, by omega, ?_, h4, fun _ => not_lt.1 hgap⟩
        have hc : ¬ ∃ k ∈ List.range' i m, |f k - f (i + 1 + t)| < cutoff := by
          rintro ⟨k, hk, hlt⟩
          rw [List.mem_range'_1] at hk
          have e1 : f k ≤ f (i + m - 1) := hs _ _ (by omega) (by omega)
          have e2 : f (i + m) ≤ f (i + 1 + t) := hs _ _ (by omega) (by omega)
          rw [abs_sub_comm] at hlt
          have := le_abs_self (f (i + 1 + t) - f k)
          linarith [not_lt.1 hgap]
        unfold degInner
        rw [if_neg hc]
    · refine ⟨m, h1, by omega, ?_, h4, fun _ => h5 (by omega)⟩
      have hc : ¬ ∃ k ∈ List.range' i m, |f k - f (i + 1 + t)| < cutoff := by
        rintro ⟨k, hk, hlt⟩
        rw [List.mem_range'_1] at hk
        have e1 : f k ≤ f (i + m - 1) := hs _ _ (by omega) (by omega)
        have e2 : f (i + m) ≤ f (i + 1 + t) := hs _ _ (by omega) (by omega)
        rw [abs_sub_comm] at hlt
        have := le_abs_self (f (i + 1 + t) - f k)
        linarith [h5 (by omega)]
      unfold degInner
      rw [if_neg hc]

theorem outer_sorted (hs : ∀ i j, i ≤ j → j < n → f i ≤ f j) (i : ℕ) (hi : i ≤ n) :
    ∃ x, i ≤ x ∧ x ≤ n ∧ ((List.range i).foldl (degOuter n f cutoff) ([], [])).2 = List.range x ∧
      ((List.range i).foldl (degOuter n f cutoff) ([], [])).1.flatten = List.range x ∧
      (∀ S ∈ ((List.range i).foldl (degOuter n f cutoff) ([], [])).1, ∃ a m, S = List.range' a m ∧ IsRun n f cutoff a m) ∧
      (0 < x → x < n → cutoff ≤ f x - f (x - 1)) := by
  induction i with
  | zero => exact ⟨0, le_rfl, Nat.zero_le _, by simp, by simp, by simp, by omega⟩
  | succ i ih =>
    obtain ⟨x, h1, h2, h3, h4, h5, h6⟩ := ih (by omega)
    rw [List.range_succ, List.foldl_append, List.foldl_cons, List.foldl_nil]
    generalize hst : (List.range i).foldl (degOuter n f cutoff) ([], []) = st at h3 h4 h5
    unfold degOuter
    by_cases hc : i ∈ st.2
    · rw [if_pos hc]
      rw [h3, List.mem_range] at hc
      exact ⟨x, by omega, h2, h3, h4, h5, h6⟩
    · rw [if_neg hc]
      rw [h3, List.mem_range] at hc
      obtain rfl : x = i := by omega
      obtain ⟨m, g1, g2, g3, g4, g5⟩ := inner_sorted n f cutoff hs x (by omega) st.2 (n - (x + 1)) (by omega)
      dsimp only
      rw [g3]
      refine ⟨x + m, by omega, by omega, ?_, ?_, ?_, ?_⟩
      · dsimp only; rw [h3, List.range_eq_range', List.range_eq_range']
        have := @List.range'_append_1 0 x m
        simpa [Nat.add_comm] using this
      · rw [List.flatten_append, h4]
        simp only [List.flatten_cons, List.flatten_nil, List.append_nil]
        rw [List.range_eq_range', List.range_eq_range']
        have := @List.range'_append_1 0 x m
        simpa [Nat.add_comm] using this
      · intro S hS
        rcases List.mem_append.1 hS with hS | hS
        · exact h5 S hS
        · simp only [List.mem_singleton] at hS
          exact ⟨x, m, hS, g1, by omega, g4, fun h => g5 (by omega), fun h => h6 h (by omega)⟩
      · intro _ hlt
        exact g5 (by omega)

/-- C37: for sorted frequencies (what phonopy returns) the sets are disjoint and cover all branches: put one after the other
they are exactly `0, 1, ..., n-1`. -/
theorem C37_partition (hs : ∀ i j, i ≤ j → j < n → f i ≤ f j) : (degenerateSets n f cutoff).flatten = List.range n := by
  obtain ⟨x, h1, h2, -, h4, -, -⟩ := outer_sorted n f cutoff hs n le_rfl
  obtain rfl : x = n := by omega
  exact h4

theorem run_linked (hs : ∀ i j, i ≤ j → j < n → f i ≤ f j) {a m : ℕ} (h : IsRun n f cutoff a m) (i : ℕ) (hi : a ≤ i ∧ i < a + m) :
    ∀ d, i + d < a + m → Linked n f cutoff i (i + d) ∧ Linked n f cutoff (i + d) i := by
  intro d
  induction d with
  | zero => intro _; exact ⟨Relation.ReflTransGen.refl, Relation.ReflTransGen.refl⟩
  | succ d ih =>
    intro hd
    obtain ⟨l1, l2⟩ := ih (by omega)
    have g := h.2.2.1 (i + d) (by omega) (by omega)
    have hle := hs (i + d) (i + d + 1) (by omega) (by have := h.2.1; omega)
    have hn : i + d + 1 < n := by have := h.2.1; omega
    have habs : |f (i + d + 1) - f (i + d)| < cutoff := by rw [abs_of_nonneg (by linarith)]; exact g
    exact ⟨l1.tail ⟨by omega, hn, by rw [abs_sub_comm]; exact habs⟩,
      (Relation.ReflTransGen.single ⟨hn, by omega, habs⟩).trans l2⟩

theorem run_closed (hs : ∀ i j, i ≤ j → j < n → f i ≤ f j) {a m : ℕ} (h : IsRun n f cutoff a m) (i j : ℕ)
    (hi : a ≤ i ∧ i < a + m) (hl : Linked n f cutoff i j) : a ≤ j ∧ j < a + m := by
  induction hl with
  | refl => exact hi
  | @tail b c _ hstep ih =>
    obtain ⟨hb, hc, habs⟩ := hstep
    have hbound := h.2.1
    constructor
    · by_contra hlt
      have e1 := hs c (a - 1) (by omega) (by omega)
      have e2 := hs a b ih.1 hb
      have e3 := h.2.2.2.2 (by omega)
      have := le_abs_self (f b - f c)
      linarith
    · by_contra hlt
      have e1 := hs (a + m) c (by omega) hc
      have e2 := hs b (a + m - 1) (by omega) (by omega)
      have e3 := h.2.2.2.1 (by omega)
      rw [abs_sub_comm] at habs
      have := le_abs_self (f c - f b)
      linarith

/-- C37: for sorted frequencies two branches are in the same set iff a chain of gaps below the cutoff links them. -/
theorem C37_linked (hs : ∀ i j, i ≤ j → j < n → f i ≤ f j) (i j : ℕ) (hi : i < n) :
    (∃ S ∈ degenerateSets n f cutoff, i ∈ S ∧ j ∈ S) ↔ Linked n f cutoff i j := by
  obtain ⟨x, h1, h2, -, -, h5, -⟩ := outer_sorted n f cutoff hs n le_rfl
  constructor
  · rintro ⟨S, hS, hiS, hjS⟩
    obtain ⟨a, m, rfl, hr⟩ := h5 S hS
    rw [List.mem_range'_1] at hiS hjS
    rcases le_total i j with hij | hij
    · obtain ⟨d, rfl⟩ := Nat.exists_eq_add_of_le hij
      exact (run_linked n f cutoff hs hr i hiS d hjS.2).1
    · obtain ⟨d, rfl⟩ := Nat.exists_eq_add_of_le hij
      exact (run_linked n f cutoff hs hr j hjS d hiS.2).2
  · intro hl
    obtain ⟨S, hS, hiS⟩ := C37_cover n f cutoff i hi
    refine ⟨S, hS, hiS, ?_⟩
    obtain ⟨a, m, rfl, hr⟩ := h5 S hS
    rw [List.mem_range'_1] at hiS ⊢
    exact run_closed n f cutoff hs hr i j hiS hl

end sorted

/-- Sorted frequencies with one doubly and one triply degenerate level. -/
example : degenerateSets 6 (fun i => ([1, 1, 2, 3, 3, 3] : List ℚ).getD i 0) (1 / 10000) = [[0, 1], [2], [3, 4, 5]] := by
  decide +kernel

/-- C37, why sorted is needed: for unsorted frequencies a branch can be in two sets (line 26 does not look at `done`). -/
theorem C37_unsorted_violated : ∃ (n : ℕ) (f : ℕ → ℚ) (cutoff : ℚ), 0 < cutoff ∧ ¬ (degenerateSets n f cutoff).flatten.Nodup :=
  ⟨3, fun i => ([0, 9 / 5, 9 / 10] : List ℚ).getD i 0, 1, by decide +kernel⟩

/-! ## C38 -/

section c38
variable (data : ℕ → ℕ → K) (D : List (List ℕ))

theorem find_eq_of_disjoint (hD : D.flatten.Nodup) (S : List ℕ) (hS : S ∈ D) (i : ℕ) (hi : i ∈ S) :
    D.find? (fun set => i ∈ set) = some S := by
  induction D with
  | nil => simp at hS
  | cons T D ih =>
    rw [List.flatten_cons, List.nodup_append] at hD
    rcases List.mem_cons.1 hS with rfl | hS'
    · rw [List.find?_cons_of_pos (by simpa using hi)]
    · have hnT : i ∉ T := by
        intro hiT
        exact hD.2.2 i hiT i (List.mem_flatten.2 ⟨S, hS', hi⟩) rfl
      rw [List.find?_cons_of_neg (by simpa using hnT)]
      exact ih hD.2.1 hS'

/-- C38: if the sets are disjoint, every member of a set gets the average over the set. -/
theorem C38_average (hD : D.flatten.Nodup) (S : List ℕ) (hS : S ∈ D) (i : ℕ) (hi : i ∈ S) :
    averagePhonon i data D = some fun r => (S.map (data r)).sum / (S.length : K) := by
  unfold averagePhonon
  rw [find_eq_of_disjoint D hD S hS i hi]
  rfl

/-- C38: so the members of a set get the same curve and a non-degenerate branch is unchanged. -/
theorem C38_equal (hD : D.flatten.Nodup) (S : List ℕ) (hS : S ∈ D) (i j : ℕ) (hi : i ∈ S) (hj : j ∈ S) :
    averagePhonon i data D = averagePhonon j data D := by
  rw [C38_average data D hD S hS i hi, C38_average data D hD S hS j hj]

theorem C38_single (hD : D.flatten.Nodup) (i : ℕ) (hS : [i] ∈ D) : averagePhonon i data D = some fun r => data r i := by
  rw [C38_average data D hD [i] hS i (by simp)]
  simp

theorem sum_average_set (S : List ℕ) (r : ℕ) (g : ℕ → K) (hg : ∀ i ∈ S, g i = averageColumns data S r) :
    (S.map g).sum = (S.map (data r)).sum := by
  have : S.map g = List.replicate S.length (averageColumns data S r) := by
    rw [List.eq_replicate_iff]
    refine ⟨by simp, fun x hx => ?_⟩
    obtain ⟨i, hi, rfl⟩ := List.mem_map.1 hx
    exact hg i hi
  rw [this, List.sum_replicate, nsmul_eq_mul]
  unfold averageColumns
  rcases Nat.eq_zero_or_pos S.length with h0 | h0
  · rw [List.length_eq_zero_iff] at h0; subst h0; simp
  · have : (S.length : K) ≠ 0 := by exact_mod_cast h0.ne'
    field_simp

/-- C38: with sorted frequencies the averaged curves have the same sum over all branches as the original ones, at every
frequency. -/
theorem C38_sum (n : ℕ) (f : ℕ → K) (cutoff : K) (hs : ∀ i j, i ≤ j → j < n → f i ≤ f j) (r : ℕ) :
    ∃ g : ℕ → ℕ → K, (∀ i < n, averagePhonon i data (degenerateSets n f cutoff) = some (g i)) ∧
      ((List.range n).map fun i => g i r).sum = ((List.range n).map (data r)).sum := by
  have hp := C37_partition n f cutoff hs
  have hnd : (degenerateSets n f cutoff).flatten.Nodup := by rw [hp]; exact List.nodup_range
  refine ⟨fun i => (averagePhonon i data (degenerateSets n f cutoff)).getD (fun _ => 0), ?_, ?_⟩
  · intro i hi
    obtain ⟨S, hS, hiS⟩ := C37_cover n f cutoff i hi
    dsimp only
    rw [C38_average data _ hnd S hS i hiS]; rfl
  · rw [← hp]
    have key : ∀ D' : List (List ℕ), (∀ S ∈ D', S ∈ degenerateSets n f cutoff) →
        (D'.flatten.map fun i => (averagePhonon i data (degenerateSets n f cutoff)).getD (fun _ => 0) r).sum =
          (D'.flatten.map (data r)).sum := by
      intro D'
      induction D' with
      | nil => intro _; rfl
      | cons S D' ih =>
        intro h
        rw [List.flatten_cons, List.map_append, List.map_append, List.sum_append, List.sum_append,
          ih (fun T hT => h T (by simp [hT]))]
        congr 1
        refine sum_average_set data S r _ fun i hi => ?_
        rw [C38_average data _ hnd S (h S (by simp)) i hi]; rfl
    exact key _ (fun S hS => hS)

end c38

/-- C38 with unsorted frequencies: the sum over the branches is not conserved. -/
theorem C38_unsorted_violated : ∃ (n : ℕ) (f : ℕ → ℚ) (cutoff : ℚ) (data : ℕ → ℕ → ℚ), 0 < cutoff ∧
    ((List.range n).map fun i => ((averagePhonon i data (degenerateSets n f cutoff)).getD (fun _ => 0)) 0).sum ≠
      ((List.range n).map (data 0)).sum :=
  ⟨3, fun i => ([0, 9 / 5, 9 / 10] : List ℚ).getD i 0, 1, fun _ j => ([1, 5, 0] : List ℚ).getD j 0, by decide +kernel⟩

end Verif
