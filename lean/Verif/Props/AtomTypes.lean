import Verif.Model.Structure
import Verif.Util

/-! # C06: the atom type loop -/

set_option autoImplicit false

namespace Verif

/-- Inner loop: after processing the indices `i+1 .. i+m`, index `j` in that range carries the label of `i` iff
`same i j`; other entries are untouched. -/
theorem typeInner_foldl (same : ℕ → ℕ → Bool) (i : ℕ) (t : ℕ → Option ℕ) (m : ℕ) (j : ℕ) :
    (List.range' (i + 1) m).foldl (typeInner same i) t j =
      if i < j ∧ j < i + 1 + m ∧ same i j then t i else t j := by
  induction m generalizing j with
  | zero => simp; omega
  | succ m ih =>
    rw [List.range'_1_concat, List.foldl_append]
    simp only [List.foldl_cons, List.foldl_nil, typeInner]
    by_cases h : same i (i + 1 + m)
    · rw [if_pos h]
      by_cases hj : j = i + 1 + m
      · subst hj
        rw [Function.update_self, ih]
        simp [h]
        omega
      · rw [Function.update_of_ne hj, ih]
        congr 1
        apply propext
        constructor <;> rintro ⟨a, b, c⟩ <;> exact ⟨a, by omega, c⟩
    · rw [if_neg h, ih]
      congr 1
      apply propext
      constructor
      · rintro ⟨a, b, c⟩; exact ⟨a, by omega, c⟩
      · rintro ⟨a, b, c⟩
        refine ⟨a, ?_, c⟩
        by_contra hb
        have : j = i + 1 + m := by omega
        subst this; exact h c

/-- Invariant of the outer loop after `m` iterations. -/
structure TypeInv (same : ℕ → ℕ → Bool) (n m : ℕ) (t : ℕ → Option ℕ) (c : ℕ) : Prop where
  /-- labels so far are exactly `0..c-1` -/
  labels : ∀ v, v < c ↔ ∃ j < m, t j = some v
  /-- processed atoms are labelled -/
  done : ∀ j < m, (t j).isSome
  /-- a processed atom carries the label of its last partner, or a new one -/
  rule : ∀ j < m, (∃ i < j, same i j ∧ t j = t i ∧ ∀ i', i < i' → i' < j → same i' j = false) ∨
    ((∀ i < j, same i j = false) ∧
      ∀ v, t j = some v → ∀ u, u < v ↔ ∃ i < j, t i = some u)
  /-- an atom still to be processed carries the label of its last processed partner, if any -/
  pending : ∀ j, m ≤ j → j < n →
    (∃ i < m, same i j ∧ t j = t i ∧ ∀ i', i < i' → i' < m → same i' j = false) ∨
    ((∀ i < m, same i j = false) ∧ t j = none)

theorem typeInv_loop (same : ℕ → ℕ → Bool) (n m : ℕ) (hm : m ≤ n) :
    TypeInv same n m ((List.range m).foldl (typeOuter same n) (fun _ => none, 0)).1
      ((List.range m).foldl (typeOuter same n) (fun _ => none, 0)).2 := by
  induction m with
  | zero => constructor <;> simp
  | succ m ih =>
    have ih := ih (by omega)
    rw [List.range_succ, List.foldl_append]
    simp only [List.foldl_cons, List.foldl_nil]
    generalize (List.range m).foldl (typeOuter same n) (fun _ => none, 0) = st at ih ⊢
    obtain ⟨t, c⟩ := st
    simp only at ih
    -- the state after the conditional assignment of a new label
    obtain ⟨t1, c1, hst1, hmem, hlt, hlabels⟩ : ∃ t1 c1,
        (if (t m).isNone then (Function.update t m (some c), c + 1) else (t, c)) = (t1, c1) ∧
        (∃ v, t1 m = some v ∧
          ((∃ i < m, same i m ∧ some v = t i ∧ ∀ i', i < i' → i' < m → same i' m = false) ∨
          ((∀ i < m, same i m = false) ∧ ∀ u, u < v ↔ ∃ i < m, t i = some u))) ∧
        (∀ j, j ≠ m → t1 j = t j) ∧ (∀ v, v < c1 ↔ ∃ j < m + 1, t1 j = some v) := by
      rcases ih.pending m le_rfl (by omega) with ⟨i, him, hs, he, hlast⟩ | ⟨hns, hnone⟩
      · have hsome := ih.done i him
        obtain ⟨v, hv⟩ := Option.isSome_iff_exists.1 hsome
        have hm' : t m = some v := by rw [he, hv]
        refine ⟨t, c, by simp [hm'], ⟨v, hm', Or.inl ⟨i, him, hs, by rw [hv], hlast⟩⟩,
          fun _ _ => rfl, ?_⟩
        intro u
        rw [ih.labels u]
        constructor
        · rintro ⟨j, hj, e⟩; exact ⟨j, by omega, e⟩
        · rintro ⟨j, hj, e⟩
          rcases Nat.lt_succ_iff_lt_or_eq.1 hj with h | h
          · exact ⟨j, h, e⟩
          · subst h; exact ⟨i, him, by rw [← he, e]⟩
      · refine ⟨Function.update t m (some c), c + 1, by simp [hnone], ⟨c, by simp, Or.inr ⟨hns, ih.labels⟩⟩,
          fun j hj => Function.update_of_ne hj _ _, ?_⟩
        intro u
        constructor
        · intro hu
          rcases Nat.lt_succ_iff_lt_or_eq.1 hu with h | h
          · obtain ⟨j, hj, e⟩ := (ih.labels u).1 h
            exact ⟨j, by omega, by rw [Function.update_of_ne (by omega), e]⟩
          · subst h; exact ⟨m, by omega, by simp⟩
        · rintro ⟨j, hj, e⟩
          by_cases hjm : j = m
          · subst hjm; simp at e; omega
          · rw [Function.update_of_ne hjm] at e
            have := (ih.labels u).2 ⟨j, by omega, e⟩
            omega
    obtain ⟨v, hv, hrule⟩ := hmem
    have hstep : typeOuter same n (t, c) m =
        ((List.range' (m + 1) (n - (m + 1))).foldl (typeInner same m) t1, c1) := by
      unfold typeOuter
      simp only [hst1]
    rw [hstep]
    have hval : ∀ j, (List.range' (m + 1) (n - (m + 1))).foldl (typeInner same m) t1 j =
        if m < j ∧ j < n ∧ same m j then t1 m else t1 j := by
      intro j
      rw [typeInner_foldl]
      congr 1
      apply propext
      constructor <;> rintro ⟨a, b, c⟩ <;> exact ⟨a, by omega, c⟩
    generalize hT : (List.range' (m + 1) (n - (m + 1))).foldl (typeInner same m) t1 = T at hval ⊢
    have hle : ∀ j ≤ m, T j = t1 j := by
      intro j hj; rw [hval, if_neg (by omega)]
    have hlt' : ∀ j < m, T j = t j := by
      intro j hj; rw [hle j (by omega), hlt j (by omega)]
    change TypeInv same n (m + 1) T c1
    constructor
    · intro u
      rw [hlabels u]
      constructor
      · rintro ⟨j, hj, e⟩; exact ⟨j, hj, by rw [hle j (by omega), e]⟩
      · rintro ⟨j, hj, e⟩; exact ⟨j, hj, by rw [← hle j (by omega), e]⟩
    · intro j hj
      rcases Nat.lt_succ_iff_lt_or_eq.1 hj with h | h
      · rw [hlt' j h]; exact ih.done j h
      · subst h; rw [hle j le_rfl, hv]; rfl
    · intro j hj
      rcases Nat.lt_succ_iff_lt_or_eq.1 hj with h | h
      · rcases ih.rule j h with ⟨i, hij, hs, he, hl⟩ | ⟨hns, hn⟩
        · exact Or.inl ⟨i, hij, hs, by rw [hlt' j h, hlt' i (by omega), he], hl⟩
        · refine Or.inr ⟨hns, fun u hu w => ?_⟩
          rw [hlt' j h] at hu
          rw [hn u hu w]
          constructor <;> rintro ⟨i, hi, e⟩ <;> refine ⟨i, hi, ?_⟩
          · rw [hlt' i (by omega), e]
          · rw [← hlt' i (by omega), e]
      · subst h
        rcases hrule with ⟨i, hij, hs, he, hl⟩ | ⟨hns, hn⟩
        · exact Or.inl ⟨i, hij, hs, by rw [hle j le_rfl, hlt' i hij, hv, he], hl⟩
        · refine Or.inr ⟨hns, fun u hu w => ?_⟩
          rw [hle j le_rfl, hv] at hu
          cases hu
          rw [hn w]
          constructor <;> rintro ⟨i, hi, e⟩ <;> refine ⟨i, hi, ?_⟩
          · rw [hlt' i hi, e]
          · rw [← hlt' i hi, e]
    · intro j hj hjn
      by_cases hs : same m j
      · refine Or.inl ⟨m, by omega, hs, ?_, fun i' h1 h2 => by omega⟩
        rw [hval, if_pos ⟨by omega, hjn, hs⟩, hle m le_rfl]
      · have hT' : T j = t j := by rw [hval, if_neg (by tauto), hlt j (by omega)]
        simp only [Bool.not_eq_true] at hs
        rcases ih.pending j (by omega) hjn with ⟨i, him, hs', he, hl⟩ | ⟨hns, hn⟩
        · refine Or.inl ⟨i, by omega, hs', by rw [hT', hlt' i him, he], fun i' h1 h2 => ?_⟩
          by_cases h3 : i' = m
          · subst h3; exact hs
          · exact hl i' h1 (by omega)
        · refine Or.inr ⟨fun i hi => ?_, by rw [hT', hn]⟩
          by_cases h3 : i = m
          · subst h3; exact hs
          · exact hns i (by omega)

theorem getElem?_typeLabels (same : ℕ → ℕ → Bool) (n i : ℕ) (hi : i < n) :
    (typeLabels same n)[i]? = some (((typeLoop same n).1 i).getD 0) := by
  simp [typeLabels, hi]

/-- No entry of the label array is `None` at the end (so the cast to `int` at atoms.py:309 cannot fail). -/
theorem typeLoop_all_some (same : ℕ → ℕ → Bool) (n i : ℕ) (hi : i < n) : ((typeLoop same n).1 i).isSome :=
  (typeInv_loop same n n le_rfl).done i hi

theorem typeLoop_eq_some (same : ℕ → ℕ → Bool) (n i : ℕ) (hi : i < n) :
    (typeLoop same n).1 i = (typeLabels same n)[i]? := by
  rw [getElem?_typeLabels _ _ _ hi]
  obtain ⟨v, hv⟩ := Option.isSome_iff_exists.1 (typeLoop_all_some same n i hi)
  rw [hv]; rfl

/-- C06: exact description of the labels: the label of atom `j` is that of the *last* earlier atom
equivalent to it; if there is none, it is a new label and the labels of the earlier atoms are exactly the
smaller numbers. -/
theorem C06_rule (same : ℕ → ℕ → Bool) (n j v : ℕ) (hj : (typeLabels same n)[j]? = some v) :
    (∃ i < j, same i j ∧ (typeLabels same n)[i]? = some v ∧
        ∀ i', i < i' → i' < j → same i' j = false) ∨
    ((∀ i < j, same i j = false) ∧ ∀ u, u < v ↔ ∃ i < j, (typeLabels same n)[i]? = some u) := by
  have inv := typeInv_loop same n n le_rfl
  have hjn : j < n := by
    by_contra h
    rw [List.getElem?_eq_none (by simp [typeLabels]; omega)] at hj
    cases hj
  change TypeInv same n n (typeLoop same n).1 (typeLoop same n).2 at inv
  rcases inv.rule j hjn with ⟨i, hij, hs, he, hl⟩ | ⟨hns, hn⟩
  · refine Or.inl ⟨i, hij, hs, ?_, hl⟩
    rw [← typeLoop_eq_some _ _ _ (by omega), ← he, typeLoop_eq_some _ _ _ hjn, hj]
  · refine Or.inr ⟨hns, fun u => ?_⟩
    rw [hn v (by rw [typeLoop_eq_some _ _ _ hjn, hj]) u]
    constructor <;> rintro ⟨i, hi, e⟩ <;> refine ⟨i, hi, ?_⟩
    · rw [← typeLoop_eq_some _ _ _ (by omega), e]
    · rw [typeLoop_eq_some _ _ _ (by omega), e]

/-- C06: labels first occur in increasing order: every smaller label has occurred before. -/
theorem C06_first_occurrence (same : ℕ → ℕ → Bool) (n j v u : ℕ)
    (hj : (typeLabels same n)[j]? = some v) (hu : u < v) : ∃ i < j, (typeLabels same n)[i]? = some u := by
  induction j using Nat.strong_induction_on generalizing v with
  | _ j ih =>
    rcases C06_rule same n j v hj with ⟨i, hij, _, he, _⟩ | ⟨_, h⟩
    · obtain ⟨k, hk, e⟩ := ih i hij v he hu
      exact ⟨k, by omega, e⟩
    · exact (h u).1 hu

/-- C06: the labels are exactly `0, ..., T-1`, where `T` is the number of distinct labels, which is what
`get_number_of_atom_types` and `get_number_of_primitive_atoms` return. -/
theorem C06_labels (same : ℕ → ℕ → Bool) (n : ℕ) :
    ∀ v, v ∈ typeLabels same n ↔ v < (typeLabels same n).toFinset.card := by
  have inv := typeInv_loop same n n le_rfl
  change TypeInv same n n (typeLoop same n).1 (typeLoop same n).2 at inv
  have hmem : ∀ v, v ∈ typeLabels same n ↔ v < (typeLoop same n).2 := by
    intro v
    rw [inv.labels v, List.mem_iff_getElem?]
    constructor
    · rintro ⟨i, hi⟩
      have hin : i < n := by
        by_contra h
        rw [List.getElem?_eq_none (by simp [typeLabels]; omega)] at hi
        cases hi
      exact ⟨i, hin, by rw [typeLoop_eq_some _ _ _ hin, hi]⟩
    · rintro ⟨i, hi, e⟩
      exact ⟨i, by rw [← typeLoop_eq_some _ _ _ hi, e]⟩
  have hset : (typeLabels same n).toFinset = Finset.range (typeLoop same n).2 := by
    ext v
    rw [List.mem_toFinset, hmem, Finset.mem_range]
  intro v
  rw [hmem, hset, Finset.card_range]

/-- C06: if "equivalent" is an equivalence relation on the atoms, two atoms get the same label iff they
are equivalent. -/
theorem C06_classes (same : ℕ → ℕ → Bool) (n : ℕ) (R : ℕ → ℕ → Prop) (hR : Equivalence R)
    (hsame : ∀ i j, i < j → j < n → (same i j = true ↔ R i j)) (i j : ℕ) (hi : i < n) (hj : j < n) :
    (typeLabels same n)[i]? = (typeLabels same n)[j]? ↔ R i j := by
  have hsomeL : ∀ k < n, ∃ v, (typeLabels same n)[k]? = some v := by
    intro k hk; exact ⟨_, getElem?_typeLabels _ _ _ hk⟩
  -- for i < j by strong induction
  have key : ∀ j, j < n → ∀ i < j, ((typeLabels same n)[i]? = (typeLabels same n)[j]? ↔ R i j) := by
    intro j
    induction j using Nat.strong_induction_on with
    | _ j ih =>
      intro hj i hij
      have IH : ∀ a b, a < j → b < j → ((typeLabels same n)[a]? = (typeLabels same n)[b]? ↔ R a b) := by
        intro a b ha hb
        rcases lt_trichotomy a b with h | h | h
        · exact ih b hb (by omega) a h
        · subst h; simp [hR.refl]
        · rw [eq_comm, ih a ha (by omega) b h]
          exact ⟨fun x => hR.symm x, fun x => hR.symm x⟩
      obtain ⟨v, hv⟩ := hsomeL j hj
      rcases C06_rule same n j v hv with ⟨p, hpj, hs, he, _⟩ | ⟨hns, hnew⟩
      · have hpR := (hsame p j hpj hj).1 hs
        rw [hv, ← he, IH i p hij hpj]
        exact ⟨fun h => hR.trans h hpR, fun h => hR.trans h (hR.symm hpR)⟩
      · constructor
        · intro h
          have := (hnew v).2 ⟨i, hij, by rw [h, hv]⟩
          omega
        · intro h
          have h1 := (hsame i j hij hj).2 h
          rw [hns i hij] at h1
          cases h1
  rcases lt_trichotomy i j with h | h | h
  · exact key j hj i h
  · subst h; simp [hR.refl]
  · rw [eq_comm, key i hi j h]
    exact ⟨fun x => hR.symm x, fun x => hR.symm x⟩

/-- Non-vacuity: with equivalence "same parity" the labels are 0,1,0,1,0. -/
example : typeLabels (fun i j => i % 2 == j % 2) 5 = [0, 1, 0, 1, 0] := by decide

example : Equivalence (fun i j : ℕ => i % 2 = j % 2) :=
  ⟨fun _ => rfl, fun h => h.symm, fun h g => h.trans g⟩

/-- Without transitivity a label can even be reassigned: atom 2 is close to 0 and to 1, but 0 and 1 are not
close to each other. -/
example : typeLabels (fun i j => (i, j) == (0, 2) || (i, j) == (1, 2)) 3 = [0, 1, 1] := by decide

end Verif
