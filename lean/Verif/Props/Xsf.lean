import Verif.Model.Xsf
import Verif.Props.AtomTypes

/-! # C63, C82: XSF files and types by element -/

set_option autoImplicit false
set_option linter.unusedSectionVars false

namespace Verif

/-- Atom `i` is the first one of type `v`. -/
def IsFirstOfType (labels : List ℕ) (v i : ℕ) : Prop := labels[i]? = some v ∧ ∀ j < i, labels[j]? ≠ some v

theorem find_firstOfType (labels : List ℕ) (v i : ℕ) : ((List.range labels.length).find? fun i => labels[i]? = some v) = some i ↔ IsFirstOfType labels v i := by
  rw [List.find?_range_eq_some]
  unfold IsFirstOfType
  constructor
  · rintro ⟨h1, h2, h3⟩
    exact ⟨by simpa using h1, fun j hj => by simpa using h3 j hj⟩
  · rintro ⟨h1, h2⟩
    exact ⟨by simpa using h1, List.mem_range.2 (List.getElem?_eq_some_iff.1 h1).1, fun j hj => by simpa using h2 j hj⟩

theorem find_none_ofType (labels : List ℕ) (v : ℕ) : ((List.range labels.length).find? fun i => labels[i]? = some v) = none ↔ v ∉ labels := by
  rw [List.find?_eq_none, List.mem_iff_getElem?]
  constructor
  · rintro h ⟨i, hi⟩
    have := h i (List.mem_range.2 (List.getElem?_eq_some_iff.1 hi).1)
    simp [hi] at this
  · intro h i _
    simp only [decide_eq_true_eq]
    exact fun hi => h ⟨i, hi⟩

/-- The invariant of the loop. -/
theorem xsfRun_inv (labels : List ℕ) (types k : ℕ) :
    (xsfRun labels types k).1 ≤ types ∧ (xsfRun labels types k).2.length = (xsfRun labels types k).1 ∧
    (∀ v i, (xsfRun labels types k).2[v]? = some i → IsFirstOfType labels v i) ∧
    ((xsfRun labels types k).1 = min k types ∨ ((xsfRun labels types k).1 < types ∧ (xsfRun labels types k).1 ∉ labels)) := by
  induction k with
  | zero => simp [xsfRun]
  | succ k ih =>
    obtain ⟨h1, h2, h3, h4⟩ := ih
    rw [xsfRun]
    by_cases hlt : (xsfRun labels types k).1 < types
    · rw [if_pos hlt]
      unfold xsfStep
      cases hf : (List.range labels.length).find? fun i => labels[i]? = some (xsfRun labels types k).1 with
      | none =>
        refine ⟨h1, h2, h3, Or.inr ⟨hlt, (find_none_ofType _ _).1 hf⟩⟩
      | some i =>
        have hi := (find_firstOfType _ _ _).1 hf
        refine ⟨hlt, by simp [h2], fun v j hv => ?_, ?_⟩
        · rcases lt_trichotomy v (xsfRun labels types k).1 with h | h | h
          · rw [List.getElem?_append_left (by omega)] at hv
            exact h3 v j hv
          · rw [List.getElem?_append_right (by omega), h2, h] at hv
            simp at hv
            rw [h, ← hv]; exact hi
          · rw [List.getElem?_append_right (by omega)] at hv
            rw [List.getElem?_eq_none (by simp; omega)] at hv
            simp at hv
        · rcases h4 with h4 | h4
          · left; simp only; omega
          · exact absurd (List.mem_iff_getElem?.2 ⟨i, hi.1⟩) h4.2
    · rw [if_neg hlt]
      refine ⟨h1, h2, h3, ?_⟩
      rcases h4 with h4 | h4
      · left; omega
      · exact absurd h4.1 hlt

/-- **C63**: for any labels and number of types the loop ends iff every type less than that number occurs; then exactly one atom is written per type, in the order of the types, the first atom of the type. -/
theorem C63_ends_iff (labels : List ℕ) (types : ℕ) :
    ((∃ out, XsfWrites labels types out) ↔ ∀ v < types, v ∈ labels) ∧
    ∀ out, XsfWrites labels types out → out.length = types ∧ ∀ v i, out[v]? = some i → IsFirstOfType labels v i := by
  constructor
  · constructor
    · rintro ⟨out, k, hk, rfl⟩ v hv
      obtain ⟨h1, h2, h3, _⟩ := xsfRun_inv labels types k
      have hv' : v < (xsfRun labels types k).2.length := by omega
      exact List.mem_iff_getElem?.2 ⟨_, (h3 v _ (List.getElem?_eq_getElem hv')).1⟩
    · intro h
      refine ⟨_, types, ?_, rfl⟩
      obtain ⟨h1, h2, h3, h4⟩ := xsfRun_inv labels types types
      rcases h4 with h4 | h4
      · omega
      · exact absurd (h _ h4.1) h4.2
  · rintro out ⟨k, hk, rfl⟩
    obtain ⟨h1, h2, h3, _⟩ := xsfRun_inv labels types k
    exact ⟨by omega, h3⟩

/-- **C63** for the types that DynaPhoPy computes itself: `write_xsf_file` ends for every structure, and writes one atom per type, in order; their number is the announced number of primitive atoms. -/
theorem C63_computed (same : ℕ → ℕ → Bool) (n : ℕ) :
    ∃ out, XsfWrites (typeLabels same n) (typeLabels same n).toFinset.card out ∧ out.length = (typeLabels same n).toFinset.card ∧
      ∀ v i, out[v]? = some i → IsFirstOfType (typeLabels same n) v i := by
  obtain ⟨out, h⟩ := (C63_ends_iff (typeLabels same n) (typeLabels same n).toFinset.card).1.2 fun v hv => (C06_labels same n v).2 hv
  exact ⟨out, h, (C63_ends_iff _ _).2 out h⟩

/-- Types given by the user (`atom_type_index` of the constructor) need not be `0, 1, ...`: then the loop never ends. -/
theorem C63_user_types_violated (labels : List ℕ) (v : ℕ) (hv : v < labels.toFinset.card) (hn : v ∉ labels) : ¬ ∃ out, XsfWrites labels labels.toFinset.card out :=
  fun h => hn ((C63_ends_iff labels _).1.1 h v hv)

/-- Two atoms types numbered from 1. -/
example : (0 : ℕ) < [1, 2, 2].toFinset.card ∧ 0 ∉ [1, 2, 2] := by decide

/-- A cell with atoms 0, 2 of one type and 1, 3, 4 of another. -/
example : XsfWrites (typeLabels (fun i j => i % 2 = j % 2) 5) 2 [0, 1] := ⟨2, by decide +kernel, by decide +kernel⟩

/-! ## C82 -/

/-- **C82**, the part that holds: if the first atoms of the cell are one of each element, two atoms get the same type iff they are the same element, and the types are `0, ..., T-1`. -/
theorem C82_element_partial (numbers : List ℕ) (h : (numbers.take numbers.toFinset.card).Nodup) :
    (∀ i j (hi : i < numbers.length) (hj : j < numbers.length), (elementTypes numbers)[i]? = (elementTypes numbers)[j]? ↔ numbers[i] = numbers[j]) ∧
    ∀ v, v ∈ elementTypes numbers ↔ v < numbers.toFinset.card := by
  set T := numbers.toFinset.card with hT
  have hTn : T ≤ numbers.length := List.toFinset_card_le numbers
  have hlen : (numbers.take T).length = T := by rw [List.length_take]; omega
  -- the first T atoms contain every element
  have hsub : (numbers.take T).toFinset = numbers.toFinset := by
    apply Finset.eq_of_subset_of_card_le
    · intro x hx; rw [List.mem_toFinset] at *; exact List.mem_of_mem_take hx
    · rw [List.toFinset_card_of_nodup h, hlen]
  have hex : ∀ z ∈ numbers, ∃ k < T, numbers[k]? = some z := by
    intro z hz
    have : z ∈ numbers.take T := by rw [← List.mem_toFinset, hsub, List.mem_toFinset]; exact hz
    obtain ⟨k, hk⟩ := List.mem_iff_getElem?.1 this
    have hk' : k < T := by have := (List.getElem?_eq_some_iff.1 hk).1; omega
    exact ⟨k, hk', by rw [List.getElem?_take_of_lt hk'] at hk; exact hk⟩
  have huniq : ∀ k k' z, k < T → k' < T → numbers[k]? = some z → numbers[k']? = some z → k = k' := by
    intro k k' z hk hk' h1 h2
    have e1 : (numbers.take T)[k]? = some z := by rw [List.getElem?_take_of_lt hk]; exact h1
    have e2 : (numbers.take T)[k']? = some z := by rw [List.getElem?_take_of_lt hk']; exact h2
    exact (List.getElem?_inj (by omega) h).1 (e1.trans e2.symm)
  have hval : ∀ k z, k < T → numbers[k]? = some z → (((List.range T).filter fun index => numbers[index]? = some z).getLast?).getD z = k := by
    intro k z hk hz
    have hall : ∀ x ∈ (List.range T).filter (fun index => numbers[index]? = some z), x = k := by
      intro x hx
      rw [List.mem_filter, List.mem_range] at hx
      exact huniq x k z hx.1 hk (by simpa using hx.2) hz
    have hmem : k ∈ (List.range T).filter (fun index => numbers[index]? = some z) := by
      rw [List.mem_filter, List.mem_range]; exact ⟨hk, by simpa using hz⟩
    cases hg : ((List.range T).filter fun index => numbers[index]? = some z).getLast? with
    | none => rw [List.getLast?_eq_none_iff] at hg; rw [hg] at hmem; simp at hmem
    | some x => exact hall x (List.mem_of_getLast? hg)
  constructor
  · intro i j hi hj
    obtain ⟨k, hk, ek⟩ := hex numbers[i] (List.getElem_mem hi)
    obtain ⟨k', hk', ek'⟩ := hex numbers[j] (List.getElem_mem hj)
    have e1 : (elementTypes numbers)[i]? = some k := by
      unfold elementTypes
      rw [List.getElem?_map, List.getElem?_eq_getElem hi, Option.map_some, ← hT, hval k _ hk ek]
    have e2 : (elementTypes numbers)[j]? = some k' := by
      unfold elementTypes
      rw [List.getElem?_map, List.getElem?_eq_getElem hj, Option.map_some, ← hT, hval k' _ hk' ek']
    rw [e1, e2, Option.some.injEq]
    constructor
    · rintro rfl; rw [ek] at ek'; exact Option.some.inj ek'
    · intro e; rw [← e] at ek'; exact huniq k k' _ hk hk' ek ek'
  · intro v
    unfold elementTypes
    rw [List.mem_map, ← hT]
    constructor
    · rintro ⟨z, hz, rfl⟩
      obtain ⟨k, hk, ek⟩ := hex z hz
      rw [hval k z hk ek]; exact hk
    · intro hv
      have hv' : v < numbers.length := by omega
      exact ⟨numbers[v], List.getElem_mem hv', hval v _ hv (List.getElem?_eq_getElem hv')⟩

/-- C82 is violated: a cell with two atoms of silicon and one of hydrogen gets a single type for the three atoms; one with two silicon atoms and an oxygen gets the types 1, 1 and 8, for which
`write_xsf_file` never ends. -/
theorem C82_violated : elementTypes [14, 14, 1] = [1, 1, 1] ∧ elementTypes [14, 14, 8] = [1, 1, 8] ∧
    ¬ ∃ out, XsfWrites (elementTypes [14, 14, 8]) (elementTypes [14, 14, 8]).toFinset.card out := by
  refine ⟨by decide +kernel, by decide +kernel, C63_user_types_violated _ 0 (by decide +kernel) (by decide +kernel)⟩

/-- The hypothesis of `C82_element_partial`: Na, Cl, Na, Na, Cl. -/
example : (List.take ([11, 17, 11, 11, 17] : List ℕ).toFinset.card [11, 17, 11, 11, 17]).Nodup := by decide +kernel

end Verif
