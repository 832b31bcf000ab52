import Verif.Props.Defined

/-! # C145: the full power spectrum of one atom type and one coordinate -/

set_option autoImplicit false

namespace Verif

section C145
variable {C R : Type*} [AddCommMonoid R]

theorem type_index_nil (types : List ℕ) (t : ℕ) :
    ((List.range types.length).filter fun i => decide (types.getD i 0 = t)) = [] ↔ t ∉ types := by
  rw [List.filter_eq_nil_iff]
  constructor
  · intro h ht
    obtain ⟨i, hi, e⟩ := List.getElem_of_mem ht
    refine h i (List.mem_range.2 hi) ?_
    simp [List.getD_eq_getElem?_getD, List.getElem?_eq_getElem hi, e]
  · intro h i hi
    have hi' := List.mem_range.1 hi
    simp only [List.getD_eq_getElem?_getD, List.getElem?_eq_getElem hi', Option.getD_some, decide_eq_true_eq]
    intro e
    exact h (e ▸ List.getElem_mem hi')

/-- C145: `get_power_spectrum_full(projection_on_coordinate=c)` of a new object that projects onto atom type `t` ends the
program unless there is an atom of that type and the coordinate exists; otherwise it is the sum of the spectra of that
coordinate of the atoms of the type. -/
theorem C145_coordinate (alg : C → ℕ → R) (v : ℕ → ℕ → C) (types : List ℕ) (t c dims f : ℕ) :
    (selectAtoms v types t c dims).map (fun p => fullSpectrumLoud alg p.1 p.2.1 p.2.2 f)
      = if t ∈ types ∧ c < dims then
          some (∑ i ∈ (Finset.range types.length).filter (fun i => types.getD i 0 = t), alg (v i c) f)
        else none := by
  unfold selectAtoms
  rw [if_neg (by omega)]
  simp only [Int.natCast_inj]
  by_cases ht : t ∈ types
  · rw [if_neg (mt (type_index_nil types t).1 (not_not.2 ht))]
    by_cases hc : c < dims
    · rw [if_neg (by omega), if_pos (by omega), if_pos ⟨ht, hc⟩]
      simp only [Option.map_some, Int.toNat_natCast]
      congr 1
      rw [fullSpectrumLoud_eq, ← sum_map_filter_range]
      simp only [Finset.range_one, Finset.sum_singleton]
      rw [← sum_map_range]
      congr 1
      set idx := (List.range types.length).filter fun i => decide (types.getD i 0 = t) with hidx
      apply List.ext_getElem
      · simp [hidx]
      · intro n h1 h2
        simp only [List.length_map, List.length_range] at h1
        simp only [List.getElem_map, List.getElem_range, List.getD_eq_getElem?_getD, List.getElem?_eq_getElem h1,
          Option.getD_some]
    · rw [if_pos (by omega), if_neg (by tauto)]
      rfl
  · rw [if_pos ((type_index_nil types t).2 ht), if_neg (by tauto)]
    rfl

/-- C145: every negative coordinate means all coordinates. -/
theorem C145_negative (v : ℕ → ℕ → C) (types : List ℕ) (t c : ℤ) (dims : ℕ) (hc : c < 0) :
    selectAtoms v types t c dims = selectAtoms v types t (-1) dims := by
  unfold selectAtoms
  by_cases h : t < 0
  · rw [if_pos h, if_pos h]
  · rw [if_neg h, if_neg h]
    simp only []
    rw [if_neg (by omega : ¬ (dims : ℤ) ≤ c), if_neg (by omega : ¬ -1 < c), if_neg (by omega : ¬ (dims : ℤ) ≤ -1),
      if_neg (by omega : ¬ (-1 : ℤ) < -1)]

/-- C145: the spectra of all coordinates of an atom type add up to the spectrum of the type, and the spectra of all types and
coordinates to the full spectrum, without anything counted twice or left out. `p t c` is the spectrum returned for the atom
type `t` and the coordinate `c` by a new object, `q t` that of the type, types are numbered below `n`; a type without atoms
ends the program, and contributes nothing. -/
theorem C145_complete (alg : C → ℕ → R) (v : ℕ → ℕ → C) (types : List ℕ) (n dims f : ℕ) (hn : ∀ t ∈ types, t < n)
    (p : ℕ → ℕ → R) (q : ℕ → R)
    (hp : ∀ t c, p t c = ((selectAtoms v types t c dims).map fun s => fullSpectrumLoud alg s.1 s.2.1 s.2.2 f).getD 0)
    (hq : ∀ t, q t = ((selectAtoms v types t (-1) dims).map fun s => fullSpectrumLoud alg s.1 s.2.1 s.2.2 f).getD 0) :
    (∀ t, ∑ c ∈ Finset.range dims, p t c = q t) ∧
    ∑ t ∈ Finset.range n, ∑ c ∈ Finset.range dims, p t c = fullSpectrumLoud alg v types.length dims f := by
  have hempty : ∀ t, t ∉ types → (Finset.range types.length).filter (fun i => types.getD i 0 = t) = ∅ := by
    intro t ht
    rw [Finset.filter_eq_empty_iff]
    intro i hi e
    have hi' := Finset.mem_range.1 hi
    simp only [List.getD_eq_getElem?_getD, List.getElem?_eq_getElem hi', Option.getD_some] at e
    exact ht (e ▸ List.getElem_mem hi')
  have hpc : ∀ t, ∀ c ∈ Finset.range dims,
      p t c = ∑ i ∈ (Finset.range types.length).filter (fun i => types.getD i 0 = t), alg (v i c) f := by
    intro t c hc
    rw [hp, C145_coordinate]
    by_cases ht : t ∈ types
    · rw [if_pos ⟨ht, Finset.mem_range.1 hc⟩]; rfl
    · rw [if_neg (by tauto), hempty t ht]; rfl
  have hqt : ∀ t, q t = ∑ i ∈ (Finset.range types.length).filter (fun i => types.getD i 0 = t),
      ∑ j ∈ Finset.range dims, alg (v i j) f := by
    intro t
    rw [hq]
    cases h : selectAtoms v types t (-1) dims with
    | none =>
      have : t ∉ types := by
        intro ht
        have := (C32_selected v types t dims).2 ht
        rw [h] at this; simp at this
      rw [hempty t this]; rfl
    | some s =>
      obtain ⟨w, a, d⟩ := s
      exact C32_projected alg v types t dims f w a d h
  have h1 : ∀ t, ∑ c ∈ Finset.range dims, p t c = q t := by
    intro t
    rw [hqt, Finset.sum_congr rfl (hpc t), Finset.sum_comm]
  refine ⟨h1, ?_⟩
  rw [Finset.sum_congr rfl fun t _ => h1 t, Finset.sum_congr rfl fun t _ => hqt t, fullSpectrumLoud_eq]
  rw [Finset.sum_fiberwise_of_maps_to]
  intro i hi
  have hi' := Finset.mem_range.1 hi
  simp only [List.getD_eq_getElem?_getD, List.getElem?_eq_getElem hi', Option.getD_some, Finset.mem_range]
  exact hn _ (List.getElem_mem hi')

/-- C145, violated for all inputs: without an atom type the coordinate asked for is ignored, even one that does not exist: the
spectrum is that of all atoms and coordinates. -/
theorem C145_ignored_violated (alg : C → ℕ → R) (v : ℕ → ℕ → C) (types : List ℕ) (t c : ℤ) (ht : t < 0) (dims f : ℕ) :
    (selectAtoms v types t c dims).map (fun p => fullSpectrumLoud alg p.1 p.2.1 p.2.2 f)
      = some (∑ i ∈ Finset.range types.length, ∑ j ∈ Finset.range dims, alg (v i j) f) := by
  unfold selectAtoms
  rw [if_pos ht]
  simp only [Option.map_some]
  rw [fullSpectrumLoud_eq]

/-- Three atoms of two types: the `y` coordinate of type 0 is the sum of those of atoms 0 and 2. -/
example : (selectAtoms (fun i j => (10 * i + j : ℕ)) [0, 1, 0] 0 1 3).map
    (fun p => fullSpectrumLoud (fun x _ => x) p.1 p.2.1 p.2.2 0) = some (1 + 21) := by
  have := C145_coordinate (fun (x : ℕ) (_ : ℕ) => x) (fun i j => (10 * i + j : ℕ)) [0, 1, 0] 0 1 3 0
  simp only [Nat.cast_zero, Nat.cast_one] at this
  rw [this]; decide

end C145

end Verif
