import Verif.Model.Elements
import Verif.Util
import Verif.Props.Text

/-! # C09: element, atomic number and mass inference -/

set_option autoImplicit false

namespace Verif

/-- Specification: `e` is a chemical symbol with atomic number `z ≥ 1` and tabulated mass `m`. -/
def IsElement (e : String) (z : ℕ) (m : ℚ) : Prop := 1 ≤ z ∧ atomData[z]? = some (e, m)

/-- Whole-table check: every row of `atom_data` but the dummy row 0 is found by `symbol_map`. -/
theorem symbolMap_table : (List.range 119).all (fun z => z == 0 ||
    (match atomData[z]? with | some (e, _) => symbolMap.lookup e == some z | none => false)) = true := by
  decide +kernel

/-- Whole-table check: a non-zero tabulated mass matches exactly one row of the table. -/
theorem tenths_table : atomData.all (fun r => r.2 == 0 ||
    ((atomData.filter fun j => tenths r.2 = tenths j.2).map Prod.fst == [r.1])) = true := by
  decide +kernel

theorem atomData_length : atomData.length = 119 := by decide

theorem lookup_of_isElement {e : String} {z : ℕ} {m : ℚ} (h : IsElement e z m) :
    symbolMap.lookup e = some z := by
  have hz : z < 119 := by
    by_contra hz
    rw [IsElement, List.getElem?_eq_none (by rw [atomData_length]; omega)] at h
    exact absurd h.2 (by simp)
  have := List.all_eq_true.1 symbolMap_table z (List.mem_range.2 hz)
  rw [h.2] at this
  have hz0 : (z == 0) = false := by simp; have := h.1; omega
  rw [hz0] at this
  simpa using this

theorem filter_of_isElement {e : String} {z : ℕ} {m : ℚ} (h : IsElement e z m) (hm : m ≠ 0) :
    ((atomData.filter fun j => tenths m = tenths j.2).map Prod.fst) = [e] := by
  have := List.all_eq_true.1 tenths_table (e, m) (List.mem_of_getElem? h.2)
  simpa [hm] using this

/-- C09: built from element symbols, every atom gets the atomic number and the mass of its symbol. -/
theorem C09_from_elements (atoms : List (String × ℕ × ℚ)) (h : ∀ a ∈ atoms, IsElement a.1 a.2.1 a.2.2) :
    initAtoms none none (some (atoms.map fun a => a.1))
      = some (some (atoms.map fun a => a.1), some (atoms.map fun a => a.2.1), atoms.map fun a => a.2.2) := by
  have h1 : inferNumbers (atoms.map fun a => a.1) = some (atoms.map fun a => a.2.1) := by
    unfold inferNumbers
    induction atoms with
    | nil => rfl
    | cons a as ih =>
      rw [List.map_cons, List.mapM_cons, lookup_of_isElement (h a (by simp)),
        ih (fun b hb => h b (by simp [hb]))]
      rfl
  have h2 : inferMasses (atoms.map fun a => a.2.1) = some (atoms.map fun a => a.2.2) := by
    clear h1
    unfold inferMasses
    induction atoms with
    | nil => rfl
    | cons a as ih =>
      rw [List.map_cons, List.mapM_cons, (h a (by simp)).2, ih (fun b hb => h b (by simp [hb]))]
      rfl
  simp [initAtoms, initNumbers, initElements, h1, h2]

/-- C09: built from non-zero tabulated masses, exactly one element per atom is found, the right one, with its atomic
number; the masses are kept. -/
theorem C09_from_masses (atoms : List (String × ℕ × ℚ))
    (h : ∀ a ∈ atoms, IsElement a.1 a.2.1 a.2.2 ∧ a.2.2 ≠ 0) :
    initAtoms (some (atoms.map fun a => a.2.2)) none none
      = some (some (atoms.map fun a => a.1), some (atoms.map fun a => a.2.1), atoms.map fun a => a.2.2) := by
  have h1 : inferNumbers (atoms.map fun a => a.1) = some (atoms.map fun a => a.2.1) := by
    unfold inferNumbers
    induction atoms with
    | nil => rfl
    | cons a as ih =>
      rw [List.map_cons, List.mapM_cons, lookup_of_isElement (h a (by simp)).1,
        ih (fun b hb => h b (by simp [hb]))]
      rfl
  have h2 : inferElements (atoms.map fun a => a.2.2) = atoms.map fun a => a.1 := by
    clear h1
    unfold inferElements
    induction atoms with
    | nil => rfl
    | cons a as ih =>
      rw [List.map_cons, List.flatMap_cons, filter_of_isElement (h a (by simp)).1 (h a (by simp)).2,
        ih (fun b hb => h b (by simp [hb]))]
      rfl
  simp [initAtoms, initNumbers, initElements, h1, h2]

theorem tenths_of_text (m m' : ℚ) (h : fixedText 1 m' = fixedText 1 m) : tenths m' = tenths m := by
  have hb : IsBlankText [] := by intro c hc; simp at hc
  have e1 := C111_fixed_eq 1 m [] [] hb hb
  have e2 := C111_fixed_eq 1 m' [] [] hb hb
  rw [h] at e2
  rw [e1] at e2
  have e3 : aroundDec 1 m = aroundDec 1 m' := Option.some.inj e2
  unfold aroundDec at e3
  unfold tenths
  have h10 : (10 : ℚ) ^ 1 ≠ 0 := by norm_num
  rw [div_left_inj' h10] at e3
  have e4 : roundEven (m * 10 ^ 1) = roundEven (m' * 10 ^ 1) := by exact_mod_cast e3
  rw [pow_one, mul_comm m, mul_comm m'] at e4
  exact e4.symm

/-- C09: the masses need not be those of the table; it is enough that they print the same with one decimal. The masses given are kept. -/
theorem C09_rounded_masses (atoms : List (String × ℕ × ℚ × ℚ))
    (h : ∀ a ∈ atoms, IsElement a.1 a.2.1 a.2.2.1 ∧ a.2.2.1 ≠ 0 ∧ fixedText 1 a.2.2.2 = fixedText 1 a.2.2.1) :
    initAtoms (some (atoms.map fun a => a.2.2.2)) none none
      = some (some (atoms.map fun a => a.1), some (atoms.map fun a => a.2.1), atoms.map fun a => a.2.2.2) := by
  have h0 : inferElements (atoms.map fun a => a.2.2.2) = inferElements (atoms.map fun a => a.2.2.1) := by
    unfold inferElements
    induction atoms with
    | nil => rfl
    | cons a as ih =>
      rw [List.map_cons, List.flatMap_cons, List.map_cons, List.flatMap_cons, ih (fun b hb => h b (List.mem_cons_of_mem _ hb)),
        tenths_of_text _ _ (h a List.mem_cons_self).2.2]
  have h1 := C09_from_masses (atoms.map fun a => (a.1, a.2.1, a.2.2.1)) (by
    intro b hb
    obtain ⟨a, ha, rfl⟩ := List.mem_map.1 hb
    exact ⟨(h a ha).1, (h a ha).2.1⟩)
  simp only [List.map_map, Function.comp_def] at h1
  have key : ∀ m : List ℚ, initAtoms (some m) none none = (inferNumbers (inferElements m)).map fun n => (some (inferElements m), some n, m) := by
    intro m
    cases h : inferNumbers (inferElements m) <;> simp [initAtoms, initNumbers, initElements, h]
  rw [key] at h1
  rw [key, h0]
  cases hn : inferNumbers (inferElements (atoms.map fun a => a.2.2.1)) with
  | none => rw [hn] at h1; simp at h1
  | some n =>
    rw [hn] at h1
    simp only [Option.map_some, Option.some.injEq, Prod.mk.injEq] at h1 ⊢
    exact ⟨h1.1, h1.2.1, trivial⟩

/-- Masses as they are usually written, with two decimals. -/
example : ∀ a ∈ [("Si", 14, (280855 / 10000 : ℚ), (2809 / 100 : ℚ)), ("O", 8, 159994 / 10000, 16)],
    IsElement a.1 a.2.1 a.2.2.1 ∧ a.2.2.1 ≠ 0 ∧ fixedText 1 a.2.2.2 = fixedText 1 a.2.2.1 := by
  intro a ha
  simp only [List.mem_cons, List.not_mem_nil, or_false] at ha
  rcases ha with rfl | rfl
  · exact ⟨⟨by norm_num, by decide +kernel⟩, by norm_num, by decide +kernel⟩
  · exact ⟨⟨by norm_num, by decide +kernel⟩, by norm_num, by decide +kernel⟩

/-- Explicit arguments are never overwritten. -/
theorem C09_explicit (m : List ℚ) (n : List ℕ) (e : List String) :
    initAtoms (some m) (some n) (some e) = some (some e, some n, m) := rfl

example : IsElement "Si" 14 (280855 / 10000) ∧ (280855 / 10000 : ℚ) ≠ 0 := by
  refine ⟨⟨by norm_num, ?_⟩, by norm_num⟩
  decide +kernel

/-- C09 fails outside tabulated masses: a mass that matches no row is silently skipped and the list of elements is
then shorter than the list of atoms (all later atoms are shifted). -/
theorem C09_unknown_mass_violated :
    inferElements [137 / 10, 280855 / 10000] = ["Si"] := by decide +kernel

/-- ... and a mass 0 (dummy atom) yields 35 elements for one atom. -/
theorem C09_zero_mass_violated : (inferElements [0]).length = 35 := by decide +kernel

end Verif
