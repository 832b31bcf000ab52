import Verif.Model.ModeDrawing
import Verif.Props.QhaScript
import Verif.Props.CurveFile
import Mathlib.Tactic.Abel

/-! # C123: the drawing of a phonon mode shows the cell and the atoms -/

set_option autoImplicit false

namespace Verif

/-! ## Specification -/

/-- The edges of the cell: from every sum of some of the vectors to the same sum with one more. -/
def cellEdges {V : Type} [AddCommMonoid V] (cell : Fin 3 → V) : Multiset (V × V) :=
  ((Finset.univ : Finset (Fin 3 × Finset (Fin 3))).filter fun p => p.1 ∉ p.2).val.map fun p => (∑ i ∈ p.2, cell i, ∑ i ∈ p.2, cell i + cell p.1)

/-! ## The frame -/

theorem edgeIndex : ((Finset.univ : Finset (Fin 3 × Finset (Fin 3))).filter fun p => p.1 ∉ p.2).val =
    (([(0, ∅), (1, {0}), (2, {0, 1}), (2, {0}), (1, {0, 2}), (1, ∅), (0, {1}), (2, {1}), (0, {1, 2}), (2, ∅), (0, {2}), (1, {2})] : List (Fin 3 × Finset (Fin 3))) : Multiset _) := by
  decide +kernel

/-- C123: the lines of the frame are the twelve edges of the cell, every edge once. -/
theorem C123_frame {V : Type} [AddCommMonoid V] (cell : Fin 3 → V) : (cellFrame cell : Multiset (V × V)) = cellEdges cell ∧ (cellFrame cell).length = 12 := by
  have h : cellFrame cell = [(0, cell 0), (cell 0, cell 0 + cell 1), (cell 0 + cell 1, cell 0 + cell 1 + cell 2), (cell 0, cell 0 + cell 2),
      (cell 0 + cell 2, cell 0 + cell 2 + cell 1), (0, cell 1), (cell 1, cell 1 + cell 0), (cell 1, cell 1 + cell 2),
      (cell 1 + cell 2, cell 1 + cell 2 + cell 0), (0, cell 2), (cell 2, cell 2 + cell 0), (cell 2, cell 2 + cell 1)] := by
    simp [cellFrame, List.finRange_succ]
  refine ⟨?_, by rw [h]; rfl⟩
  rw [h, cellEdges, edgeIndex, Multiset.map_coe]
  congr 1
  simp

/-! ## The atoms and the legend -/

theorem npUnique_mem (l : List String) (e : String) : e ∈ (npUnique l).1 ↔ e ∈ l := by
  unfold npUnique; simp [List.mem_insertionSort]

theorem npUnique_nodup (l : List String) : (npUnique l).1.Nodup := by
  unfold npUnique
  exact (List.perm_insertionSort (· ≤ ·) l.dedup).nodup_iff.mpr l.nodup_dedup

theorem npUnique_sorted (l : List String) : (npUnique l).1.Pairwise (· < ·) := by
  have h1 : (npUnique l).1.Pairwise (· ≤ ·) := by unfold npUnique; exact List.pairwise_insertionSort _ _
  have h2 := npUnique_nodup l
  exact (h1.and h2).imp fun h => lt_of_le_of_ne h.1 h.2

theorem npUnique_length (l : List String) : (npUnique l).1.length = l.toFinset.card := by
  unfold npUnique; simp [List.card_toFinset]

theorem colorAtom_length : colorAtom.length = 37 := rfl

/-- The colour of number `n`, below the length of the list. -/
theorem colorAtom_get (n : ℕ) (h : n < 37) : colorAtom[n]? = some (colorAtom.getD n 'g') := by
  rw [List.getD_eq_getElem?_getD, List.getElem?_eq_getElem (by simpa [colorAtom_length] using h)]; rfl

theorem colorAtom_inj : ∀ a < 7, ∀ b < 7, colorAtom.getD a 'g' = colorAtom.getD b 'g' → a = b := by decide +kernel

theorem modeLegend_element (elements : List String) (types : List ℕ) (h : elements.toFinset.card ≤ 37) :
    modeLegend true elements types = some ((npUnique elements).1.zipIdx.map fun li => (colorAtom.getD li.2 'g', li.1)) := by
  unfold modeLegend
  simp only [if_true, Option.bind_some]
  have := mapM_map_some (id : String × ℕ → String × ℕ) (fun li => colorAtom[li.2]?.map fun c => (c, li.1)) (fun li => (colorAtom.getD li.2 'g', li.1))
    (npUnique elements).1.zipIdx (by
      rintro ⟨e, i⟩ hm
      have hi := (List.mem_zipIdx hm).2.1
      rw [npUnique_length] at hi
      simp only [id]
      rw [colorAtom_get i (by omega)]; rfl)
  simpa using this

/-- The colour that an element has in the drawing by elements. -/
theorem drawAtom_element {P : Type} (elements : List String) (types : List ℕ) (h : elements.toFinset.card ≤ 37) (i : ℕ) (e : String) (r : ℕ)
    (he : elements[i]? = some e) (hr : atomRadius.lookup e = some r) (p : P) :
    drawAtom (colorNumbers true elements types) elements i p = some (p, r * 30, colorAtom.getD ((npUnique elements).1.idxOf e) 'g') := by
  have hm : e ∈ (npUnique elements).1 := (npUnique_mem elements e).mpr (List.mem_of_getElem? he)
  have hlt := List.idxOf_lt_length_iff.mpr hm
  rw [npUnique_length] at hlt
  unfold drawAtom colorNumbers
  simp only [if_true, he, hr, Option.bind_some, List.getElem?_map, Option.map_some]
  rw [colorAtom_get _ (by omega)]; rfl

/-- C123: a structure with at most 37 different elements, all of them with a known radius, is drawn: every atom once at its position, in the
order of the structure and with the size of its element; the legend lists every element once, in alphabetical order; and the colour of an
atom is the one that the legend gives to its element. With at most seven elements different elements have different colours, so that the
legend tells the element of every atom. -/
theorem C123_colours {V P : Type} [AddCommMonoid V] (cell : Fin 3 → V) (positions : List P) (elements : List String) (types : List ℕ)
    (hlen : positions.length = elements.length) (hrad : ∀ e ∈ elements, ∃ r, atomRadius.lookup e = some r) (h : elements.toFinset.card ≤ 37) :
    ∃ atoms legend, drawMode true cell positions elements types = some (atoms, cellFrame cell, legend) ∧
      atoms.map (fun a => a.1) = positions ∧
      (legend.map Prod.snd).Pairwise (· < ·) ∧ (∀ e, e ∈ legend.map Prod.snd ↔ e ∈ elements) ∧
      (∀ (i : ℕ) (p : P) (e : String), positions[i]? = some p → elements[i]? = some e →
        ∃ r c, atomRadius.lookup e = some r ∧ atoms[i]? = some (p, r * 30, c) ∧ (c, e) ∈ legend) ∧
      (elements.toFinset.card ≤ 7 → ∀ c e e', (c, e) ∈ legend → (c, e') ∈ legend → e = e') := by
  set legend := (npUnique elements).1.zipIdx.map fun li => (colorAtom.getD li.2 'g', li.1) with hlegend
  have hsnd : legend.map Prod.snd = (npUnique elements).1 := by
    rw [hlegend, List.map_map]
    exact List.zipIdx_map_fst _ _
  let colour : ℕ → P → P × ℕ × Char := fun i p =>
    (p, (atomRadius.lookup (elements.getD i "")).getD 0 * 30, colorAtom.getD ((npUnique elements).1.idxOf (elements.getD i "")) 'g')
  have hatom : ∀ i p, positions[i]? = some p → drawAtom (colorNumbers true elements types) elements i p = some (colour i p) := by
    intro i p hp
    have hi : i < elements.length := by rw [← hlen]; exact (List.getElem?_eq_some_iff.mp hp).1
    have hget : elements[i]? = some (elements.getD i "") := by
      rw [List.getD_eq_getElem?_getD, List.getElem?_eq_getElem hi]; rfl
    obtain ⟨r, hr⟩ := hrad (elements.getD i "") (List.mem_of_getElem? hget)
    rw [drawAtom_element elements types h i (elements.getD i "") r hget hr p]
    simp only [colour, hr, Option.getD_some]
  have hmap : positions.zipIdx.mapM (fun pi => drawAtom (colorNumbers true elements types) elements pi.2 pi.1) =
      some (positions.zipIdx.map fun pi => colour pi.2 pi.1) := by
    have := mapM_map_some (id : P × ℕ → P × ℕ) (fun pi => drawAtom (colorNumbers true elements types) elements pi.2 pi.1) (fun pi => colour pi.2 pi.1)
      positions.zipIdx (by
        rintro ⟨p, i⟩ hm
        exact hatom i p (List.mem_zipIdx_iff_getElem?.mp hm))
    simpa using this
  refine ⟨positions.zipIdx.map fun pi => colour pi.2 pi.1, legend, ?_, ?_, ?_, ?_, ?_, ?_⟩
  · unfold drawMode
    simp only [hmap, modeLegend_element elements types h, Option.bind_some, Option.map_some, hlegend]
  · rw [List.map_map]
    exact List.zipIdx_map_fst _ _
  · rw [hsnd]; exact npUnique_sorted elements
  · intro e; rw [hsnd]; exact npUnique_mem elements e
  · intro i p e hp he
    obtain ⟨r, hr⟩ := hrad e (List.mem_of_getElem? he)
    have hm : e ∈ (npUnique elements).1 := (npUnique_mem elements e).mpr (List.mem_of_getElem? he)
    have hlt := List.idxOf_lt_length_iff.mpr hm
    refine ⟨r, colorAtom.getD ((npUnique elements).1.idxOf e) 'g', hr, ?_, ?_⟩
    · have hd : elements.getD i "" = e := by rw [List.getD_eq_getElem?_getD, he]; rfl
      rw [List.getElem?_map, List.getElem?_zipIdx, hp]
      simp only [Option.map_some, zero_add, colour, hd, hr, Option.getD_some]
    · rw [hlegend, List.mem_map]
      refine ⟨(e, (npUnique elements).1.idxOf e), ?_, rfl⟩
      rw [List.mem_zipIdx_iff_getElem?, List.getElem?_eq_getElem hlt, List.getElem_idxOf]
  · intro h7 c e e' h1 h2
    rw [hlegend, List.mem_map] at h1 h2
    obtain ⟨⟨a, i⟩, hi, hi'⟩ := h1
    obtain ⟨⟨b, j⟩, hj, hj'⟩ := h2
    rw [List.mem_zipIdx_iff_getElem?] at hi hj
    have li := (List.getElem?_eq_some_iff.mp hi).1
    have lj := (List.getElem?_eq_some_iff.mp hj).1
    simp only [npUnique_length] at li lj
    simp only [Prod.mk.injEq] at hi' hj'
    have := colorAtom_inj i (by omega) j (by omega) (hi'.1.trans hj'.1.symm)
    rw [this] at hi
    rw [← hi'.2, ← hj'.2]
    exact Option.some.inj (hi.symm.trans hj)

/-- The hypotheses are met. -/
example : ∃ atoms legend, drawMode true (fun i => ((i : ℕ) + 1 : ℤ)) [(0 : ℤ), 5, 7] ["Na", "Cl", "Na"] [0, 1, 0] = some (atoms, cellFrame (fun i => ((i : ℕ) + 1 : ℤ)), legend) ∧
    atoms.map (fun a => a.1) = [0, 5, 7] :=
  let ⟨a, l, h, h', _⟩ := C123_colours (fun i => ((i : ℕ) + 1 : ℤ)) [(0 : ℤ), 5, 7] ["Na", "Cl", "Na"] [0, 1, 0] rfl
    (by intro e he; fin_cases he <;> exact ⟨_, rfl⟩) (by decide +kernel)
  ⟨a, l, h, h'⟩

theorem lookup_exists (e : String) : ∀ l : List (String × ℕ), (∃ r, l.lookup e = some r) ↔ e ∈ l.map Prod.fst
  | [] => by simp
  | (a, r) :: l => by
    rw [List.lookup_cons, List.map_cons, List.mem_cons, ← lookup_exists e l]
    by_cases h : e = a
    · simp [h]
    · have : (e == a) = false := by simpa using h
      simp [h, this]

/-- C123: the elements with a radius are the ones with the atomic numbers 1 to 109 of the table of elements. -/
theorem C123_radii (e : String) : (∃ r, atomRadius.lookup e = some r) ↔ e ∈ ((atomData.map Prod.fst).drop 1).take 109 := by
  have hk : atomRadius.map Prod.fst = ((atomData.map Prod.fst).drop 1).take 109 := by decide +kernel
  rw [lookup_exists, hk]

/-- C123 VIOLATED for the heavy elements: an atom of an element without a radius (darmstadtium on, and the unknown element `X`) stops the
drawing with an error, whatever the rest of the structure is. -/
theorem C123_heavy_violated {V P : Type} [AddCommMonoid V] (byElement : Bool) (cell : Fin 3 → V) (positions : List P) (elements : List String) (types : List ℕ)
    (i : ℕ) (p : P) (e : String) (hp : positions[i]? = some p) (he : elements[i]? = some e) (hr : atomRadius.lookup e = none) :
    drawMode byElement cell positions elements types = none := by
  unfold drawMode
  simp only
  cases hm : positions.zipIdx.mapM fun pi => drawAtom (colorNumbers byElement elements types) elements pi.2 pi.1 with
  | none => rfl
  | some atoms =>
    exfalso
    obtain ⟨_, hl⟩ := mapM_lookup hm
    obtain ⟨y, -, hy⟩ := hl i (p, i) (by rw [List.getElem?_zipIdx, hp]; simp)
    simp [drawAtom, he, hr] at hy

/-- C123 VIOLATED: atoms of radon (and of francium, radium, actinium, protactinium and the elements from neptunium on) have the size 0, that
is, they are not visible. -/
theorem C123_invisible_violated : ∀ e ∈ ["Rn", "Fr", "Ra", "Ac", "Pa", "Np", "Pu", "Am", "Mt"], atomRadius.lookup e = some 0 := by decide +kernel

/-- C123 VIOLATED for eight elements: the first and the eighth of the legend have the same colour. -/
theorem C123_many_violated : ∃ legend, modeLegend true ["Al", "B", "C", "F", "H", "Na", "O", "S"] [0, 1, 2, 3, 4, 5, 6, 7] = some legend ∧
    ('g', "Al") ∈ legend ∧ ('g', "S") ∈ legend := ⟨_, rfl, by decide, by decide⟩

/-- C123 VIOLATED by atom types: the legend takes the element of the atom whose number is the type, so that the two types of sodium chloride
written with all the sodium atoms first are both called Na. -/
theorem C123_types_violated : modeLegend false ["Na", "Na", "Cl", "Cl"] [0, 0, 1, 1] = some [('g', "Na"), ('b', "Na")] := rfl

end Verif
