import Mathlib.Data.List.GetD
import Verif.Props.Chain

/-! # C137: the phonon spectra do not depend on the numbering of the atoms -/

set_option autoImplicit false

namespace Verif

variable {d f : ℕ}

/-- One row of the projected velocities as a sum over the atoms of the supercell. -/
theorem row_atoms (w : ℕ → Fin d → ℂ) (q : Fin d → ℝ) (coords : List (Fin d → ℝ)) (types : List ℕ) (T : ℕ) (ht : ∀ t ∈ types, t < T) (ev : Fin f → ℕ → Fin d → ℂ) (s : Fin f) :
    projectOntoPhonon (fun (t : Fin T) k => projectOntoWaveVector w q coords types T (-1) t k) (fun s (t : Fin T) k => ev s t k) s =
      (∑ i ∈ Finset.range types.length, ∑ k, w i k * Complex.exp (-Complex.I * ((∑ c, q c * coords.getD i 0 c : ℝ) : ℂ)) * star (ev s (types.getD i 0) k)) /
        (Real.sqrt ((types.length : ℝ) / T) : ℂ) := by
  rw [projectOntoPhonon_eq]
  simp only [projectOntoWaveVector_eq]
  have hneg : ∀ t : ℕ, ¬ ((-1 : ℤ) > -1 ∧ (t : ℤ) ≠ -1) := by intro t; omega
  simp only [hneg, if_false]
  generalize (Real.sqrt ((types.length : ℝ) / T) : ℂ) = D
  have hmap : ∀ i ∈ Finset.range types.length, types.getD i 0 ∈ Finset.range T := by
    intro i hi
    have hi' := Finset.mem_range.1 hi
    rw [List.getD_eq_getElem _ _ hi', Finset.mem_range]
    exact ht _ (List.getElem_mem hi')
  rw [← Finset.sum_fiberwise_of_maps_to hmap, Finset.sum_div, Fin.sum_univ_eq_sum_range
    (fun t => ∑ c, (∑ i ∈ (Finset.range types.length).filter (fun i => types.getD i 0 = t), w i c * Complex.exp (-Complex.I * ((∑ c, q c * coords.getD i 0 c : ℝ) : ℂ))) / D *
      star (ev s t c))]
  refine Finset.sum_congr rfl fun t _ => ?_
  rw [Finset.sum_comm, Finset.sum_div]
  refine Finset.sum_congr rfl fun c _ => ?_
  rw [div_mul_eq_mul_div, Finset.sum_mul]
  congr 1
  refine Finset.sum_congr rfl fun i hi => ?_
  rw [(Finset.mem_filter.1 hi).2]

theorem card_image_le_of {α β γ : Type*} [DecidableEq β] [DecidableEq γ] (g' : α → β) (g : α → γ) (S : Finset α) (h : ∀ i ∈ S, ∀ j ∈ S, g i = g j → g' i = g' j) :
    (S.image g').card ≤ (S.image g).card := by
  classical
  by_cases hS : S.Nonempty
  · obtain ⟨x0, hx0⟩ := hS
    have : S.image g' = (S.image g).image fun y => if hy : ∃ i ∈ S, g i = y then g' hy.choose else g' x0 := by
      rw [Finset.image_image]
      apply Finset.image_congr
      intro i hi
      have hy : ∃ j ∈ S, g j = g i := ⟨i, hi, rfl⟩
      simp only [Function.comp, dif_pos hy]
      exact h _ hi _ hy.choose_spec.1 hy.choose_spec.2.symm
    rw [this]
    exact Finset.card_image_le
  · rw [Finset.not_nonempty_iff_eq_empty] at hS
    subst hS
    simp

namespace AnalysisInput

/-- Specification: atom `i` of the unit cell in the new numbering is atom `σ i` in the old one; the trajectory has the `M` copies of each atom one after the other.
`ev` are the eigenvectors for the new numbering. -/
noncomputable def renumbered (a : AnalysisInput d f) (σ : Equiv.Perm ℕ) (M : ℕ) (ev : Fin f → ℕ → Fin d → ℂ) : AnalysisInput d f where
  positions := (List.range a.positions.length).map fun i => a.positions.getD (σ i) 0
  masses := (List.range a.positions.length).map fun i => a.masses.getD (σ i) 0
  cell := a.cell
  primitive := a.primitive
  mdCell := a.mdCell
  frames := a.frames.map fun fr j => fr (σ (j / M) * M + j % M)
  dt := a.dt
  q := a.q
  ev := ev

/-- The labels of a renumbered crystal belong to the same atoms. -/
theorem labels_renumbered (a : AnalysisInput d f) (σ : Equiv.Perm ℕ) (hσ : ∀ i, σ i < a.positions.length ↔ i < a.positions.length) (M : ℕ) (ev : Fin f → ℕ → Fin d → ℂ)
    (hm : a.masses.length = a.positions.length) (hdet : a.primCellOf.det ≠ 0)
    (hsep : ∀ i j, i < a.positions.length → j < a.positions.length → atomSeparation a.primCellOf (a.positions.getD i 0) (a.positions.getD j 0) < 1 / 1000 →
      LatticeEquiv a.primCellOf (a.positions.getD i 0) (a.positions.getD j 0)) (i j : ℕ) (hi : i < a.positions.length) (hj : j < a.positions.length) :
    (a.renumbered σ M ev).labels[i]? = (a.renumbered σ M ev).labels[j]? ↔ a.labels[σ i]? = a.labels[σ j]? := by
  have hpos : ∀ i, i < a.positions.length → (a.renumbered σ M ev).positions.getD i 0 = a.positions.getD (σ i) 0 := by
    intro i hi
    simp [renumbered, List.getD_eq_getElem?_getD, hi]
  have hmass : ∀ i, i < a.positions.length → (a.renumbered σ M ev).masses[i]? = a.masses[σ i]? := by
    intro i hi
    have : σ i < a.masses.length := by rw [hm]; exact (hσ i).2 hi
    simp [renumbered, List.getD_eq_getElem?_getD, hi, List.getElem?_eq_getElem this]
  have hlen : (a.renumbered σ M ev).positions.length = a.positions.length := by simp [renumbered]
  have h1 := C06_object a.primCellOf hdet (a.renumbered σ M ev).positions (a.renumbered σ M ev).masses (by
    intro i j hij hj
    rw [hlen] at hj
    rw [hpos i (hij.trans hj), hpos j hj]
    exact hsep _ _ ((hσ i).2 (hij.trans hj)) ((hσ j).2 hj)) i j (by rw [hlen]; exact hi) (by rw [hlen]; exact hj)
  have h2 := C06_object a.primCellOf hdet a.positions a.masses (fun i j hij hj => hsep i j (hij.trans hj) hj) (σ i) (σ j) ((hσ i).2 hi) ((hσ j).2 hj)
  unfold labels
  rw [h2, show (a.renumbered σ M ev).primCellOf = a.primCellOf from rfl, h1, hpos i hi, hpos j hj, hmass i hi, hmass j hj]

theorem labels_length (a : AnalysisInput d f) : a.labels.length = a.positions.length := by simp [labels, typeLabels]

/-- The number of atoms of the primitive cell does not depend on the numbering. -/
theorem nPrim_renumbered (a : AnalysisInput d f) (σ : Equiv.Perm ℕ) (hσ : ∀ i, σ i < a.positions.length ↔ i < a.positions.length) (M : ℕ) (ev : Fin f → ℕ → Fin d → ℂ)
    (h : ∀ i j, i < a.positions.length → j < a.positions.length →
      ((a.renumbered σ M ev).labels[i]? = (a.renumbered σ M ev).labels[j]? ↔ a.labels[σ i]? = a.labels[σ j]?)) : (a.renumbered σ M ev).nPrim = a.nPrim := by
  have hl := a.labels_length
  have hl' : (a.renumbered σ M ev).labels.length = a.positions.length := by rw [labels_length]; simp [renumbered]
  unfold nPrim
  generalize (a.renumbered σ M ev).labels = L' at h hl'
  generalize a.labels = L at h hl
  generalize a.positions.length = N at *
  have e1 : L'.toFinset = (Finset.range N).image fun i => L'.getD i 0 := by
    ext v
    simp only [List.mem_toFinset, Finset.mem_image, Finset.mem_range, List.mem_iff_getElem]
    constructor
    · rintro ⟨i, hi, rfl⟩
      exact ⟨i, hl' ▸ hi, List.getD_eq_getElem _ _ hi⟩
    · rintro ⟨i, hi, rfl⟩
      exact ⟨i, hl'.symm ▸ hi, (List.getD_eq_getElem _ _ _).symm⟩
  have e2 : L.toFinset = (Finset.range N).image fun i => L.getD (σ i) 0 := by
    ext v
    simp only [List.mem_toFinset, Finset.mem_image, Finset.mem_range, List.mem_iff_getElem]
    constructor
    · rintro ⟨i, hi, rfl⟩
      refine ⟨σ.symm i, ?_, ?_⟩
      · rw [← hσ, Equiv.apply_symm_apply]
        exact hl ▸ hi
      · rw [Equiv.apply_symm_apply]
        exact List.getD_eq_getElem _ _ hi
    · rintro ⟨i, hi, rfl⟩
      have hi' : σ i < L.length := by rw [hl]; exact (hσ i).2 hi
      exact ⟨σ i, hi', (List.getD_eq_getElem _ _ _).symm⟩
  have hg : ∀ i ∈ Finset.range N, ∀ j ∈ Finset.range N, (L'.getD i 0 = L'.getD j 0 ↔ L.getD (σ i) 0 = L.getD (σ j) 0) := by
    intro i hi j hj
    rw [Finset.mem_range] at hi hj
    have := h i j hi hj
    have hi1 : i < L'.length := by omega
    have hj1 : j < L'.length := by omega
    have hi2 : σ i < L.length := by rw [hl]; exact (hσ i).2 hi
    have hj2 : σ j < L.length := by rw [hl]; exact (hσ j).2 hj
    rw [List.getElem?_eq_getElem hi1, List.getElem?_eq_getElem hj1, List.getElem?_eq_getElem hi2, List.getElem?_eq_getElem hj2, Option.some.injEq, Option.some.injEq] at this
    rw [List.getD_eq_getElem _ _ hi1, List.getD_eq_getElem _ _ hj1, List.getD_eq_getElem _ _ hi2, List.getD_eq_getElem _ _ hj2]
    exact this
  rw [e1, e2]
  exact le_antisymm (card_image_le_of _ _ _ fun i hi j hj => (hg i hi j hj).2) (card_image_le_of _ _ _ fun i hi j hj => (hg i hi j hj).1)

/-- The velocities of a renumbered trajectory. -/
theorem velocities_renumbered (a : AnalysisInput d f) (σ : Equiv.Perm ℕ) (M : ℕ) (ev : Fin f → ℕ → Fin d → ℂ) (coords coords' : List (Fin d → ℝ)) (S : ℕ)
    (hc : ∀ i < S, coords'.getD i 0 = coords.getD (σ (i / M) * M + i % M) 0) :
    (a.velocities coords = none ∧ (a.renumbered σ M ev).velocities coords' = none) ∨
    ∃ vs vs', a.velocities coords = some vs ∧ (a.renumbered σ M ev).velocities coords' = some vs' ∧ vs'.length = vs.length ∧
      ∀ (t : ℕ) (v v' : ℕ → Fin d → ℂ), vs[t]? = some v → vs'[t]? = some v' → ∀ i < S, ∀ k, v' i k = v (σ (i / M) * M + i % M) k := by
  unfold velocities
  have hlen : (a.renumbered σ M ev).frames.length = a.frames.length := by simp [renumbered]
  rw [hlen]
  by_cases hN : a.frames.length < 2
  · left
    simp [hN]
  · right
    rw [if_neg hN, if_neg hN]
    refine ⟨_, _, rfl, rfl, by simp, ?_⟩
    intro t v v' hv hv' i hi k
    rw [List.getElem?_map, Option.map_eq_some_iff] at hv hv'
    obtain ⟨t0, ht0, rfl⟩ := hv
    obtain ⟨t1, ht1, rfl⟩ := hv'
    rw [ht0, Option.some.injEq] at ht1
    subst ht1
    simp only [hc i hi]
    have hfr : (a.renumbered σ M ev).frames.map (fun fr c => ((natVec (fr i) c, 0) : ℝ × ℝ)) = a.frames.map fun fr c => (natVec (fr (σ (i / M) * M + i % M)) c, 0) := by
      simp [renumbered, Function.comp_def]
    rw [hfr]
    rfl

end AnalysisInput

/-- The place of an atom of the supercell in the other numbering. -/
def placeOf (σ : ℕ → ℕ) (M i : ℕ) : ℕ := σ (i / M) * M + i % M

theorem placeOf_lt {N M : ℕ} (σ : ℕ → ℕ) (hσ : ∀ i, i < N → σ i < N) (i : ℕ) (hi : i < N * M) : placeOf σ M i < N * M := by
  have hM : 0 < M := Nat.pos_of_ne_zero (by rintro rfl; simp at hi)
  have h1 : i / M < N := (Nat.div_lt_iff_lt_mul hM).2 hi
  have h2 := hσ _ h1
  have h3 := Nat.mod_lt i hM
  unfold placeOf
  calc σ (i / M) * M + i % M < σ (i / M) * M + M := by omega
    _ = (σ (i / M) + 1) * M := by ring
    _ ≤ N * M := Nat.mul_le_mul_right _ h2

theorem placeOf_inv {M : ℕ} (σ τ : ℕ → ℕ) (h : ∀ i, τ (σ i) = i) (i : ℕ) (hM : 0 < M) : placeOf τ M (placeOf σ M i) = i := by
  have h3 := Nat.mod_lt i hM
  unfold placeOf
  rw [show (σ (i / M) * M + i % M) / M = σ (i / M) by
    rw [Nat.add_comm, Nat.add_mul_div_right _ _ hM, Nat.div_eq_of_lt h3, Nat.zero_add], h,
    show (σ (i / M) * M + i % M) % M = i % M by rw [Nat.add_comm, Nat.add_mul_mod_self_right, Nat.mod_mod], Nat.mul_comm, Nat.div_add_mod]

theorem positions_block (positions : List (Fin d → ℝ)) (cell : Matrix (Fin d) (Fin d) ℝ) (n : List ℕ) (k r : ℕ) (hr : r < n.prod) :
    (positionsSupercell positions cell n)[k * n.prod + r]? = positions[k]?.bind fun p => ((cellTranslations n).map fun x => p + latticeVector x cell)[r]? := by
  unfold positionsSupercell
  rw [mul_comm, getElem?_flatMap_const _ n.prod _ (by simp [length_cellTranslations]) k _ hr]

/-- Expanded lists are renumbered like the lists themselves. -/
theorem expand_place {α : Type*} (l l' : List α) (n : List ℕ) (σ : ℕ → ℕ) (N : ℕ) (h : ∀ i < N, l'[i]? = l[σ i]?) (i : ℕ) (hi : i < N * n.prod) :
    (expandSupercell l' n)[i]? = (expandSupercell l n)[placeOf σ n.prod i]? := by
  have hM : 0 < n.prod := Nat.pos_of_ne_zero (by intro h0; rw [h0] at hi; simp at hi)
  have h1 : i / n.prod < N := (Nat.div_lt_iff_lt_mul hM).2 hi
  have h3 := Nat.mod_lt i hM
  unfold placeOf
  rw [C02_block _ _ _ _ h3, ← h _ h1]
  conv_lhs => rw [← Nat.div_add_mod' i n.prod]
  exact C02_block _ _ _ _ h3

theorem positions_place (l l' : List (Fin d → ℝ)) (cell : Matrix (Fin d) (Fin d) ℝ) (n : List ℕ) (σ : ℕ → ℕ) (N : ℕ) (h : ∀ i < N, l'[i]? = l[σ i]?) (i : ℕ) (hi : i < N * n.prod) :
    (positionsSupercell l' cell n)[i]? = (positionsSupercell l cell n)[placeOf σ n.prod i]? := by
  have hM : 0 < n.prod := Nat.pos_of_ne_zero (by intro h0; rw [h0] at hi; simp at hi)
  have h1 : i / n.prod < N := (Nat.div_lt_iff_lt_mul hM).2 hi
  have h3 := Nat.mod_lt i hM
  unfold placeOf
  rw [positions_block _ _ _ _ _ h3, ← h _ h1]
  conv_lhs => rw [← Nat.div_add_mod' i n.prod]
  exact positions_block _ _ _ _ _ h3

/-- C137: the projected velocities do not depend on the numbering of the atoms: `σ` renumbers the atoms of the unit cell, in the structure and in the trajectory, and the rows of
the eigenvectors follow the atoms. The crystal is well separated, as in C06. -/
theorem vq_renumbered (a : AnalysisInput d f) (σ : Equiv.Perm ℕ) (hσ : ∀ i, σ i < a.positions.length ↔ i < a.positions.length) (n : List ℕ) (hn : a.multiples = some n)
    (ev : Fin f → ℕ → Fin d → ℂ) (hm : a.masses.length = a.positions.length) (hdet : a.primCellOf.det ≠ 0)
    (hsep : ∀ i j, i < a.positions.length → j < a.positions.length → atomSeparation a.primCellOf (a.positions.getD i 0) (a.positions.getD j 0) < 1 / 1000 →
      LatticeEquiv a.primCellOf (a.positions.getD i 0) (a.positions.getD j 0))
    (hev : ∀ i t t', (a.renumbered σ n.prod ev).labels[i]? = some t' → a.labels[σ i]? = some t → ∀ s k, ev s t' k = a.ev s t k) :
    (a.renumbered σ n.prod ev).vq = a.vq := by
  have hlabels := fun i j => a.labels_renumbered σ hσ n.prod ev hm hdet hsep i j
  have hT := a.nPrim_renumbered σ hσ n.prod ev hlabels
  have hll := a.labels_length
  have hll' : (a.renumbered σ n.prod ev).labels.length = a.positions.length := by rw [AnalysisInput.labels_length]; simp [AnalysisInput.renumbered]
  have hn' : (a.renumbered σ n.prod ev).multiples = some n := hn
  have hpos : ∀ i < a.positions.length, (a.renumbered σ n.prod ev).positions[i]? = a.positions[σ i]? := by
    intro i hi
    have : σ i < a.positions.length := (hσ i).2 hi
    simp [AnalysisInput.renumbered, List.getD_eq_getElem?_getD, hi, List.getElem?_eq_getElem this]
  have hmass : ∀ i < a.positions.length, (a.renumbered σ n.prod ev).masses[i]? = a.masses[σ i]? := by
    intro i hi
    have : σ i < a.masses.length := by rw [hm]; exact (hσ i).2 hi
    simp [AnalysisInput.renumbered, List.getD_eq_getElem?_getD, hi, List.getElem?_eq_getElem this]
  have hcoords : ∀ i < a.positions.length * n.prod, (positionsSupercell (a.renumbered σ n.prod ev).positions a.cell n).getD i 0 =
      (positionsSupercell a.positions a.cell n).getD (placeOf σ n.prod i) 0 := by
    intro i hi
    rw [List.getD_eq_getElem?_getD, List.getD_eq_getElem?_getD, positions_place _ _ _ n σ _ hpos i hi]
  have hmasses : ∀ i < a.positions.length * n.prod, (expandSupercell (a.renumbered σ n.prod ev).masses n).getD i 0 =
      (expandSupercell a.masses n).getD (placeOf σ n.prod i) 0 := by
    intro i hi
    rw [List.getD_eq_getElem?_getD, List.getD_eq_getElem?_getD, expand_place _ _ n σ _ hmass i hi]
  have hlen : (expandSupercell a.labels n).length = a.positions.length * n.prod := by rw [C02_length a.labels a.positions a.cell n hll, C01_count]
  have hlen' : (expandSupercell (a.renumbered σ n.prod ev).labels n).length = a.positions.length * n.prod := by
    rw [C02_length _ a.positions a.cell n hll', C01_count]
  have hltT : ∀ t ∈ expandSupercell a.labels n, t < a.nPrim := by
    intro t ht
    unfold expandSupercell at ht
    obtain ⟨x, hx, hxt⟩ := List.mem_flatMap.1 ht
    rw [List.eq_of_mem_replicate hxt]
    exact (C06_labels _ _ x).1 hx
  have hltT' : ∀ t ∈ expandSupercell (a.renumbered σ n.prod ev).labels n, t < (a.renumbered σ n.prod ev).nPrim := by
    intro t ht
    unfold expandSupercell at ht
    obtain ⟨x, hx, hxt⟩ := List.mem_flatMap.1 ht
    rw [List.eq_of_mem_replicate hxt]
    exact (C06_labels _ _ x).1 hx
  have hevs : ∀ i < a.positions.length * n.prod, ∀ s k, ev s ((expandSupercell (a.renumbered σ n.prod ev).labels n).getD i 0) k =
      a.ev s ((expandSupercell a.labels n).getD (placeOf σ n.prod i) 0) k := by
    intro i hi s k
    have hM : 0 < n.prod := Nat.pos_of_ne_zero (by intro h0; rw [h0] at hi; simp at hi)
    have h1 : i / n.prod < a.positions.length := (Nat.div_lt_iff_lt_mul hM).2 hi
    have h3 := Nat.mod_lt i hM
    have e1 : (expandSupercell (a.renumbered σ n.prod ev).labels n)[i]? = (a.renumbered σ n.prod ev).labels[i / n.prod]? := by
      conv_lhs => rw [← Nat.div_add_mod' i n.prod]
      exact C02_block _ _ _ _ h3
    have e2 : (expandSupercell a.labels n)[placeOf σ n.prod i]? = a.labels[σ (i / n.prod)]? := C02_block _ _ _ _ h3
    have h4 : σ (i / n.prod) < a.labels.length := by rw [hll]; exact (hσ _).2 h1
    have h5 : i / n.prod < (a.renumbered σ n.prod ev).labels.length := by rw [hll']; exact h1
    rw [List.getD_eq_getElem?_getD, List.getD_eq_getElem?_getD, e1, e2, List.getElem?_eq_getElem h4, List.getElem?_eq_getElem h5]
    exact hev _ _ _ (List.getElem?_eq_getElem h5) (List.getElem?_eq_getElem h4) s k
  unfold AnalysisInput.vq
  rw [hn, hn']
  simp only [Option.bind_eq_bind, Option.bind_some]
  rw [show (a.renumbered σ n.prod ev).cell = a.cell from rfl]
  rcases a.velocities_renumbered σ n.prod ev (positionsSupercell a.positions a.cell n) (positionsSupercell (a.renumbered σ n.prod ev).positions a.cell n)
    (a.positions.length * n.prod) hcoords with ⟨h1, h2⟩ | ⟨vs, vs', h1, h2, hl, h⟩
  · rw [h1, h2]
    simp
  · rw [h1, h2]
    simp only [Option.bind_some, Option.some.injEq]
    refine map_eq_map_of vs' vs hl _ _ ?_
    intro t v v' hv0 hv1
    have hv := h t v v' hv0 hv1
    funext s
    rw [row_atoms _ _ _ _ _ hltT, row_atoms _ _ _ _ _ hltT', hlen, hlen', hT]
    congr 1
    rw [show qVector (a.renumbered σ n.prod ev).primCellOf (a.renumbered σ n.prod ev).q = qVector a.primCellOf a.q from rfl]
    by_cases hM : n.prod = 0
    · rw [hM]
      simp
    have hM' : 0 < n.prod := Nat.pos_of_ne_zero hM
    refine Finset.sum_nbij' (placeOf σ n.prod) (placeOf σ.symm n.prod) ?_ ?_ ?_ ?_ ?_
    · intro i hi
      exact Finset.mem_range.2 (placeOf_lt σ (fun j hj => (hσ j).2 hj) i (Finset.mem_range.1 hi))
    · intro i hi
      refine Finset.mem_range.2 (placeOf_lt σ.symm (fun j hj => ?_) i (Finset.mem_range.1 hi))
      rw [← hσ, Equiv.apply_symm_apply]
      exact hj
    · intro i _
      exact placeOf_inv _ _ (fun j => σ.symm_apply_apply j) i hM'
    · intro i _
      exact placeOf_inv _ _ (fun j => σ.apply_symm_apply j) i hM'
    · intro i hi
      have hi' := Finset.mem_range.1 hi
      refine Finset.sum_congr rfl fun k _ => ?_
      unfold massWeighted
      rw [hcoords i hi', hmasses i hi', hv i hi' k, show (a.renumbered σ n.prod ev).ev = ev from rfl, hevs i hi' s k]
      rfl

/-- C137: the phonon spectra do not depend on the numbering of the atoms, whatever the algorithm and the parameters are. -/
theorem C137_numbering (env : SpecEnv) (alg : ℤ) (p : SpecParams) (a : AnalysisInput d f) (σ : Equiv.Perm ℕ) (hσ : ∀ i, σ i < a.positions.length ↔ i < a.positions.length)
    (n : List ℕ) (hn : a.multiples = some n) (ev : Fin f → ℕ → Fin d → ℂ) (hm : a.masses.length = a.positions.length) (hdet : a.primCellOf.det ≠ 0)
    (hsep : ∀ i j, i < a.positions.length → j < a.positions.length → atomSeparation a.primCellOf (a.positions.getD i 0) (a.positions.getD j 0) < 1 / 1000 →
      LatticeEquiv a.primCellOf (a.positions.getD i 0) (a.positions.getD j 0))
    (hev : ∀ i t t', (a.renumbered σ n.prod ev).labels[i]? = some t' → a.labels[σ i]? = some t → ∀ s k, ev s t' k = a.ev s t k) :
    (a.renumbered σ n.prod ev).phononSpectrum env alg p = a.phononSpectrum env alg p := by
  unfold AnalysisInput.phononSpectrum
  rw [vq_renumbered a σ hσ n hn ev hm hdet hsep hev]
  rfl

/-- C137_numbering: the two atoms of the crystal exchanged. -/
example (env : SpecEnv) (alg : ℤ) (p : SpecParams) :
    (pairCrystal.renumbered (Equiv.swap 0 1) 2 fun s t _ => if s.val = 1 - t then 1 else 2).phononSpectrum env alg p = pairCrystal.phononSpectrum env alg p := by
  have hlt : ∀ i, i < pairCrystal.positions.length ↔ i = 0 ∨ i = 1 := by intro i; simp [pairCrystal]; omega
  have hq : roundEven (1 / 4 : ℝ) = 0 := roundEven_eq_of_near (by norm_num)
  have hq' : roundEven (-(1 / 4) : ℝ) = 0 := roundEven_eq_of_near (by norm_num)
  have hl : pairCrystal.labels = [0, 1] := by
    unfold AnalysisInput.labels
    rw [typeLabels_congr _ (fun _ _ => false) _ (by
      intro i j hij hj
      have : i = 0 ∧ j = 1 := by rw [hlt] at hj; omega
      obtain ⟨rfl, rfl⟩ := this
      simp [sameAtoms, pairCrystal])]
    decide +kernel
  have hl' : (pairCrystal.renumbered (Equiv.swap 0 1) 2 fun s t _ => if s.val = 1 - t then 1 else 2).labels = [0, 1] := by
    unfold AnalysisInput.labels
    rw [typeLabels_congr _ (fun _ _ => false) _ (by
      intro i j hij hj
      have : i = 0 ∧ j = 1 := by
        have hj' : j < 2 := hj
        omega
      obtain ⟨rfl, rfl⟩ := this
      simp [sameAtoms, AnalysisInput.renumbered, pairCrystal, List.range_succ])]
    decide +kernel
  refine C137_numbering env alg p pairCrystal (Equiv.swap 0 1) ?_ [2, 1] AnalysisInput.pairCrystal_multiples _ rfl ?_ ?_ ?_
  · intro i
    rw [hlt, hlt]
    rcases Nat.lt_or_ge i 2 with h | h
    · interval_cases i <;> simp
    · rw [Equiv.swap_apply_of_ne_of_ne (by omega) (by omega)]
  · rw [AnalysisInput.pairCrystal_primCell]; simp
  · intro i j hi hj hs
    rw [AnalysisInput.pairCrystal_primCell] at hs ⊢
    rw [hlt] at hi hj
    rcases hi with rfl | rfl <;> rcases hj with rfl | rfl
    · exact (latticeEquiv_equivalence _).refl _
    · exfalso
      rw [one_div] at hq hq'
      simp [atomSeparation, pairCrystal, Fin.sum_univ_two, hq, Matrix.vecHead, Matrix.vecTail] at hs
      norm_num at hs
    · exfalso
      rw [one_div] at hq hq'
      simp [atomSeparation, pairCrystal, Fin.sum_univ_two, hq', Matrix.vecHead, Matrix.vecTail] at hs
      norm_num at hs
    · exact (latticeEquiv_equivalence _).refl _
  · intro i t t' h1 h2 s k
    change (pairCrystal.renumbered (Equiv.swap 0 1) 2 fun s t _ => if s.val = 1 - t then 1 else 2).labels[i]? = some t' at h1
    rw [hl'] at h1
    rw [hl] at h2
    rcases Nat.lt_or_ge i 2 with h | h
    · interval_cases i
      · simp at h1 h2; subst h1 h2; simp [pairCrystal]
      · simp at h1 h2; subst h1 h2; simp [pairCrystal]
    · rw [List.getElem?_eq_none (by simpa using h)] at h1; cases h1

end Verif
