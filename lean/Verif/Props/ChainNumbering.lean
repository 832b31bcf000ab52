import Verif.Props.ChainFull
import Verif.Props.Numbering

/-! # C143: the full spectrum does not depend on the numbering of the atoms -/

set_option autoImplicit false

namespace Verif

variable {d f : ℕ}

/-- The sum of the spectra of all components does not change when the atoms are permuted. -/
theorem summedSpectra_perm (env : SpecEnv) (alg : ℤ) (hmem : alg = 1 → ∀ i j, env.junk i = env.junk j) (p : SpecParams) (N : ℕ) (w w' : List (ℕ → Fin d → ℂ)) (hl : w'.length = w.length) (dt : ℝ)
    (π : Equiv.Perm (Fin N)) (h : ∀ (t : ℕ) (v v' : ℕ → Fin d → ℂ), w[t]? = some v → w'[t]? = some v' → ∀ (i : Fin N) k, v' i k = v (π i) k) (r : Bool × List ℝ)
    (hr : summedSpectra env alg p N w dt = .ok r) : summedSpectra env alg p N w' dt = .ok r := by
  let ρ : Equiv.Perm (Fin (d * N)) := (finProdFinEquiv.symm.trans ((Equiv.refl (Fin d)).prodCongr π)).trans finProdFinEquiv
  have hcol : ∀ c, column (componentRows N w') c = column (componentRows N w) (ρ c) := by
    intro c
    obtain ⟨⟨k, i⟩, rfl⟩ := finProdFinEquiv.surjective c
    have hρ : ρ (finProdFinEquiv (k, i)) = finProdFinEquiv (k, π i) := by simp [ρ]
    rw [hρ]
    apply List.ext_getElem
    · simp [column, componentRows, hl]
    · intro t h1 h2
      have e1 := componentRows_apply N w' k i t
      have e2 := componentRows_apply N w k (π i) t
      rw [List.getD_eq_getElem _ _ h1] at e1
      rw [List.getD_eq_getElem _ _ h2] at e2
      rw [e1, e2]
      have ht : t < w.length := by simpa [column, componentRows] using h2
      have ht' : t < w'.length := by rw [hl]; exact ht
      rw [List.getElem?_eq_getElem ht, List.getElem?_eq_getElem ht']
      exact h t _ _ (List.getElem?_eq_getElem ht) (List.getElem?_eq_getElem ht') i k
  unfold summedSpectra at hr ⊢
  cases hp : powerSpectra env alg p (componentRows N w) dt with
  | error e => rw [hp] at hr; simp [Except.map] at hr
  | ok x =>
    obtain ⟨b, psd⟩ := x
    rw [hp] at hr
    obtain ⟨hw, s, hs, rfl⟩ := powerSpectra_elim hp
    rw [componentRows_length] at hw
    rw [powerSpectra_intro (w := b) (by rw [componentRows_length, hl]; exact hw) (fun c => s (ρ c)) (by
      intro c
      rw [hcol c, ← hs (ρ c)]
      unfold columnSpec
      by_cases ha : alg = 1
      · rw [hmem ha c (ρ c)]
      · simp [ha])]
    rw [← hr]
    simp only [Except.map, psdRows_sums]
    congr 2
    refine List.map_congr_left fun k _ => ?_
    congr 1
    exact Equiv.sum_comp ρ fun i => (s i).getD k 0

/-- The renumbering of the atoms of the supercell. -/
def placePerm (N M : ℕ) (σ : Equiv.Perm ℕ) (hσ : ∀ i, σ i < N ↔ i < N) : Equiv.Perm (Fin (N * M)) where
  toFun i := ⟨placeOf σ M i, placeOf_lt σ (fun j hj => (hσ j).2 hj) i i.2⟩
  invFun i := ⟨placeOf σ.symm M i, placeOf_lt σ.symm (fun j hj => by rw [← hσ, Equiv.apply_symm_apply]; exact hj) i i.2⟩
  left_inv i := Fin.ext (placeOf_inv _ _ (fun j => σ.symm_apply_apply j) i (Nat.pos_of_ne_zero (by rintro rfl; exact absurd i.2 (by simp))))
  right_inv i := Fin.ext (placeOf_inv _ _ (fun j => σ.apply_symm_apply j) i (Nat.pos_of_ne_zero (by rintro rfl; exact absurd i.2 (by simp))))

/-- **C143**: the full spectrum does not depend on the numbering of the atoms, with every algorithm (for the maximum entropy method the words behind the arrays, which it reads by mistake, C30, must be the same
for all columns). -/
theorem C143_numbering_full (env : SpecEnv) (alg : ℤ) (hmem : alg = 1 → ∀ i j, env.junk i = env.junk j) (p : SpecParams) (a : AnalysisInput d f) (σ : Equiv.Perm ℕ)
    (hσ : ∀ i, σ i < a.positions.length ↔ i < a.positions.length) (n : List ℕ) (hn : a.multiples = some n) (ev : Fin f → ℕ → Fin d → ℂ) (hm : a.masses.length = a.positions.length) (r : Bool × List ℝ)
    (hr : a.fullSpectrum env alg p = some (.ok r)) : (a.renumbered σ n.prod ev).fullSpectrum env alg p = some (.ok r) := by
  have hn' : (a.renumbered σ n.prod ev).multiples = some n := hn
  have hpos : ∀ i < a.positions.length, (a.renumbered σ n.prod ev).positions[i]? = a.positions[σ i]? := by
    intro i hi
    have : σ i < a.positions.length := (hσ i).2 hi
    simp [AnalysisInput.renumbered, List.getD_eq_getElem?_getD, hi, List.getElem?_eq_getElem this]
  have hmass : ∀ i < a.positions.length, (a.renumbered σ n.prod ev).masses[i]? = a.masses[σ i]? := by
    intro i hi
    have : σ i < a.masses.length := by rw [hm]; exact (hσ i).2 hi
    simp [AnalysisInput.renumbered, List.getD_eq_getElem?_getD, hi, List.getElem?_eq_getElem this]
  have hcoords : ∀ i < a.positions.length * n.prod, (positionsSupercell (a.renumbered σ n.prod ev).positions a.cell n).getD i 0 =
      (positionsSupercell a.positions a.cell n).getD (placeOf σ n.prod i) 0 := by
    intro i hi
    rw [List.getD_eq_getElem?_getD, List.getD_eq_getElem?_getD, positions_place _ _ _ n σ _ hpos i hi]
  have hmasses : ∀ i < a.positions.length * n.prod, (expandSupercell (a.renumbered σ n.prod ev).masses n).getD i 0 =
      (expandSupercell a.masses n).getD (placeOf σ n.prod i) 0 := by
    intro i hi
    rw [List.getD_eq_getElem?_getD, List.getD_eq_getElem?_getD, expand_place _ _ n σ _ hmass i hi]
  unfold AnalysisInput.fullSpectrum at hr ⊢
  rw [hn] at hr
  rw [hn']
  simp only [Option.bind_eq_bind, Option.bind_some] at hr ⊢
  rw [show (a.renumbered σ n.prod ev).cell = a.cell from rfl, show (a.renumbered σ n.prod ev).dt = a.dt from rfl]
  rcases a.velocities_renumbered σ n.prod ev (positionsSupercell a.positions a.cell n) (positionsSupercell (a.renumbered σ n.prod ev).positions a.cell n)
    (a.positions.length * n.prod) hcoords with ⟨h1, h2⟩ | ⟨vs, vs', h1, h2, hl, h⟩
  · rw [h1] at hr
    simp at hr
  · rw [h1] at hr
    rw [h2]
    simp only [Option.bind_some, Option.some.injEq] at hr ⊢
    rw [C01_count] at hr
    rw [C01_count, show (a.renumbered σ n.prod ev).positions.length = a.positions.length by simp [AnalysisInput.renumbered]]
    refine summedSpectra_perm env alg hmem p _ _ _ (by simp [hl]) a.dt (placePerm a.positions.length n.prod σ hσ) ?_ r hr
    intro t v v' hv0 hv1 i k
    rw [List.getElem?_map, Option.map_eq_some_iff] at hv0 hv1
    obtain ⟨u, hu, rfl⟩ := hv0
    obtain ⟨u', hu', rfl⟩ := hv1
    unfold massWeighted
    rw [hmasses i i.2, h t u u' hu hu' i i.2 k]
    rfl

/-- Concrete case: the two atoms of the crystal exchanged, direct Fourier transform. -/
example (env : SpecEnv) (hf : 100 < env.fuel) : ∃ r, pairCrystal.fullSpectrum env 0 ⟨[0, 1], 1, 1, 1, 0⟩ = some (.ok r) ∧
    (pairCrystal.renumbered (Equiv.swap 0 1) 2 pairCrystal.ev).fullSpectrum env 0 ⟨[0, 1], 1, 1, 1, 0⟩ = some (.ok r) := by
  obtain ⟨r, hr⟩ : ∃ r, pairCrystal.fullSpectrum env 0 ⟨[0, 1], 1, 1, 1, 0⟩ = some (.ok r) := by
    unfold AnalysisInput.fullSpectrum
    rw [AnalysisInput.pairCrystal_multiples]
    obtain ⟨vs, hvs, hvl⟩ : ∃ vs, pairCrystal.velocities (positionsSupercell pairCrystal.positions pairCrystal.cell [2, 1]) = some vs ∧ vs.length = 2 := by
      unfold AnalysisInput.velocities
      rw [if_neg (by simp [pairCrystal])]
      exact ⟨_, rfl, by simp [pairCrystal]⟩
    simp only [Option.bind_eq_bind, Option.bind_some, hvs]
    unfold summedSpectra
    obtain ⟨psd, hpsd⟩ := C105_fourier_returns env ⟨[0, 1], 1, 1, 1, 0⟩ (componentRows (positionsSupercell pairCrystal.positions pairCrystal.cell [2, 1]).length
      (vs.map fun v => massWeighted (expandSupercell pairCrystal.masses [2, 1]) v)) pairCrystal.dt (by simp [componentRows, hvl]; omega) (by simp) (Or.inr rfl)
    rw [hpsd]
    exact ⟨_, rfl⟩
  refine ⟨r, hr, C143_numbering_full env 0 (by norm_num) _ pairCrystal (Equiv.swap 0 1) ?_ [2, 1] AnalysisInput.pairCrystal_multiples _ rfl r hr⟩
  intro i
  have hlt : ∀ i, i < pairCrystal.positions.length ↔ i = 0 ∨ i = 1 := by intro i; simp [pairCrystal]; omega
  rw [hlt, hlt]
  rcases Nat.lt_or_ge i 2 with h | h
  · interval_cases i <;> simp
  · rw [Equiv.swap_apply_of_ne_of_ne (by omega) (by omega)]

end Verif
