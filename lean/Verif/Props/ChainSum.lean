import Verif.Props.ChainFull
import Verif.Props.NormalModes

/-! # C104 from the trajectory: the spectra of all commensurate wave vectors sum up to the full spectrum -/

set_option autoImplicit false

namespace Verif

variable {d f : ℕ} {Q : Type*} [Fintype Q]

theorem powerSpectra_fourier {m : ℕ} (env : SpecEnv) (p : SpecParams) (hs : 0 < p.step) (hm : p.method = 0 ∨ p.method = 1) (w : List (Fin m → ℂ)) (hw : w.length < env.fuel) (dt : ℝ) :
    powerSpectra env 0 p w dt =
      .ok (false, psdRows p.freqs.length (List.ofFn fun i => p.freqs.map fun f => corrValue (column w i) w.length (f * 2 * Real.pi) dt p.step p.method.toNat)) := by
  apply powerSpectra_intro (by simp [specCheck])
  intro i
  rw [columnSpec_fourier env p i _ dt hs (by simpa [column] using hw) hm]
  simp [column]

/-- Matrices of velocities whose scalar products (over the columns, between any two time steps) sum up to those of another have spectra that sum up to those of the other. -/
theorem gram_sums {m m0 : ℕ} (env : SpecEnv) (p : SpecParams) (hs : 0 < p.step) (hm : p.method = 0 ∨ p.method = 1) (dt : ℝ) (N : ℕ) (hN : N < env.fuel) (w : Q → List (Fin m → ℂ))
    (w0 : List (Fin m0 → ℂ)) (hw : ∀ x, (w x).length = N) (hw0 : w0.length = N)
    (hG : ∀ a b : ℕ, ∑ x, ∑ i, starRingEnd ℂ ((column (w x) i).getD a 0) * (column (w x) i).getD b 0 = ∑ j, starRingEnd ℂ ((column w0 j).getD a 0) * (column w0 j).getD b 0) :
    ∃ (r : Q → List (List ℝ)) (r0 : List (List ℝ)), (∀ x, powerSpectra env 0 p (w x) dt = .ok (false, r x)) ∧ powerSpectra env 0 p w0 dt = .ok (false, r0) ∧
      (∀ x, (r x).length = p.freqs.length) ∧ r0.length = p.freqs.length ∧ ∀ k, ∑ x, ((r x).map List.sum).getD k 0 = (r0.map List.sum).getD k 0 := by
  refine ⟨_, _, fun x => powerSpectra_fourier env p hs hm (w x) (by rw [hw x]; exact hN) dt, powerSpectra_fourier env p hs hm w0 (by rw [hw0]; exact hN) dt, ?_, ?_, ?_⟩
  · intro x; simp [psdRows]
  · simp [psdRows]
  · intro k
    simp only [psdRows_sums]
    by_cases hk : k < p.freqs.length
    · have hget : ∀ g : ℕ → ℝ, ((List.range p.freqs.length).map g).getD k 0 = g k := by
        intro g
        simp [List.getD_eq_getElem?_getD, List.getElem?_range hk]
      simp only [hget]
      rw [← Finset.sum_mul]
      congr 1
      simp only [List.getD_eq_getElem?_getD, List.getElem?_map, List.getElem?_eq_getElem hk, Option.map_some, Option.getD_some, hw, hw0]
      rw [← Fintype.sum_prod_type' (fun x i => corrValue (column (w x) i) N (p.freqs[k] * 2 * Real.pi) dt p.step p.method.toNat), corrValue_sum, corrValue_sum]
      have : ∀ a b : ℕ, ∑ s : Q × Fin m, starRingEnd ℂ ((column (w s.1) s.2).getD a 0) * (column (w s.1) s.2).getD b 0 =
          ∑ j, starRingEnd ℂ ((column w0 j).getD a 0) * (column w0 j).getD b 0 := by
        intro a b
        rw [← hG a b, Fintype.sum_prod_type]
      simp only [this]
    · have hget : ∀ g : ℕ → ℝ, ((List.range p.freqs.length).map g).getD k 0 = 0 := by
        intro g
        rw [List.getD_eq_getElem?_getD, List.getElem?_eq_none (by simpa using hk)]
        rfl
      simp only [hget, Finset.sum_const_zero]

/-- Scalar products of the columns of `componentRows`. -/
theorem gram_components (N : ℕ) (vs : List (ℕ → Fin d → ℂ)) (g : (ℕ → Fin d → ℂ) → ℕ → Fin d → ℂ) (a b : ℕ) :
    ∑ s, starRingEnd ℂ ((column (componentRows N (vs.map g)) s).getD a 0) * (column (componentRows N (vs.map g)) s).getD b 0 =
      match vs[a]?, vs[b]? with
      | some u, some v => ∑ i ∈ Finset.range N, ∑ k, starRingEnd ℂ (g u i k) * g v i k
      | _, _ => 0 := by
  rw [← Equiv.sum_comp finProdFinEquiv, Fintype.sum_prod_type_right]
  simp only [componentRows_apply, List.getElem?_map, Option.map_map]
  cases vs[a]? with
  | none => simp
  | some u =>
    cases vs[b]? with
    | none => simp
    | some v =>
      simp only [Option.map_some, Option.getD_some, Function.comp]
      exact Fin.sum_univ_eq_sum_range (fun i => ∑ k, starRingEnd ℂ (g u i k) * g v i k) N

theorem gram_rows (vs : List (ℕ → Fin d → ℂ)) {m : ℕ} (g : (ℕ → Fin d → ℂ) → Fin m → ℂ) (a b : ℕ) :
    ∑ s, starRingEnd ℂ ((column (vs.map g) s).getD a 0) * (column (vs.map g) s).getD b 0 =
      match vs[a]?, vs[b]? with
      | some u, some v => ∑ i, starRingEnd ℂ (g u i) * g v i
      | _, _ => 0 := by
  unfold column
  simp only [List.getD_eq_getElem?_getD, List.getElem?_map, Option.map_map]
  cases vs[a]? with
  | none => simp
  | some u =>
    cases vs[b]? with
    | none => simp
    | some v => simp

namespace AnalysisInput

/-- Specification: the same analysis at another wave vector, with the eigenvectors of that one. -/
def atPoint (a : AnalysisInput d f) (q : Fin d → ℝ) (ev : Fin f → ℕ → Fin d → ℂ) : AnalysisInput d f := { a with q := q, ev := ev }

end AnalysisInput

open AnalysisInput

/-- **C104**, from the trajectory: for a crystal and a complete set of wave vectors commensurate with the MD cell, each with orthonormal eigenvectors, the wave-vector spectra of all of them and the spectra of all
modes of all of them sum up to the full spectrum, at every frequency (direct Fourier transform). -/
theorem C104_chain [DecidableEq Q] (env : SpecEnv) (p : SpecParams) (hs : 0 < p.step) (hm : p.method = 0 ∨ p.method = 1) (a : AnalysisInput d f) (hf : a.frames.length < env.fuel) (h2 : 2 ≤ a.frames.length)
    (n : Fin d → ℕ) (hn : a.multiples = some (List.ofFn n)) (qred : Q → Fin d → ℝ) (ev : Q → Fin f → ℕ → Fin d → ℂ)
    (h : Setting a.positions a.labels a.cell a.primitive n a.nPrim qred fun x s (t : Fin a.nPrim) c => ev x s t c) :
    ∃ (full : List ℝ) (wave : Q → List ℝ) (phonon : Q → List (List ℝ)), a.fullSpectrum env 0 p = some (.ok (false, full)) ∧
      (∀ x, (a.atPoint (qred x) (ev x)).waveSpectrum env 0 p = some (.ok (false, wave x))) ∧ (∀ x, (a.atPoint (qred x) (ev x)).phononSpectrum env 0 p = some (.ok (false, phonon x))) ∧
      full.length = p.freqs.length ∧ ∀ k < p.freqs.length, ∑ x, (wave x).getD k 0 = full.getD k 0 ∧ ∑ x, ((phonon x).getD k []).sum = full.getD k 0 := by
  obtain ⟨vs, hvs, hvl⟩ : ∃ vs, a.velocities (positionsSupercell a.positions a.cell (List.ofFn n)) = some vs ∧ vs.length = a.frames.length := by
    unfold velocities
    rw [if_neg (by omega)]
    exact ⟨_, rfl, by simp⟩
  have hcl : (positionsSupercell a.positions a.cell (List.ofFn n)).length = a.positions.length * ∏ c, n c := by rw [C01_count, List.prod_ofFn]
  have hphw := vc_inner h
  have hph := vq_inner h
  obtain ⟨r, r0, hr, hr0, hrl, hr0l, hrs⟩ := gram_sums env p hs hm a.dt a.frames.length hf
    (fun x : Q => componentRows a.nPrim (vs.map fun v t k => projectOntoWaveVector (massWeighted (expandSupercell a.masses (List.ofFn n)) v) (qVector a.primCellOf (qred x))
      (positionsSupercell a.positions a.cell (List.ofFn n)) (expandSupercell a.labels (List.ofFn n)) a.nPrim (-1) t k))
    (componentRows (positionsSupercell a.positions a.cell (List.ofFn n)).length (vs.map fun v => massWeighted (expandSupercell a.masses (List.ofFn n)) v))
    (fun x => by simp [componentRows, hvl]) (by simp [componentRows, hvl]) (by
      intro i j
      simp only [gram_components, hcl]
      cases vs[i]? with
      | none => simp
      | some u =>
        cases vs[j]? with
        | none => simp
        | some v =>
          have := hphw (massWeighted (expandSupercell a.masses (List.ofFn n)) u) (massWeighted (expandSupercell a.masses (List.ofFn n)) v)
          simp only [← Fin.sum_univ_eq_sum_range] at this ⊢
          exact this)
  obtain ⟨r', r0', hr', hr0', hrl', hr0l', hrs'⟩ := gram_sums env p hs hm a.dt a.frames.length hf
    (fun x : Q => vs.map fun v => projectOntoPhonon
      (fun (t : Fin a.nPrim) k => projectOntoWaveVector (massWeighted (expandSupercell a.masses (List.ofFn n)) v) (qVector a.primCellOf (qred x))
        (positionsSupercell a.positions a.cell (List.ofFn n)) (expandSupercell a.labels (List.ofFn n)) a.nPrim (-1) t k) fun s (t : Fin a.nPrim) k => ev x s t k)
    (componentRows (positionsSupercell a.positions a.cell (List.ofFn n)).length (vs.map fun v => massWeighted (expandSupercell a.masses (List.ofFn n)) v))
    (fun x => by simp [hvl]) (by simp [componentRows, hvl]) (by
      intro i j
      simp only [gram_components, gram_rows, hcl]
      cases vs[i]? with
      | none => simp
      | some u =>
        cases vs[j]? with
        | none => simp
        | some v =>
          exact hph (massWeighted (expandSupercell a.masses (List.ofFn n)) u) (massWeighted (expandSupercell a.masses (List.ofFn n)) v))
  have h00 : r0' = r0 := by
    rw [hr0, Except.ok.injEq, Prod.mk.injEq] at hr0'
    exact hr0'.2.symm
  subst h00
  refine ⟨r0'.map List.sum, fun x => (r x).map List.sum, r', ?_, ?_, ?_, by simpa using hr0l, ?_⟩
  · unfold fullSpectrum
    rw [hn]
    simp only [Option.bind_eq_bind, Option.bind_some, hvs]
    unfold summedSpectra
    rw [hr0]
    rfl
  · intro x
    have : (a.atPoint (qred x) (ev x)).waveSpectrum env 0 p = (a.multiples.bind fun n => (a.velocities (positionsSupercell a.positions a.cell n)).bind fun vs =>
        some (summedSpectra env 0 p a.nPrim (vs.map fun v t k => projectOntoWaveVector (massWeighted (expandSupercell a.masses n) v) (qVector a.primCellOf (qred x))
          (positionsSupercell a.positions a.cell n) (expandSupercell a.labels n) a.nPrim (-1) t k) a.dt)) := by
      unfold waveSpectrum
      exact rfl
    rw [this, hn, Option.bind_some, hvs, Option.bind_some]
    unfold summedSpectra
    rw [hr x]
    rfl
  · intro x
    have : (a.atPoint (qred x) (ev x)).vq = (a.multiples.bind fun n => (a.velocities (positionsSupercell a.positions a.cell n)).bind fun vs =>
        some (vs.map fun v => projectOntoPhonon (fun (t : Fin a.nPrim) k => projectOntoWaveVector (massWeighted (expandSupercell a.masses n) v) (qVector a.primCellOf (qred x))
          (positionsSupercell a.positions a.cell n) (expandSupercell a.labels n) a.nPrim (-1) t k) fun s (t : Fin a.nPrim) k => ev x s t k)) := by
      unfold AnalysisInput.vq
      exact rfl
    unfold phononSpectrum
    rw [this, hn, Option.bind_some, hvs, Option.bind_some, Option.map_some]
    exact congrArg some (hr' x)
  · intro k hk
    refine ⟨hrs k, ?_⟩
    rw [← hrs' k]
    refine Finset.sum_congr rfl fun x _ => ?_
    rw [List.getD_eq_getElem?_getD, List.getD_eq_getElem?_getD, List.getElem?_map, List.getElem?_eq_getElem (by rw [hrl' x]; exact hk)]
    simp

/-! ## A crystal the theorem applies to -/

/-- One atom in a square cell of side 1, MD cell of 2 × 1 cells, two frames in which the first atom moves by a tenth. -/
noncomputable def rowCrystal : AnalysisInput 2 2 where
  positions := [![0, 0]]
  masses := [4]
  cell := 1
  primitive := 1
  mdCell := !![2, 0; 0, 1]
  frames := [fun i => if i = 0 then ![0, 0] else ![1, 0], fun i => if i = 0 then ![1 / 10, 0] else ![1, 0]]
  dt := 1
  q := ![1 / 2, 0]
  ev := fun s _ c => if s = c then 1 else 0

theorem rowCrystal_multiples : rowCrystal.multiples = some (List.ofFn ![2, 1]) := by
  have : rowCrystal.multiples = pairCrystal.multiples := by unfold multiples; exact rfl
  rw [this, pairCrystal_multiples]
  simp

theorem rowCrystal_labels : rowCrystal.labels = [0] := by
  unfold labels
  rw [typeLabels_congr _ (fun _ _ => false) _ (by
    intro i j hij hj
    have hj' : j < 1 := hj
    omega)]
  decide +kernel

/-- The two commensurate wave vectors of the row, with polarizations along the axes. -/
theorem rowCrystal_setting (T : ℕ) (hT : T = 1) : Setting (Q := Fin 2) (f := 2) (e := 2) rowCrystal.positions [0] rowCrystal.cell rowCrystal.primitive ![2, 1] T
    (fun x => ![((x : ℕ) : ℝ) / 2, 0]) fun _ s (_ : Fin T) c => if s = c then 1 else 0 := by
  subst hT
  have hprim : primCell rowCrystal.cell rowCrystal.primitive = 1 := by unfold primCell; simp [rowCrystal]
  have hl : ∀ z : Fin 2 → ℤ, latticeSum (1 : Matrix (Fin 2) (Fin 2) ℝ) z = fun c => (z c : ℝ) := by
    intro z; funext c; simp [latticeSum, Matrix.one_apply]
  refine ⟨by simp [rowCrystal], by simp [rowCrystal], ?_, fun c => by fin_cases c <;> simp, one_pos, ?_, ?_, rfl⟩
  · rw [hprim, show rowCrystal.cell = 1 from rfl]
    refine ⟨rfl, ?_, ?_⟩
    · intro i hi z
      have hi0 : i = 0 := by simpa [rowCrystal] using hi
      subst hi0
      refine ⟨0, by simp [rowCrystal], rfl, fun c => -z c, ?_⟩
      rw [hl, hl]
      funext c
      simp
    · intro i hi j hj _ w hw
      have hi0 : i = 0 := by simpa [rowCrystal] using hi
      have hj0 : j = 0 := by simpa [rowCrystal] using hj
      rw [hi0, hj0]
  · refine ⟨?_, ?_, ?_, by simp, by simp⟩
    · intro x i
      rw [show rowCrystal.primitive = 1 from rfl, inv_one, Matrix.vecMul_one]
      fin_cases i
      · exact ⟨(x : ℕ), by simp⟩
      · exact ⟨0, by simp⟩
    · intro x y hxy
      obtain ⟨m, hm⟩ := hxy 0
      have h1 : ((x : ℕ) : ℝ) - ((y : ℕ) : ℝ) = 2 * m := by
        simp at hm
        linarith
      have h2 : ((x : ℕ) : ℤ) - ((y : ℕ) : ℤ) = 2 * m := by exact_mod_cast h1
      apply Fin.ext
      have := x.2; have := y.2
      omega
    · intro t ht
      have : t = 0 := by omega
      subst this
      simp
  · intro x k l
    fin_cases k <;> fin_cases l <;> simp

example (env : SpecEnv) (hf : 100 < env.fuel) : ∃ (full : List ℝ) (wave : Fin 2 → List ℝ), rowCrystal.fullSpectrum env 0 ⟨[0, 1], 1, 1, 1, 0⟩ = some (.ok (false, full)) ∧
    (∀ x : Fin 2, (rowCrystal.atPoint ![((x : ℕ) : ℝ) / 2, 0] rowCrystal.ev).waveSpectrum env 0 ⟨[0, 1], 1, 1, 1, 0⟩ = some (.ok (false, wave x))) ∧
    (wave 0).getD 1 0 + (wave 1).getD 1 0 = full.getD 1 0 := by
  have hT : rowCrystal.nPrim = 1 := by simp [nPrim, rowCrystal_labels]
  obtain ⟨full, wave, _, h1, h2, -, -, h⟩ := C104_chain (Q := Fin 2) env ⟨[0, 1], 1, 1, 1, 0⟩ one_pos (Or.inr rfl) rowCrystal (by simp [rowCrystal]; omega) (by simp [rowCrystal]) ![2, 1]
    rowCrystal_multiples (fun x => ![((x : ℕ) : ℝ) / 2, 0]) (fun _ => rowCrystal.ev) (by
      rw [rowCrystal_labels]
      exact rowCrystal_setting _ hT)
  refine ⟨full, wave, h1, h2, ?_⟩
  have := (h 1 (by simp)).1
  rw [Fin.sum_univ_two] at this
  exact this

end Verif
