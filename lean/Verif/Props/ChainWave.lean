import Mathlib.Data.List.GetD
import Verif.Props.Numbering
import Verif.Props.ChainOrigin

/-! # C138: spectra at equivalent and at opposite wave vectors -/

set_option autoImplicit false

namespace Verif

variable {d f : ℕ}

namespace AnalysisInput

/-- Specification: the same crystal and trajectory with another wave vector (reduced coordinates) and its eigenvectors. -/
def atWaveVector (a : AnalysisInput d f) (q : Fin d → ℝ) (ev : Fin f → ℕ → Fin d → ℂ) : AnalysisInput d f := { a with q := q, ev := ev }

/-- Labels of the atoms of the supercell are below the number of primitive atoms. -/
theorem expanded_labels_lt (a : AnalysisInput d f) (n : List ℕ) : ∀ t ∈ expandSupercell a.labels n, t < a.nPrim := by
  intro t ht
  unfold expandSupercell at ht
  obtain ⟨x, hx, hxt⟩ := List.mem_flatMap.1 ht
  rw [List.eq_of_mem_replicate hxt]
  exact (C06_labels _ _ x).1 hx

theorem expanded_labels_length (a : AnalysisInput d f) (n : List ℕ) : (expandSupercell a.labels n).length = a.positions.length * n.prod := by
  rw [C02_length a.labels a.positions a.cell n a.labels_length, C01_count]

/-- One row of the projected velocities as a sum over the atoms of the supercell. -/
noncomputable def rowOf (a : AnalysisInput d f) (n : List ℕ) (v : ℕ → Fin d → ℂ) (s : Fin f) : ℂ :=
  (∑ i ∈ Finset.range (a.positions.length * n.prod), ∑ k, massWeighted (expandSupercell a.masses n) v i k *
    Complex.exp (-Complex.I * ((∑ c, qVector a.primCellOf a.q c * (positionsSupercell a.positions a.cell n).getD i 0 c : ℝ) : ℂ)) *
      star (a.ev s ((expandSupercell a.labels n).getD i 0) k)) / (Real.sqrt (((a.positions.length * n.prod : ℕ) : ℝ) / a.nPrim) : ℂ)

theorem vq_rows (a : AnalysisInput d f) : a.vq = a.multiples.bind fun n => (a.velocities (positionsSupercell a.positions a.cell n)).map (List.map (a.rowOf n)) := by
  unfold vq
  cases a.multiples with
  | none => rfl
  | some n =>
    simp only [Option.bind_eq_bind, Option.bind_some]
    cases a.velocities (positionsSupercell a.positions a.cell n) with
    | none => rfl
    | some vs =>
      simp only [Option.bind_some, Option.map_some, Option.some.injEq]
      apply List.map_congr_left
      intro v _
      funext s
      rw [row_atoms _ _ _ _ _ (a.expanded_labels_lt n), a.expanded_labels_length]
      rfl

/-- If the rows are related by a function, so are the projected velocities. -/
theorem vq_atWaveVector (a : AnalysisInput d f) (q : Fin d → ℝ) (ev : Fin f → ℕ → Fin d → ℂ) (g : ℂ → ℂ)
    (h : ∀ n vs v, a.velocities (positionsSupercell a.positions a.cell n) = some vs → v ∈ vs → ∀ s, (a.atWaveVector q ev).rowOf n v s = g (a.rowOf n v s)) :
    (a.atWaveVector q ev).vq = a.vq.map (List.map fun row s => g (row s)) := by
  rw [vq_rows, vq_rows]
  have h1 : (a.atWaveVector q ev).multiples = a.multiples := by unfold multiples; rfl
  have h2 : ∀ x, (a.atWaveVector q ev).velocities x = a.velocities x := by intro x; unfold velocities; rfl
  have h3 : (a.atWaveVector q ev).positions = a.positions := rfl
  have h4 : (a.atWaveVector q ev).cell = a.cell := rfl
  rw [h1, h3, h4]
  simp only [h2]
  cases a.multiples with
  | none => rfl
  | some n =>
    simp only [Option.bind_some]
    cases hv : a.velocities (positionsSupercell a.positions a.cell n) with
    | none => rfl
    | some vs =>
      simp only [Option.map_some, Option.some.injEq, List.map_map]
      apply List.map_congr_left
      intro v hm
      funext s
      exact h n vs v hv hm s

end AnalysisInput

/-- Each atom of the supercell is an atom of the unit cell moved by a lattice vector, with its label. -/
theorem supercell_atom (a : AnalysisInput d f) (n : List ℕ) (i : ℕ) (hi : i < a.positions.length * n.prod) :
    ∃ r : List ℕ, (positionsSupercell a.positions a.cell n).getD i 0 = a.positions.getD (i / n.prod) 0 + latticeVector r a.cell ∧
      a.labels[i / n.prod]? = some ((expandSupercell a.labels n).getD i 0) := by
  have hM : 0 < n.prod := Nat.pos_of_ne_zero (by intro h0; rw [h0] at hi; simp at hi)
  have h1 : i / n.prod < a.positions.length := (Nat.div_lt_iff_lt_mul hM).2 hi
  have h3 := Nat.mod_lt i hM
  have e1 : (expandSupercell a.labels n)[i]? = a.labels[i / n.prod]? := by
    conv_lhs => rw [← Nat.div_add_mod' i n.prod]
    exact C02_block _ _ _ _ h3
  have e2 := positions_block a.positions a.cell n (i / n.prod) (i % n.prod) h3
  rw [Nat.div_add_mod' i n.prod, List.getElem?_eq_getElem h1, Option.bind_some, List.getElem?_map,
    List.getElem?_eq_getElem (show i % n.prod < (cellTranslations n).length by rw [length_cellTranslations]; exact h3)] at e2
  refine ⟨(cellTranslations n)[i % n.prod]'(by rw [length_cellTranslations]; exact h3), ?_, ?_⟩
  · rw [List.getD_eq_getElem?_getD, e2, List.getD_eq_getElem _ _ h1]
    rfl
  · have h4 : i / n.prod < a.labels.length := by rw [a.labels_length]; exact h1
    rw [List.getD_eq_getElem?_getD, e1, List.getElem?_eq_getElem h4]
    rfl

/-- A reciprocal lattice vector has phase 1 on the vectors of the lattice. -/
theorem reciprocal_phase (P cell : Matrix (Fin d) (Fin d) ℝ) (hP : P.det ≠ 0) (B : Matrix (Fin d) (Fin d) ℤ) (hB : cell = (B.map fun z => (z : ℝ)) * P) (G : Fin d → ℤ) (r : List ℕ) :
    ∃ m : ℤ, ∑ c, qVector P (fun i => (G i : ℝ)) c * latticeVector r cell c = 2 * Real.pi * m := by
  have hl : latticeVector r cell = Matrix.vecMul (fun i : Fin d => (r.getD i 0 : ℝ)) cell := by
    funext j
    simp [latticeVector, Matrix.vecMul, dotProduct]
  refine ⟨∑ j, G j * ∑ i : Fin d, (r.getD i 0 : ℤ) * B i j, ?_⟩
  have hu : IsUnit P.det := isUnit_iff_ne_zero.2 hP
  have h1 : ∑ c, qVector P (fun i => (G i : ℝ)) c * latticeVector r cell c = dotProduct (qVector P fun i => (G i : ℝ)) (latticeVector r cell) := rfl
  rw [h1, hl, hB, ← Matrix.vecMul_vecMul]
  generalize hw : Matrix.vecMul (fun i : Fin d => (r.getD i 0 : ℝ)) (B.map fun z => (z : ℝ)) = w
  have h2 : dotProduct (qVector P fun i => (G i : ℝ)) (Matrix.vecMul w P) = 2 * Real.pi * dotProduct (fun i => (G i : ℝ)) w := by
    unfold qVector
    rw [Matrix.vecMul_smul, smul_dotProduct, smul_eq_mul, ← Matrix.dotProduct_mulVec, Matrix.mulVec_transpose, Matrix.vecMul_vecMul, Matrix.mul_nonsing_inv _ hu, Matrix.vecMul_one]
  rw [h2, ← hw]
  simp only [dotProduct, Matrix.vecMul, Matrix.map_apply]
  push_cast
  rfl

/-- C138: a wave vector and the same wave vector plus a vector of the reciprocal lattice of the primitive cell have the same spectra, with every algorithm: the eigenvectors at the
second are those at the first with the phases of the positions of the atoms (as in phonopy). The unit cell consists of whole primitive cells. -/
theorem C138_reciprocal (env : SpecEnv) (alg : ℤ) (p : SpecParams) (a : AnalysisInput d f) (hdet : a.primCellOf.det ≠ 0) (B : Matrix (Fin d) (Fin d) ℤ)
    (hB : a.cell = (B.map fun z => (z : ℝ)) * a.primCellOf) (G : Fin d → ℤ) (ev : Fin f → ℕ → Fin d → ℂ)
    (hev : ∀ i t, a.labels[i]? = some t → ∀ s k, ev s t k =
      Complex.exp (-Complex.I * ((∑ c, qVector a.primCellOf (fun i => (G i : ℝ)) c * a.positions.getD i 0 c : ℝ) : ℂ)) * a.ev s t k) :
    (a.atWaveVector (fun i => a.q i + G i) ev).phononSpectrum env alg p = a.phononSpectrum env alg p := by
  have hvq : (a.atWaveVector (fun i => a.q i + G i) ev).vq = a.vq := by
    rw [a.vq_atWaveVector _ _ (fun z => z)]
    · cases a.vq <;> simp
    intro n vs v _ _ s
    unfold AnalysisInput.rowOf
    have hl : (a.atWaveVector (fun i => a.q i + G i) ev).labels = a.labels := by unfold AnalysisInput.labels AnalysisInput.primCellOf; rfl
    have hp : (a.atWaveVector (fun i => a.q i + G i) ev).primCellOf = a.primCellOf := by unfold AnalysisInput.primCellOf; rfl
    have hT : (a.atWaveVector (fun i => a.q i + G i) ev).nPrim = a.nPrim := by unfold AnalysisInput.nPrim; rw [hl]
    rw [hl, hp, hT]
    simp only [AnalysisInput.atWaveVector]
    congr 1
    refine Finset.sum_congr rfl fun i hi => Finset.sum_congr rfl fun k _ => ?_
    rw [Finset.mem_range] at hi
    obtain ⟨r, hr, ht⟩ := supercell_atom a n i hi
    rw [hev _ _ ht s k, hr]
    obtain ⟨m, hm⟩ := reciprocal_phase a.primCellOf a.cell hdet B hB G r
    generalize a.positions.getD (i / n.prod) 0 = x at *
    have hsum : ∑ c, qVector a.primCellOf (fun i => a.q i + G i) c * (x + latticeVector r a.cell) c =
        ∑ c, qVector a.primCellOf a.q c * (x + latticeVector r a.cell) c + (∑ c, qVector a.primCellOf (fun i => (G i : ℝ)) c * x c + 2 * Real.pi * m) := by
      have hadd : qVector a.primCellOf (fun i => a.q i + G i) = qVector a.primCellOf a.q + qVector a.primCellOf (fun i => (G i : ℝ)) := by
        unfold qVector
        rw [← Matrix.add_vecMul]
        rfl
      rw [← hm, hadd, ← Finset.sum_add_distrib, ← Finset.sum_add_distrib]
      refine Finset.sum_congr rfl fun c _ => ?_
      simp only [Pi.add_apply]
      ring
    rw [hsum]
    generalize (∑ c, qVector a.primCellOf a.q c * (x + latticeVector r a.cell) c) = A
    generalize (∑ c, qVector a.primCellOf (fun i => (G i : ℝ)) c * x c) = C
    have hstar : star (Complex.exp (-Complex.I * (C : ℂ))) = Complex.exp (Complex.I * (C : ℂ)) := by
      rw [Complex.star_def, ← Complex.exp_conj]
      simp
    have hexp : Complex.exp (-Complex.I * ((A + (C + 2 * Real.pi * m) : ℝ) : ℂ)) * Complex.exp (Complex.I * (C : ℂ)) = Complex.exp (-Complex.I * (A : ℂ)) := by
      rw [← Complex.exp_add, Complex.exp_eq_exp_iff_exists_int]
      refine ⟨-m, ?_⟩
      push_cast
      ring
    rw [star_mul', hstar, ← hexp]
    ring
  unfold AnalysisInput.phononSpectrum
  rw [hvq]
  rfl

/-- C138_reciprocal: the crystal of two atoms at the wave vector (1/2, 0) and at (3/2, 0); the atom at (1/4, 1/4) gets the phase -i. -/
example (env : SpecEnv) (alg : ℤ) (p : SpecParams) :
    (pairCrystal.atWaveVector (fun i => pairCrystal.q i + (![1, 0] : Fin 2 → ℤ) i) fun s t k => (if t = 1 then -Complex.I else 1) * pairCrystal.ev s t k).phononSpectrum env alg p =
      pairCrystal.phononSpectrum env alg p := by
  have hl : pairCrystal.labels = [0, 1] := by
    unfold AnalysisInput.labels
    rw [typeLabels_congr _ (fun _ _ => false) _ (by
      intro i j hij hj
      have hj' : j < 2 := hj
      have : i = 0 ∧ j = 1 := by omega
      obtain ⟨rfl, rfl⟩ := this
      simp [sameAtoms, pairCrystal])]
    decide +kernel
  refine C138_reciprocal env alg p pairCrystal (by rw [AnalysisInput.pairCrystal_primCell]; simp) 1 ?_ ![1, 0] _ ?_
  · rw [AnalysisInput.pairCrystal_primCell]
    ext i j
    fin_cases i <;> fin_cases j <;> simp [pairCrystal]
  · intro i t ht s k
    rw [hl] at ht
    rcases Nat.lt_or_ge i 2 with h | h
    · interval_cases i
      · simp at ht
        subst ht
        simp [pairCrystal]
      · simp at ht
        subst ht
        have hq : ∑ c, qVector pairCrystal.primCellOf (fun i => ((![1, 0] : Fin 2 → ℤ) i : ℝ)) c * pairCrystal.positions.getD 1 0 c = Real.pi / 2 := by
          rw [AnalysisInput.pairCrystal_primCell, qVector]
          simp [pairCrystal, Fin.sum_univ_two, Matrix.vecMul_smul]
          ring
        rw [hq]
        have : Complex.exp (-Complex.I * ((Real.pi / 2 : ℝ) : ℂ)) = -Complex.I := by
          rw [show -Complex.I * ((Real.pi / 2 : ℝ) : ℂ) = ((-(Real.pi / 2) : ℝ) : ℂ) * Complex.I by push_cast; ring, Complex.exp_mul_I, ← Complex.ofReal_cos, ← Complex.ofReal_sin]
          simp
        rw [this]
        simp
    · rw [List.getElem?_eq_none (by simpa using h)] at ht
      cases ht

/-! ## Opposite wave vectors -/

theorem memPart_neg (x : ℕ → ℝ) (N M : ℕ) (δ : ℝ) : memPart (fun i => -x i) N M δ = memPart x N M δ := by
  have key : ∀ y : ℕ → ℝ, (∃ δ, memPart y N M δ ≠ 0) → memPart (fun i => -y i) N M δ = memPart y N M δ := by
    intro y h
    have := memPart_scale y (-1) (by simp) N M h δ
    simpa using this
  by_cases h : ∃ δ, memPart x N M δ ≠ 0
  · exact key x h
  · by_cases h' : ∃ δ, memPart (fun i => -x i) N M δ ≠ 0
    · have := key _ h'
      simpa using this.symm
    · push Not at h h'
      rw [h, h']

/-- The maximum entropy spectrum of the conjugate series. -/
theorem powerSpectra_mem_conj {m : ℕ} (env : SpecEnv) (he : CleanMemory env) (p : SpecParams) (vq : List (Fin m → ℂ)) (dt : ℝ) :
    powerSpectra env 1 p (vq.map fun row s => star (row s)) dt = powerSpectra env 1 p vq dt := by
  rw [powerSpectra_eq, powerSpectra_eq, List.length_map]
  by_cases hl : 2 ≤ vq.length
  · have hcol : ∀ i : Fin m, columnSpec env 1 p i (column (vq.map fun row s => star (row s)) i) dt = columnSpec env 1 p i (column vq i) dt := by
      intro i
      rw [columnSpec_mem env he _ _ _ (by simpa [column] using hl), columnSpec_mem env he _ _ _ (by simpa [column] using hl)]
      have hget : ∀ j, (column (vq.map fun row s => star (row s)) i).getD j 0 = star ((column vq i).getD j 0) := by
        intro j
        simp only [column, List.map_map, List.getD_eq_getElem?_getD, List.getElem?_map]
        cases vq[j]? <;> simp
      have hlen : (column (vq.map fun row s => star (row s)) i).length = (column vq i).length := by simp [column]
      simp only [hget, hlen]
      simp only [Complex.star_def, Complex.conj_re, Complex.conj_im, memPart_neg]
    simp only [hcol]
  · have : specCheck 1 p vq.length dt = .error .exit := by
      unfold specCheck
      have : vq.length ≤ p.coefs + 1 := by omega
      simp [this]
    rw [this]
    simp only [Except.bind]

/-- The row at the opposite wave vector, with the conjugate eigenvectors, is the conjugate of the row. -/
theorem rowOf_opposite (a : AnalysisInput d f) (n : List ℕ) (v : ℕ → Fin d → ℂ) (hv : ∀ i k, star (v i k) = v i k) (s : Fin f) :
    (a.atWaveVector (fun i => -a.q i) fun s t k => star (a.ev s t k)).rowOf n v s = star (a.rowOf n v s) := by
  unfold AnalysisInput.rowOf
  have hl : (a.atWaveVector (fun i => -a.q i) fun s t k => star (a.ev s t k)).labels = a.labels := by unfold AnalysisInput.labels AnalysisInput.primCellOf; rfl
  have hp : (a.atWaveVector (fun i => -a.q i) fun s t k => star (a.ev s t k)).primCellOf = a.primCellOf := by unfold AnalysisInput.primCellOf; rfl
  have hT : (a.atWaveVector (fun i => -a.q i) fun s t k => star (a.ev s t k)).nPrim = a.nPrim := by unfold AnalysisInput.nPrim; rw [hl]
  rw [hl, hp, hT]
  simp only [AnalysisInput.atWaveVector]
  rw [star_div₀, star_sum]
  congr 1
  · refine Finset.sum_congr rfl fun i _ => ?_
    rw [star_sum]
    refine Finset.sum_congr rfl fun k _ => ?_
    have hq : qVector a.primCellOf (fun i => -a.q i) = -qVector a.primCellOf a.q := by
      unfold qVector
      rw [← Matrix.neg_vecMul]
      rfl
    have hs : ∑ c, qVector a.primCellOf (fun i => -a.q i) c * (positionsSupercell a.positions a.cell n).getD i 0 c =
        -∑ c, qVector a.primCellOf a.q c * (positionsSupercell a.positions a.cell n).getD i 0 c := by
      rw [hq, ← Finset.sum_neg_distrib]
      refine Finset.sum_congr rfl fun c _ => ?_
      rw [Pi.neg_apply, neg_mul]
    rw [hs, star_mul', star_mul']
    congr 1
    congr 1
    · unfold massWeighted
      rw [star_mul', hv]
      simp
    · rw [Complex.star_def, ← Complex.exp_conj]
      congr 1
      simp
  · simp

/-- C138: opposite wave vectors (with conjugate eigenvectors, as for a real crystal) have the same spectra with the maximum entropy method, for every trajectory. -/
theorem C138_opposite_mem (env : SpecEnv) (he : CleanMemory env) (p : SpecParams) (a : AnalysisInput d f) :
    (a.atWaveVector (fun i => -a.q i) fun s t k => star (a.ev s t k)).phononSpectrum env 1 p = a.phononSpectrum env 1 p := by
  unfold AnalysisInput.phononSpectrum
  have hdt : (a.atWaveVector (fun i => -a.q i) fun s t k => star (a.ev s t k)).dt = a.dt := by simp only [AnalysisInput.atWaveVector]
  rw [hdt, a.vq_atWaveVector _ _ star]
  · rw [Option.map_map]
    cases a.vq with
    | none => simp only [Option.map_none]
    | some v =>
      simp only [Option.map_some, Function.comp, Option.some.injEq]
      rw [powerSpectra_mem_conj env he p v a.dt]
  · intro n vs v hvs hv s
    apply rowOf_opposite
    intro i k
    unfold AnalysisInput.velocities at hvs
    split at hvs
    · cases hvs
    · rw [Option.some.injEq] at hvs
      subst hvs
      obtain ⟨t, -, rfl⟩ := List.mem_map.1 hv
      simp

/-- The spectrum of three data at the frequency number 1. -/
theorem piecePower_three_one (a b c : ℂ) : (piecePower 1 [a, b, c]).getD 1 0 =
    ‖(a * starRingEnd ℂ b + b * starRingEnd ℂ c + (a * starRingEnd ℂ a + b * starRingEnd ℂ b + c * starRingEnd ℂ c) * (-(1 / 2) - (√3 / 2 : ℝ) * Complex.I)
      + (b * starRingEnd ℂ a + c * starRingEnd ℂ b) * (-(1 / 2) + (√3 / 2 : ℝ) * Complex.I)) / 3‖ := by
  have h : correlateSame [a, b, c] = [a * starRingEnd ℂ b + b * starRingEnd ℂ c, a * starRingEnd ℂ a + b * starRingEnd ℂ b + c * starRingEnd ℂ c,
      b * starRingEnd ℂ a + c * starRingEnd ℂ b] := by
    unfold correlateSame
    simp [List.range_succ, Finset.sum_filter, Finset.sum_range_succ]
  have hc : Real.cos (2 * Real.pi / 3) = -(1 / 2) := by
    rw [show 2 * Real.pi / 3 = Real.pi - Real.pi / 3 by ring, Real.cos_pi_sub, Real.cos_pi_div_three]
  have hs : Real.sin (2 * Real.pi / 3) = √3 / 2 := by
    rw [show 2 * Real.pi / 3 = Real.pi - Real.pi / 3 by ring, Real.sin_pi_sub, Real.sin_pi_div_three]
  have e1 : Complex.exp (-2 * Real.pi * Complex.I * (1 : ℕ) * (1 : ℕ) / 3) = -(1 / 2) - (√3 / 2 : ℝ) * Complex.I := by
    rw [show -2 * (Real.pi : ℂ) * Complex.I * (1 : ℕ) * (1 : ℕ) / 3 = ((-(2 * Real.pi / 3) : ℝ) : ℂ) * Complex.I by push_cast; ring, Complex.exp_mul_I,
      ← Complex.ofReal_cos, ← Complex.ofReal_sin, Real.cos_neg, Real.sin_neg, hc, hs]
    push_cast
    ring
  have e2 : Complex.exp (-2 * Real.pi * Complex.I * (1 : ℕ) * (2 : ℕ) / 3) = -(1 / 2) + (√3 / 2 : ℝ) * Complex.I := by
    rw [show -2 * (Real.pi : ℂ) * Complex.I * (1 : ℕ) * (2 : ℕ) / 3 = ((2 * Real.pi / 3 : ℝ) : ℂ) * Complex.I + ((-1 : ℤ) : ℂ) * (2 * Real.pi * Complex.I) by push_cast; ring,
      Complex.exp_add, Complex.exp_int_mul_two_pi_mul_I, mul_one, Complex.exp_mul_I, ← Complex.ofReal_cos, ← Complex.ofReal_sin, hc, hs]
    push_cast
    ring
  unfold piecePower
  rw [h]
  simp only [dft, List.map_cons, List.map_nil, List.length_cons, List.length_nil, List.range_succ, List.range_zero, List.nil_append, List.cons_append, Finset.sum_range_succ,
    Finset.sum_range_zero, zero_add, List.getD_cons_succ, List.getD_cons_zero, mul_one]
  norm_num only [Nat.cast_zero, mul_zero, zero_div, Complex.exp_zero] at e1 e2 ⊢
  rw [e1, e2]
  congr 1
  ring

/-- C138, negation for the fast Fourier transforms: they tell the two directions of travelling waves apart, so that the spectra at opposite wave vectors are different. -/
theorem C138_opposite_fft_violated (env : SpecEnv) : ∃ (a : AnalysisInput 2 1) (p : SpecParams) (psd psd' : List (List ℝ)),
    a.phononSpectrum env 2 p = some (.ok (false, psd)) ∧
      (a.atWaveVector (fun i => -a.q i) fun s t k => star (a.ev s t k)).phononSpectrum env 2 p = some (.ok (false, psd')) ∧ psd ≠ psd' := by
  have hcol : ∀ (i : ℕ) (a b c : ℂ), columnSpec env 2 ⟨[0, 1 / 3], 1, 1, 1, 0⟩ i [a, b, c] 1 =
      .ok [(piecePower 1 [a, b, c]).getD 0 0, (piecePower 1 [a, b, c]).getD 1 0] := by
    intro i a b c
    unfold columnSpec numpyPower
    rw [if_neg (by norm_num), if_neg (by norm_num), numpyPower_whole 0 (1 / 3) [] (by norm_num) [a, b, c] (by simp) 1 one_pos (by norm_num)]
    simp only [Option.map_some, List.map_cons, List.map_nil]
    have h0 := C31_grid 1 one_pos (piecePower 1 [a, b, c]) 0 (by rw [length_piecePower]; simp)
    have h1 := C31_grid 1 one_pos (piecePower 1 [a, b, c]) 1 (by rw [length_piecePower]; simp)
    rw [← h0, ← h1]
    congr 4
    · simp [fftFreq, length_piecePower]
    · simp [fftFreq, length_piecePower]
  have hspec : ∀ (x y z : ℂ), powerSpectra env 2 ⟨[0, 1 / 3], 1, 1, 1, 0⟩ [fun _ : Fin 1 => x, fun _ => y, fun _ => z] 1 = .ok (false,
      [[(piecePower 1 [x, y, z]).getD 0 0 * unitConversion], [(piecePower 1 [x, y, z]).getD 1 0 * unitConversion]]) := by
    intro x y z
    rw [powerSpectra_intro (w := false) (by simp [specCheck, resolutionWarning]) (fun _ => [(piecePower 1 [x, y, z]).getD 0 0, (piecePower 1 [x, y, z]).getD 1 0])]
    · simp [psdRows, List.range_succ]
    · intro i
      simpa [column] using hcol i x y z
  have hvel : ∀ n vs v, oneAtomCrystal.velocities (positionsSupercell oneAtomCrystal.positions oneAtomCrystal.cell n) = some vs → v ∈ vs → ∀ i k, star (v i k) = v i k := by
    intro n vs v hvs hv i k
    unfold AnalysisInput.velocities at hvs
    split at hvs
    · cases hvs
    · rw [Option.some.injEq] at hvs
      subst hvs
      obtain ⟨t, -, rfl⟩ := List.mem_map.1 hv
      simp
  have q2 := oneAtomCrystal.vq_atWaveVector (fun i => -oneAtomCrystal.q i) (fun s t k => star (oneAtomCrystal.ev s t k)) star
    (fun n vs v hvs hv s => rowOf_opposite _ n v (hvel n vs v hvs hv) s)
  rw [AnalysisInput.oneAtom_vq] at q2
  have r1 := hspec (1 + 3 * Complex.I) (1 + Complex.I) (1 - Complex.I)
  have r2 := hspec (star (1 + 3 * Complex.I)) (star (1 + Complex.I)) (star (1 - Complex.I))
  have t1 : oneAtomCrystal.phononSpectrum env 2 ⟨[0, 1 / 3], 1, 1, 1, 0⟩ = some (powerSpectra env 2 ⟨[0, 1 / 3], 1, 1, 1, 0⟩
      [fun _ : Fin 1 => 1 + 3 * Complex.I, fun _ => 1 + Complex.I, fun _ => 1 - Complex.I] 1) := by
    unfold AnalysisInput.phononSpectrum
    rw [AnalysisInput.oneAtom_vq, show oneAtomCrystal.dt = 1 from rfl, Option.map_some]
  have t2 : (oneAtomCrystal.atWaveVector (fun i => -oneAtomCrystal.q i) fun s t k => star (oneAtomCrystal.ev s t k)).phononSpectrum env 2 ⟨[0, 1 / 3], 1, 1, 1, 0⟩ =
      some (powerSpectra env 2 ⟨[0, 1 / 3], 1, 1, 1, 0⟩ [fun _ : Fin 1 => star (1 + 3 * Complex.I), fun _ => star (1 + Complex.I), fun _ => star (1 - Complex.I)] 1) := by
    unfold AnalysisInput.phononSpectrum
    rw [q2, show (oneAtomCrystal.atWaveVector (fun i => -oneAtomCrystal.q i) fun s t k => star (oneAtomCrystal.ev s t k)).dt = 1 from rfl]
    simp only [Option.map_some, List.map_cons, List.map_nil]
  refine ⟨oneAtomCrystal, ⟨[0, 1 / 3], 1, 1, 1, 0⟩, _, _, t1.trans (congrArg some r1), t2.trans (congrArg some r2), ?_⟩
  · intro h
    simp only [List.cons.injEq, and_true] at h
    have hu : unitConversion ≠ 0 := by unfold unitConversion; norm_num
    have h := mul_right_cancel₀ hu h.2
    rw [piecePower_three_one, piecePower_three_one] at h
    have h3 : (√3 : ℝ) ^ 2 = 3 := Real.sq_sqrt (by norm_num)
    have hpos : 0 < (√3 : ℝ) := by positivity
    have h := congrArg (fun x => x ^ 2) h
    simp only [← Complex.normSq_eq_norm_sq] at h
    simp [Complex.normSq_apply] at h
    ring_nf at h
    nlinarith

end Verif
