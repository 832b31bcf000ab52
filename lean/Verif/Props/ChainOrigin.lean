import Mathlib.Data.List.GetD
import Verif.Props.Chain

/-! # C137: the origin and the maximum entropy method -/

set_option autoImplicit false

namespace Verif

/-- One atom in a square cell of side 10 and its own supercell; three frames. -/
noncomputable def oneAtomCrystal : AnalysisInput 2 1 where
  positions := [![0, 0]]
  masses := [1]
  cell := !![10, 0; 0, 10]
  primitive := 1
  mdCell := !![10, 0; 0, 10]
  frames := [fun _ => ![0, 0], fun _ => ![1, 3], fun _ => ![2, 2]]
  dt := 1
  q := ![1, 0]
  ev := fun _ _ => ![1, -Complex.I]

namespace AnalysisInput

theorem oneAtom_multiples : oneAtomCrystal.multiples = some [1, 1] := by
  have h := C15_exact (!![10, 0; 0, 10] : Matrix (Fin 2) (Fin 2) ℝ) 1 (by simp) (fun i => ⟨i, by fin_cases i <;> simp⟩) ![1, 1] 0.01 (by norm_num)
  have e : Matrix.diagonal (fun i => ((![1, 1] : Fin 2 → ℕ) i : ℝ)) * !![10, 0; 0, 10] * 1 = (!![10, 0; 0, 10] : Matrix (Fin 2) (Fin 2) ℝ) := by
    ext i j; fin_cases i <;> fin_cases j <;> simp [Matrix.mul_apply, Fin.sum_univ_two]
  rw [e] at h
  unfold multiples
  rw [show oneAtomCrystal.mdCell = !![10, 0; 0, 10] from rfl, show oneAtomCrystal.cell = !![10, 0; 0, 10] from rfl, h]
  simp

theorem oneAtom_labels : oneAtomCrystal.labels = [0] := by
  unfold labels
  rw [typeLabels_congr _ (fun _ _ => false) _ (by
    intro i j hij hj
    have hj' : j < 1 := hj
    omega)]
  decide +kernel

theorem oneAtom_primCell : oneAtomCrystal.primCellOf = !![10, 0; 0, 10] := by
  simp only [primCellOf, oneAtomCrystal]
  simp

theorem oneAtom_coords : positionsSupercell oneAtomCrystal.positions oneAtomCrystal.cell [1, 1] = [0] := by
  have : cellTranslations [1, 1] = [[0, 0]] := by decide +kernel
  unfold positionsSupercell
  rw [this]
  have h0 : latticeVector [0, 0] oneAtomCrystal.cell = 0 := by funext j; simp [latticeVector, Fin.sum_univ_two]
  rw [show oneAtomCrystal.positions = [0] by simp [oneAtomCrystal]]
  simp [h0]

theorem oneAtom_displacement (x : Fin 2 → ℝ) (hx : ∀ i, |x i| < 5) (k : Fin 2) :
    cDisplacement 2 (natCell (!![10, 0; 0, 10] : Matrix (Fin 2) (Fin 2) ℝ)) (natVec (0 : Fin 2 → ℝ)) (fun c => (natVec x c, 0)) k = (x k, 0) := by
  have hm : toMatrix 2 (natCell (!![10, 0; 0, 10] : Matrix (Fin 2) (Fin 2) ℝ)) = !![10, 0; 0, 10] := by
    ext i j; fin_cases i <;> fin_cases j <;> simp [toMatrix, natCell]
  have hr : ∀ i, roundAway (x i / 10) = 0 := by
    intro i
    apply roundAway_eq_of_near
    rw [Int.cast_zero, sub_zero, abs_div, abs_of_pos (show (0 : ℝ) < 10 by norm_num), div_lt_iff₀ (by norm_num)]
    linarith [hx i]
  rw [cDisplacement_eq 2 le_rfl _ (by rw [hm]; simp [Matrix.det_fin_two]) _ _ (fun i => x i / 10)]
  · fin_cases k <;> simp [hr, natVec]
  · intro k
    fin_cases k <;> simp [natVec, natCell, Fin.sum_univ_two]

theorem oneAtom_velocities : ∃ vs, oneAtomCrystal.velocities [0] = some vs ∧ vs.map (fun v => v 0) = [![1, 3], ![1, 1], ![1, -1]] := by
  unfold velocities
  rw [if_neg (by simp [oneAtomCrystal])]
  refine ⟨_, rfl, ?_⟩
  have hcol : ∀ k : Fin 2, columnVelocity 2 (natCell oneAtomCrystal.mdCell) (natVec (([0] : List (Fin 2 → ℝ)).getD 0 0))
      (oneAtomCrystal.frames.map fun fr c => (natVec (fr 0) c, 0)) oneAtomCrystal.dt k = some (![[1, 1, 1], [3, 1, -1]] k) := by
    intro k
    unfold columnVelocity cDisplacements
    have e : ∀ x : Fin 2 → ℝ, (∀ i, |x i| < 5) → cDisplacement 2 (natCell oneAtomCrystal.mdCell) (natVec (([0] : List (Fin 2 → ℝ)).getD 0 0)) (fun c => (natVec x c, 0)) k = (x k, 0) :=
      fun x hx => oneAtom_displacement x hx k
    have h0 := e ![0, 0] (by intro i; fin_cases i <;> norm_num)
    have h1 := e ![1, 3] (by intro i; fin_cases i <;> norm_num)
    have h2 := e ![2, 2] (by intro i; fin_cases i <;> norm_num)
    rw [show oneAtomCrystal.frames = [fun _ => ![0, 0], fun _ => ![1, 3], fun _ => ![2, 2]] from rfl, show oneAtomCrystal.dt = 1 from rfl]
    simp only [List.map_cons, List.map_nil, h0, h1, h2]
    fin_cases k <;> norm_num [npGradient, List.range_succ]
  rw [show oneAtomCrystal.frames.length = 3 from rfl, List.map_map]
  simp only [List.range_succ, List.range_zero, List.nil_append, List.cons_append, List.map_cons, List.map_nil, Function.comp]
  simp only [hcol]
  congr 1
  · funext k; fin_cases k <;> simp
  · congr 1
    · funext k; fin_cases k <;> simp
    · congr 1
      funext k; fin_cases k <;> simp

theorem oneAtom_vq : oneAtomCrystal.vq = some [fun _ => 1 + 3 * Complex.I, fun _ => 1 + Complex.I, fun _ => 1 - Complex.I] := by
  obtain ⟨vs, hvs, hv⟩ := oneAtom_velocities
  have hn : oneAtomCrystal.nPrim = 1 := by simp [nPrim, oneAtom_labels]
  have hm : expandSupercell oneAtomCrystal.masses [1, 1] = [1] := by simp [expandSupercell, oneAtomCrystal]
  have ht : expandSupercell oneAtomCrystal.labels [1, 1] = [0] := by simp [expandSupercell, oneAtom_labels]
  have hrow : ∀ v : ℕ → Fin 2 → ℂ, projectOntoPhonon
      (fun (t : Fin oneAtomCrystal.nPrim) k => projectOntoWaveVector (massWeighted [1] v) (qVector oneAtomCrystal.primCellOf oneAtomCrystal.q) [0] [0] oneAtomCrystal.nPrim (-1) t k)
      (fun s (t : Fin oneAtomCrystal.nPrim) k => oneAtomCrystal.ev s t k) = fun _ => v 0 0 + v 0 1 * Complex.I := by
    intro v
    funext s
    rw [projectOntoPhonon_eq, Fin.sum_univ_eq_sum_range (fun t => ∑ c, projectOntoWaveVector (massWeighted [1] v) (qVector oneAtomCrystal.primCellOf oneAtomCrystal.q) [0] [0]
      oneAtomCrystal.nPrim (-1) t c * star (oneAtomCrystal.ev s t c)), hn]
    simp [projectOntoWaveVector_eq, massWeighted, oneAtomCrystal]
  unfold vq
  rw [oneAtom_multiples]
  simp only [Option.bind_eq_bind, Option.bind_some, oneAtom_coords, hvs, hm, ht, hrow]
  have : vs.map (fun v (_ : Fin 1) => v 0 0 + v 0 1 * Complex.I) = (vs.map fun v => v 0).map fun w _ => w 0 + w 1 * Complex.I := by rw [List.map_map]; rfl
  rw [this, hv]
  simp [sub_eq_add_neg]

end AnalysisInput

/-- C137, negation for the origin with the maximum entropy method (the default): in a crystal of one atom, moving the origin by an eighth of the cell changes the spectrum. -/
theorem C137_mem_origin_violated (env : SpecEnv) (he : CleanMemory env) : ∃ (a : AnalysisInput 2 1) (b : Fin 2 → ℝ) (p : SpecParams) (psd psd' : List (List ℝ)),
    a.mdCell.det ≠ 0 ∧ a.phononSpectrum env 1 p = some (.ok (false, psd)) ∧ (a.inFrame 1 b).phononSpectrum env 1 p = some (.ok (false, psd')) ∧ psd ≠ psd' := by
  have hval : ∀ z0 z1 z2 : ℂ, (1 : ℝ) / 25 ≤ z1.re ^ 2 + 2 * z2.re ^ 2 → (1 : ℝ) / 25 ≤ z1.im ^ 2 + 2 * z2.im ^ 2 →
      powerSpectra env 1 ⟨[0], 1, 1, 1, 0⟩ [fun _ : Fin 1 => z0, fun _ => z1, fun _ => z2] 1 = .ok (false, [[(
        (z1.re ^ 2 + z2.re ^ 2) / 3 * (1 - (2 * (z1.re * z2.re) / (z1.re ^ 2 + 2 * z2.re ^ 2)) ^ 2) / (1 - 2 * (z1.re * z2.re) / (z1.re ^ 2 + 2 * z2.re ^ 2)) ^ 2 +
        (z1.im ^ 2 + z2.im ^ 2) / 3 * (1 - (2 * (z1.im * z2.im) / (z1.im ^ 2 + 2 * z2.im ^ 2)) ^ 2) / (1 - 2 * (z1.im * z2.im) / (z1.im ^ 2 + 2 * z2.im ^ 2)) ^ 2) * unitConversion]]) := by
    intro z0 z1 z2 hr hi
    rw [powerSpectra_intro (w := false) (by simp [specCheck]) (fun _ => [
        (z1.re ^ 2 + z2.re ^ 2) / 3 * (1 - (2 * (z1.re * z2.re) / (z1.re ^ 2 + 2 * z2.re ^ 2)) ^ 2) / (1 - 2 * (z1.re * z2.re) / (z1.re ^ 2 + 2 * z2.re ^ 2)) ^ 2 +
        (z1.im ^ 2 + z2.im ^ 2) / 3 * (1 - (2 * (z1.im * z2.im) / (z1.im ^ 2 + 2 * z2.im ^ 2)) ^ 2) / (1 - 2 * (z1.im * z2.im) / (z1.im ^ 2 + 2 * z2.im ^ 2)) ^ 2])]
    · simp [psdRows]
    · intro i
      rw [columnSpec_mem env he _ _ _ (by simp [column])]
      simp only [column, List.map_cons, List.map_nil, zero_mul, mul_one, List.length_cons, List.length_nil, Nat.reduceAdd]
      rw [memPart_three _ z1.re z2.re (by simp) (by simp) (by simp) hr, memPart_three _ z1.im z2.im (by simp) (by simp) (by simp) hi]
  have hdet : oneAtomCrystal.mdCell.det ≠ 0 := by simp [oneAtomCrystal, Matrix.det_fin_two]
  have hph : originPhase (Matrix.vecMul (qVector oneAtomCrystal.primCellOf oneAtomCrystal.q) 1) ![5 / 4, 0] = (1 - Complex.I) * ((√2 / 2 : ℝ) : ℂ) := by
    have hq : qVector oneAtomCrystal.primCellOf oneAtomCrystal.q = ![2 * Real.pi / 10, 0] := by
      rw [AnalysisInput.oneAtom_primCell]
      have hi : (!![10, 0; 0, 10] : Matrix (Fin 2) (Fin 2) ℝ)⁻¹ = !![1 / 10, 0; 0, 1 / 10] := by
        apply Matrix.inv_eq_right_inv
        ext i j; fin_cases i <;> fin_cases j <;> norm_num [Matrix.mul_apply, Fin.sum_univ_two]
      rw [qVector, hi]
      funext k
      fin_cases k <;> simp [oneAtomCrystal, Matrix.vecMul, dotProduct, Fin.sum_univ_two] <;> ring
    rw [hq, Matrix.vecMul_one, originPhase]
    have : -Complex.I * ((∑ c, (![2 * Real.pi / 10, 0] : Fin 2 → ℝ) c * (![5 / 4, 0] : Fin 2 → ℝ) c : ℝ) : ℂ) = ((-(Real.pi / 4) : ℝ) : ℂ) * Complex.I := by
      simp [Fin.sum_univ_two]
      ring
    rw [this, Complex.exp_mul_I, ← Complex.ofReal_cos, ← Complex.ofReal_sin, Real.cos_neg, Real.sin_neg, Real.cos_pi_div_four, Real.sin_pi_div_four]
    push_cast
    ring
  have hs : (√2 : ℝ) ^ 2 = 2 := Real.sq_sqrt (by norm_num)
  have hz1 : (1 - Complex.I) * ((√2 / 2 : ℝ) : ℂ) * (1 + Complex.I) = ((√2 : ℝ) : ℂ) := by
    have : (1 - Complex.I) * (1 + Complex.I) = 2 := by ring_nf; simp; norm_num
    rw [mul_right_comm, this]
    push_cast
    ring
  have hz2 : (1 - Complex.I) * ((√2 / 2 : ℝ) : ℂ) * (1 - Complex.I) = ((-√2 : ℝ) : ℂ) * Complex.I := by
    have : (1 - Complex.I) * (1 - Complex.I) = -2 * Complex.I := by linear_combination Complex.I_sq
    rw [mul_right_comm, this]
    push_cast
    ring
  have e1 := hval (1 + 3 * Complex.I) (1 + Complex.I) (1 - Complex.I) (by norm_num) (by norm_num)
  have e2 := hval ((1 - Complex.I) * ((√2 / 2 : ℝ) : ℂ) * (1 + 3 * Complex.I)) ((√2 : ℝ) : ℂ) (((-√2 : ℝ) : ℂ) * Complex.I) (by simp; norm_num) (by simp; norm_num)
  have q1 : oneAtomCrystal.phononSpectrum env 1 ⟨[0], 1, 1, 1, 0⟩ = some (powerSpectra env 1 ⟨[0], 1, 1, 1, 0⟩ [fun _ : Fin 1 => 1 + 3 * Complex.I, fun _ => 1 + Complex.I, fun _ => 1 - Complex.I] 1) := by
    unfold AnalysisInput.phononSpectrum
    rw [AnalysisInput.oneAtom_vq]
    rfl
  have q2 : (oneAtomCrystal.inFrame 1 ![5 / 4, 0]).phononSpectrum env 1 ⟨[0], 1, 1, 1, 0⟩ = some (powerSpectra env 1 ⟨[0], 1, 1, 1, 0⟩ [fun _ : Fin 1 =>
      (1 - Complex.I) * ((√2 / 2 : ℝ) : ℂ) * (1 + 3 * Complex.I), fun _ => ((√2 : ℝ) : ℂ), fun _ => ((-√2 : ℝ) : ℂ) * Complex.I] 1) := by
    unfold AnalysisInput.phononSpectrum
    rw [oneAtomCrystal.vq_inFrame 1 _ le_rfl (by simp) hdet, AnalysisInput.oneAtom_vq, hph]
    simp only [Option.map_some, List.map_cons, List.map_nil, hz1, hz2]
    rfl
  refine ⟨oneAtomCrystal, ![5 / 4, 0], ⟨[0], 1, 1, 1, 0⟩, _, _, hdet, q1.trans (congrArg some e1), q2.trans (congrArg some e2), ?_⟩
  intro h
  simp only [List.cons.injEq, and_true] at h
  have hu : unitConversion ≠ 0 := by unfold unitConversion; norm_num
  have h := mul_right_cancel₀ hu h
  simp at h
  norm_num at h

end Verif
