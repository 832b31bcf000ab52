import Verif.Props.ChainFull
import Verif.Props.ChainOrigin

/-! # C143: the fast Fourier transforms depend on the axes -/

set_option autoImplicit false

namespace Verif

/-- The spectrum at frequency zero of five samples: the sum of the five central entries of the correlogram. -/
theorem piecePower_five (a b c e g : ℂ) : (piecePower 1 [a, b, c, e, g]).getD 0 0 =
    ‖(a * starRingEnd ℂ c + b * starRingEnd ℂ e + c * starRingEnd ℂ g + (a * starRingEnd ℂ b + b * starRingEnd ℂ c + c * starRingEnd ℂ e + e * starRingEnd ℂ g)
      + (a * starRingEnd ℂ a + b * starRingEnd ℂ b + c * starRingEnd ℂ c + e * starRingEnd ℂ e + g * starRingEnd ℂ g)
      + (b * starRingEnd ℂ a + c * starRingEnd ℂ b + e * starRingEnd ℂ c + g * starRingEnd ℂ e) + (c * starRingEnd ℂ a + e * starRingEnd ℂ b + g * starRingEnd ℂ c)) / 5‖ := by
  have h : correlateSame [a, b, c, e, g] = [a * starRingEnd ℂ c + b * starRingEnd ℂ e + c * starRingEnd ℂ g,
      a * starRingEnd ℂ b + b * starRingEnd ℂ c + c * starRingEnd ℂ e + e * starRingEnd ℂ g,
      a * starRingEnd ℂ a + b * starRingEnd ℂ b + c * starRingEnd ℂ c + e * starRingEnd ℂ e + g * starRingEnd ℂ g,
      b * starRingEnd ℂ a + c * starRingEnd ℂ b + e * starRingEnd ℂ c + g * starRingEnd ℂ e, c * starRingEnd ℂ a + e * starRingEnd ℂ b + g * starRingEnd ℂ c] := by
    unfold correlateSame
    simp [List.range_succ, Finset.sum_filter, Finset.sum_range_succ]
  unfold piecePower
  rw [h]
  simp [dft, List.range_succ, Finset.sum_range_succ, -Complex.norm_div, -norm_div]
  congr 1
  ring

theorem columnSpec_five (env : SpecEnv) (i : ℕ) (v : List ℂ) (hv : v.length = 5) :
    columnSpec env 2 ⟨[0, 1 / 5], 1, 1, 1, 0⟩ i v 1 = .ok [(piecePower 1 v).getD 0 0, interp (1 / 5) (sortedSpectrum 1 (piecePower 1 v))] := by
  unfold columnSpec numpyPower
  rw [if_neg (by norm_num), if_neg (by norm_num), numpyPower_whole 0 (1 / 5) [] (by norm_num) v (by intro h; simp [h] at hv) 1 one_pos (by rw [hv]; norm_num)]
  simp only [Option.map_some, List.map_cons, List.map_nil]
  have := C31_grid 1 one_pos (piecePower 1 v) 0 (by rw [length_piecePower, hv]; norm_num)
  rw [← this]
  congr 4
  simp [fftFreq, length_piecePower, hv]

/-- The full spectrum of one atom at frequency zero. -/
theorem summed_five (env : SpecEnv) (w : List (ℕ → Fin 2 → ℂ)) (hw : w.length = 5) : ∃ psd, summedSpectra env 2 ⟨[0, 1 / 5], 1, 1, 1, 0⟩ 1 w 1 = .ok (false, psd) ∧
    psd.getD 0 0 = ((piecePower 1 (w.map fun v => v 0 0)).getD 0 0 + (piecePower 1 (w.map fun v => v 0 1)).getD 0 0) * unitConversion := by
  unfold summedSpectra
  rw [powerSpectra_intro (w := false) (by simp [specCheck, resolutionWarning, componentRows, hw])
    (fun c => [(piecePower 1 (column (componentRows 1 w) c)).getD 0 0, interp (1 / 5) (sortedSpectrum 1 (piecePower 1 (column (componentRows 1 w) c)))])
    (fun c => columnSpec_five env c _ (by simp [column, componentRows, hw]))]
  refine ⟨_, rfl, ?_⟩
  rw [psdRows_sums]
  simp only [List.length_cons, List.length_nil, Nat.zero_add, Nat.reduceAdd, List.range_succ, List.range_zero, List.nil_append, List.cons_append, List.map_cons, List.map_nil, List.getD_cons_zero]
  rw [Fin.sum_univ_two]
  have e0 : column (componentRows 1 w) 0 = w.map fun v => v 0 0 := by simp [column, componentRows, Function.comp_def]
  have e1 : column (componentRows 1 w) 1 = w.map fun v => v 0 1 := by simp [column, componentRows, Function.comp_def]
  rw [e0, e1]

/-- One atom in a square cell of side 10 and its own supercell; five frames. -/
noncomputable def zigzagCrystal : AnalysisInput 2 1 where
  positions := [![0, 0]]
  masses := [1]
  cell := !![10, 0; 0, 10]
  primitive := 1
  mdCell := !![10, 0; 0, 10]
  frames := [fun _ => ![0, 0], fun _ => ![-1, 2], fun _ => ![0, 2], fun _ => ![1, 2], fun _ => ![0, 4]]
  dt := 1
  q := ![0, 0]
  ev := fun _ _ => ![1, 0]

open AnalysisInput

theorem zigzag_multiples : zigzagCrystal.multiples = some [1, 1] := by
  have : zigzagCrystal.multiples = oneAtomCrystal.multiples := by unfold multiples; exact rfl
  rw [this, oneAtom_multiples]

theorem zigzag_coords : positionsSupercell zigzagCrystal.positions zigzagCrystal.cell [1, 1] = [0] := by
  rw [show zigzagCrystal.positions = oneAtomCrystal.positions from rfl, show zigzagCrystal.cell = oneAtomCrystal.cell from rfl, oneAtom_coords]

theorem zigzag_velocities : ∃ vs, zigzagCrystal.velocities [0] = some vs ∧ vs.map (fun v => v 0) = [![-1, 2], ![0, 1], ![1, 0], ![0, 1], ![-1, 2]] := by
  unfold velocities
  rw [if_neg (by simp [zigzagCrystal])]
  refine ⟨_, rfl, ?_⟩
  have hcol : ∀ k : Fin 2, columnVelocity 2 (natCell zigzagCrystal.mdCell) (natVec (([0] : List (Fin 2 → ℝ)).getD 0 0))
      (zigzagCrystal.frames.map fun fr c => (natVec (fr 0) c, 0)) zigzagCrystal.dt k = some (![[-1, 0, 1, 0, -1], [2, 1, 0, 1, 2]] k) := by
    intro k
    unfold columnVelocity cDisplacements
    have e : ∀ x : Fin 2 → ℝ, (∀ i, |x i| < 5) → cDisplacement 2 (natCell zigzagCrystal.mdCell) (natVec (([0] : List (Fin 2 → ℝ)).getD 0 0)) (fun c => (natVec x c, 0)) k = (x k, 0) :=
      fun x hx => oneAtom_displacement x hx k
    have h0 := e ![0, 0] (by intro i; fin_cases i <;> norm_num)
    have h1 := e ![-1, 2] (by intro i; fin_cases i <;> norm_num)
    have h2 := e ![0, 2] (by intro i; fin_cases i <;> norm_num)
    have h3 := e ![1, 2] (by intro i; fin_cases i <;> norm_num)
    have h4 := e ![0, 4] (by intro i; fin_cases i <;> norm_num)
    rw [show zigzagCrystal.frames = [fun _ => ![0, 0], fun _ => ![-1, 2], fun _ => ![0, 2], fun _ => ![1, 2], fun _ => ![0, 4]] from rfl, show zigzagCrystal.dt = 1 from rfl]
    simp only [List.map_cons, List.map_nil, h0, h1, h2, h3, h4]
    fin_cases k <;> norm_num [npGradient, List.range_succ]
  rw [show zigzagCrystal.frames.length = 5 from rfl, List.map_map]
  simp only [List.range_succ, List.range_zero, List.nil_append, List.cons_append, List.map_cons, List.map_nil, Function.comp]
  simp only [hcol]
  have hfun : ∀ (x y : ℝ) (z : Fin 2 → ℂ), z 0 = x → z 1 = y → z = ![(x : ℂ), (y : ℂ)] := by
    intro x y z h0 h1; funext k; fin_cases k <;> simp [h0, h1]
  refine List.cons_eq_cons.2 ⟨by funext k; fin_cases k <;> simp, List.cons_eq_cons.2 ⟨by funext k; fin_cases k <;> simp, List.cons_eq_cons.2 ⟨by funext k; fin_cases k <;> simp,
    List.cons_eq_cons.2 ⟨by funext k; fin_cases k <;> simp, List.cons_eq_cons.2 ⟨by funext k; fin_cases k <;> simp, rfl⟩⟩⟩⟩⟩

/-- C143, negation for the axes with the fast Fourier transforms: turning crystal and trajectory changes the full spectrum, because the absolute value of the truncated correlogram is not additive. -/
theorem C143_fft_axes_violated (env : SpecEnv) : ∃ (a : AnalysisInput 2 1) (A : Matrix (Fin 2) (Fin 2) ℝ) (p : SpecParams) (psd psd' : List ℝ), a.mdCell.det ≠ 0 ∧ A * A.transpose = 1 ∧
    a.fullSpectrum env 2 p = some (.ok (false, psd)) ∧ (a.inFrame A 0).fullSpectrum env 2 p = some (.ok (false, psd')) ∧ psd ≠ psd' := by
  have hA : (!![3 / 5, 4 / 5; -4 / 5, 3 / 5] : Matrix (Fin 2) (Fin 2) ℝ) * (!![3 / 5, 4 / 5; -4 / 5, 3 / 5] : Matrix (Fin 2) (Fin 2) ℝ).transpose = 1 := by
    ext i j; fin_cases i <;> fin_cases j <;> simp [Matrix.mul_apply, Fin.sum_univ_two] <;> norm_num
  have hdet : zigzagCrystal.mdCell.det ≠ 0 := by simp [zigzagCrystal, Matrix.det_fin_two]
  have hmw : ∀ v : ℕ → Fin 2 → ℂ, massWeighted (expandSupercell zigzagCrystal.masses [1, 1]) v 0 = v 0 := by
    intro v
    funext k
    simp [massWeighted, expandSupercell, zigzagCrystal]
  obtain ⟨vs, hvs, hv⟩ := zigzag_velocities
  have hvl : vs.length = 5 := by simpa using congrArg List.length hv
  rcases velocities_inFrame zigzagCrystal !![3 / 5, 4 / 5; -4 / 5, 3 / 5] 0 le_rfl hA hdet [0] with ⟨h2, -⟩ | ⟨vs0, vs', h2, h3, hl, h⟩
  · rw [hvs] at h2; cases h2
  rw [hvs, Option.some.injEq] at h2
  subst h2
  obtain ⟨psd, hp, hp0⟩ := summed_five env (vs.map fun v => massWeighted (expandSupercell zigzagCrystal.masses [1, 1]) v) (by simp [hvl])
  obtain ⟨psd', hp', hp0'⟩ := summed_five env (vs'.map fun v => massWeighted (expandSupercell zigzagCrystal.masses [1, 1]) v) (by simp [hl, hvl])
  have hrow : ∀ k : Fin 2, vs.map (fun v => v 0 k) = (vs.map fun v => v 0).map fun x => x k := by intro k; rw [List.map_map]; rfl
  have hrow' : ∀ k : Fin 2, vs'.map (fun v => v 0 k) = (vs.map fun v => v 0).map fun x => ∑ c, x c * (((!![3 / 5, 4 / 5; -4 / 5, 3 / 5] : Matrix (Fin 2) (Fin 2) ℝ) c k : ℝ) : ℂ) := by
    intro k
    rw [List.map_map]
    refine map_eq_map_of vs' vs hl _ _ fun t v v' hv0 hv1 => ?_
    exact h t v v' hv0 hv1 0 (by simp) k
  refine ⟨zigzagCrystal, !![3 / 5, 4 / 5; -4 / 5, 3 / 5], ⟨[0, 1 / 5], 1, 1, 1, 0⟩, psd, psd', hdet, hA, ?_, ?_, ?_⟩
  · unfold fullSpectrum
    rw [zigzag_multiples]
    simp only [Option.bind_eq_bind, Option.bind_some, zigzag_coords, hvs]
    exact congrArg some hp
  · unfold fullSpectrum
    rw [multiples_inFrame zigzagCrystal _ 0 hA, zigzag_multiples]
    simp only [Option.bind_eq_bind, Option.bind_some]
    rw [show (zigzagCrystal.inFrame !![3 / 5, 4 / 5; -4 / 5, 3 / 5] 0).positions = zigzagCrystal.positions.map fun x => Matrix.vecMul x !![3 / 5, 4 / 5; -4 / 5, 3 / 5] + 0 from rfl,
      show (zigzagCrystal.inFrame !![3 / 5, 4 / 5; -4 / 5, 3 / 5] 0).cell = zigzagCrystal.cell * !![3 / 5, 4 / 5; -4 / 5, 3 / 5] from rfl, positionsSupercell_frame, zigzag_coords, h3, Option.bind_some]
    exact congrArg some hp'
  · intro hne
    rw [hne, hp0'] at hp0
    simp only [List.map_map, Function.comp_def, hmw] at hp0
    have hu : unitConversion ≠ 0 := by unfold unitConversion; norm_num
    have hp0 := mul_right_cancel₀ hu hp0
    rw [hrow, hrow, hrow', hrow', hv] at hp0
    simp only [List.map_cons, List.map_nil, piecePower_five, Fin.sum_univ_two] at hp0
    simp [map_ofNat] at hp0
    norm_num at hp0

end Verif
