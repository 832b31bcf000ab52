import Verif.Model.Chain
import Verif.Props.Displacements
import Verif.Props.Averages
import Verif.Props.Projection
import Verif.Props.Structure
import Verif.Props.Spectra

/-! # C137: the phonon spectra do not depend on the coordinate system -/

set_option autoImplicit false

namespace Verif

variable {d f : ℕ}

/-! ## Orthogonal matrices -/

/-- Lengths do not change under an orthogonal matrix. -/
theorem sum_sq_vecMul (A : Matrix (Fin d) (Fin d) ℝ) (hA : A * A.transpose = 1) (v : Fin d → ℝ) : ∑ k, (Matrix.vecMul v A k) ^ 2 = ∑ k, v k ^ 2 := by
  have h1 : ∑ k, (Matrix.vecMul v A k) ^ 2 = dotProduct (Matrix.vecMul v A) (Matrix.vecMul v A) := by
    simp [dotProduct, sq]
  have h2 : ∑ k, v k ^ 2 = dotProduct v v := by simp [dotProduct, sq]
  rw [h1, h2, ← Matrix.dotProduct_mulVec, ← Matrix.vecMul_transpose, Matrix.vecMul_vecMul, hA, Matrix.vecMul_one]

theorem dot_vecMul (A : Matrix (Fin d) (Fin d) ℝ) (hA : A * A.transpose = 1) (v w : Fin d → ℝ) : ∑ k, Matrix.vecMul v A k * Matrix.vecMul w A k = ∑ k, v k * w k := by
  change dotProduct (Matrix.vecMul v A) (Matrix.vecMul w A) = dotProduct v w
  rw [← Matrix.dotProduct_mulVec, ← Matrix.vecMul_transpose, Matrix.vecMul_vecMul, hA, Matrix.vecMul_one]

theorem rowNorm_mul (A h : Matrix (Fin d) (Fin d) ℝ) (hA : A * A.transpose = 1) (i : Fin d) : rowNorm (h * A) i = rowNorm h i := by
  unfold rowNorm
  congr 1
  exact sum_sq_vecMul A hA (h i)

theorem supercellMatrix_mul (A m c : Matrix (Fin d) (Fin d) ℝ) (hA : A * A.transpose = 1) (tol : ℝ) : supercellMatrix (m * A) (c * A) tol = supercellMatrix m c tol := by
  unfold supercellMatrix
  simp only [rowNorm_mul A _ hA]

/-! ## Displacements and velocities -/

theorem toMatrix_natCell (c : Matrix (Fin d) (Fin d) ℝ) : toMatrix d (natCell c) = c := by
  ext i j
  simp [toMatrix, natCell]

theorem natVec_fin (v : Fin d → ℝ) (k : Fin d) : natVec v k = v k := by simp [natVec]

/-- The displacement turns with the axes, and does not depend on the origin. -/
theorem cDisplacement_frame (hd : 2 ≤ d) (A c : Matrix (Fin d) (Fin d) ℝ) (hA : A * A.transpose = 1) (hc : c.det ≠ 0) (b x y : Fin d → ℝ) (k : Fin d) :
    (cDisplacement d (natCell (c * A)) (natVec (Matrix.vecMul x A + b)) (fun j => (natVec (Matrix.vecMul y A + b) j, 0)) k).1 =
      ∑ j : Fin d, (cDisplacement d (natCell c) (natVec x) (fun j => (natVec y j, 0)) j).1 * A j k := by
  have hdet : (toMatrix d (natCell c)).det ≠ 0 := by rwa [toMatrix_natCell]
  have hAd : A.det ≠ 0 := by
    intro h0
    have := congrArg Matrix.det hA
    rw [Matrix.det_mul, h0, zero_mul, Matrix.det_one] at this
    exact zero_ne_one this
  have hdet' : (toMatrix d (natCell (c * A))).det ≠ 0 := by
    rw [toMatrix_natCell, Matrix.det_mul]
    exact mul_ne_zero hc hAd
  have hf := hasFrac_exists d (natCell c) hdet (fun j => natVec y j - natVec x j)
  set g := Matrix.vecMul (fun k : Fin d => natVec y k - natVec x k) (toMatrix d (natCell c))⁻¹ with hg
  have hf' : HasFrac d (natCell (c * A)) (fun j => natVec (Matrix.vecMul y A + b) j - natVec (Matrix.vecMul x A + b) j) g := by
    intro j
    have hyx : ∀ l : Fin d, y l - x l = ∑ i, g i * c i l := by
      intro l
      have := hf l
      simpa [natVec, natCell] using this
    simp only [natVec_fin, Pi.add_apply, natCell]
    simp only [Fin.is_lt, and_self, dite_true, Fin.eta, Matrix.mul_apply, Matrix.vecMul, dotProduct]
    rw [add_sub_add_right_eq_sub, ← Finset.sum_sub_distrib]
    simp_rw [← sub_mul, hyx, Finset.sum_mul, Finset.mul_sum]
    rw [Finset.sum_comm]
    simp_rw [mul_assoc]
  rw [cDisplacement_eq d hd _ hdet' _ _ g hf' k]
  have h0 : ∀ j : Fin d, (cDisplacement d (natCell c) (natVec x) (fun j => (natVec y j, 0)) j).1 = y j - x j - ∑ i, (roundAway (g i) : ℝ) * c i j := by
    intro j
    rw [cDisplacement_eq d hd _ hdet _ _ g hf j]
    simp [natVec_fin, natCell]
  simp_rw [h0]
  simp only [natVec_fin, Pi.add_apply, natCell]
  simp only [Fin.is_lt, and_self, dite_true, Fin.eta, Matrix.mul_apply, Matrix.vecMul, dotProduct]
  simp_rw [sub_mul, Finset.sum_sub_distrib, Finset.sum_mul, Finset.mul_sum]
  rw [add_sub_add_right_eq_sub]
  congr 1
  rw [Finset.sum_comm]
  simp_rw [mul_assoc]

/-- The value of `np.gradient` at a place. -/
noncomputable def gradAt (x : List ℝ) (h : ℝ) (t : ℕ) : ℝ :=
  if t = 0 then h⁻¹ * (x.getD 1 0 - x.getD 0 0)
  else if t = x.length - 1 then h⁻¹ * (x.getD t 0 - x.getD (t - 1) 0)
  else (2 * h)⁻¹ * (x.getD (t + 1) 0 - x.getD (t - 1) 0)

theorem npGradient_getD (x : List ℝ) (h : ℝ) (hx : 2 ≤ x.length) (t : ℕ) (ht : t < x.length) : ((npGradient x h).getD []).getD t 0 = gradAt x h t := by
  unfold npGradient
  rw [if_neg (by omega)]
  simp only [Option.getD_some, List.getD_eq_getElem?_getD, List.getElem?_map, List.getElem?_range ht, Option.map_some, Option.getD_some]
  unfold gradAt
  simp only [List.getD_eq_getElem?_getD, smul_eq_mul]

theorem gradAt_sum (N : ℕ) (x' : List ℝ) (x : Fin d → List ℝ) (a : Fin d → ℝ) (hx' : x'.length = N) (hx : ∀ j, (x j).length = N)
    (h : ∀ t, x'.getD t 0 = ∑ j, (x j).getD t 0 * a j) (dt : ℝ) (t : ℕ) : gradAt x' dt t = ∑ j, gradAt (x j) dt t * a j := by
  unfold gradAt
  simp only [hx', hx, h]
  split_ifs <;> (rw [← Finset.sum_sub_distrib, Finset.mul_sum]; exact Finset.sum_congr rfl fun j _ => by ring)

namespace AnalysisInput

/-- Specification: the same crystal and trajectory in other Cartesian axes: a vector `x` becomes `x A + b`; differences of positions and eigenvectors `x A`. The wave vector
is in reduced coordinates and stays the same. -/
noncomputable def inFrame (a : AnalysisInput d f) (A : Matrix (Fin d) (Fin d) ℝ) (b : Fin d → ℝ) : AnalysisInput d f where
  positions := a.positions.map fun x => Matrix.vecMul x A + b
  masses := a.masses
  cell := a.cell * A
  primitive := a.primitive
  mdCell := a.mdCell * A
  frames := a.frames.map fun fr i => Matrix.vecMul (fr i) A + b
  dt := a.dt
  q := a.q
  ev := fun s t k => ∑ c, a.ev s t c * (A c k : ℂ)

variable (a : AnalysisInput d f) (A : Matrix (Fin d) (Fin d) ℝ) (b : Fin d → ℝ)

theorem primCellOf_inFrame : (a.inFrame A b).primCellOf = a.primCellOf * A := by
  unfold primCellOf inFrame
  simp [Matrix.transpose_mul, Matrix.mul_assoc]

theorem multiples_inFrame (hA : A * A.transpose = 1) : (a.inFrame A b).multiples = a.multiples := by
  unfold multiples
  rw [show (a.inFrame A b).mdCell = a.mdCell * A from rfl, show (a.inFrame A b).cell = a.cell * A from rfl, supercellMatrix_mul _ _ _ hA]

end AnalysisInput

theorem positionsSupercell_frame (A : Matrix (Fin d) (Fin d) ℝ) (b : Fin d → ℝ) (positions : List (Fin d → ℝ)) (cell : Matrix (Fin d) (Fin d) ℝ) (n : List ℕ) :
    positionsSupercell (positions.map fun x => Matrix.vecMul x A + b) (cell * A) n = (positionsSupercell positions cell n).map fun x => Matrix.vecMul x A + b := by
  unfold positionsSupercell
  rw [List.flatMap_map, List.map_flatMap]
  apply List.flatMap_congr
  intro x _
  rw [List.map_map]
  apply List.map_congr_left
  intro r _
  have : latticeVector r (cell * A) = Matrix.vecMul (latticeVector r cell) A := by
    funext j
    simp only [latticeVector, Matrix.mul_apply, Matrix.vecMul, dotProduct, Finset.mul_sum, Finset.sum_mul]
    rw [Finset.sum_comm]
    simp_rw [mul_assoc]
  simp only [Function.comp, this, Matrix.add_vecMul]
  abel

theorem atomSeparation_frame (A pc : Matrix (Fin d) (Fin d) ℝ) (hA : A * A.transpose = 1) (b x y : Fin d → ℝ) :
    atomSeparation (pc * A) (Matrix.vecMul x A + b) (Matrix.vecMul y A + b) = atomSeparation pc x y := by
  have hinv : A⁻¹ = A.transpose := Matrix.inv_eq_right_inv hA
  have hA' : A.transpose * A = 1 := mul_eq_one_comm.1 hA
  unfold atomSeparation
  have hdiff : ∀ c, Matrix.mulVec ((pc * A)⁻¹).transpose (Matrix.vecMul y A + b - (Matrix.vecMul x A + b)) c = Matrix.mulVec (pc⁻¹).transpose (y - x) c := by
    intro c
    rw [add_sub_add_right_eq_sub, ← Matrix.sub_vecMul, Matrix.mul_inv_rev, hinv, Matrix.mulVec_transpose, Matrix.vecMul_vecMul, ← Matrix.mul_assoc, hA, Matrix.one_mul,
      Matrix.mulVec_transpose]
  simp only [hdiff]
  generalize (fun c => ((roundEven (Matrix.mulVec (pc⁻¹).transpose (y - x) c) : ℤ) : ℝ)) = g
  refine Eq.trans ?_ (sum_sq_vecMul A hA _)
  refine Finset.sum_congr rfl fun k _ => ?_
  congr 1
  rw [Matrix.mulVec_transpose, Matrix.mulVec_transpose, Matrix.sub_vecMul, Matrix.sub_vecMul, Matrix.vecMul_vecMul]
  simp only [Pi.sub_apply, Pi.add_apply]
  ring

theorem getD_map_frame (A : Matrix (Fin d) (Fin d) ℝ) (b : Fin d → ℝ) (l : List (Fin d → ℝ)) (i : ℕ) (hi : i < l.length) :
    (l.map fun x => Matrix.vecMul x A + b).getD i 0 = Matrix.vecMul (l.getD i 0) A + b := by
  simp only [List.getD_eq_getElem?_getD, List.getElem?_map, List.getElem?_eq_getElem hi, Option.map_some, Option.getD_some]

namespace AnalysisInput

variable (a : AnalysisInput d f) (A : Matrix (Fin d) (Fin d) ℝ) (b : Fin d → ℝ)

theorem labels_inFrame (hA : A * A.transpose = 1) : (a.inFrame A b).labels = a.labels := by
  unfold labels
  rw [primCellOf_inFrame, show (a.inFrame A b).positions.length = a.positions.length by simp [inFrame]]
  apply typeLabels_congr
  intro i j hi hj
  unfold sameAtoms
  rw [show (a.inFrame A b).positions = a.positions.map fun x => Matrix.vecMul x A + b from rfl, getD_map_frame A b _ i (hi.trans hj), getD_map_frame A b _ j hj,
    atomSeparation_frame A _ hA]
  rfl

/-- The velocities turn with the axes. -/
theorem velocities_inFrame (hd : 2 ≤ d) (hA : A * A.transpose = 1) (hc : a.mdCell.det ≠ 0) (coords : List (Fin d → ℝ)) :
    (a.velocities coords = none ∧ (a.inFrame A b).velocities (coords.map fun x => Matrix.vecMul x A + b) = none) ∨
    ∃ vs vs', a.velocities coords = some vs ∧ (a.inFrame A b).velocities (coords.map fun x => Matrix.vecMul x A + b) = some vs' ∧ vs'.length = vs.length ∧
      ∀ (t : ℕ) (v v' : ℕ → Fin d → ℂ), vs[t]? = some v → vs'[t]? = some v' → ∀ i < coords.length, ∀ k, v' i k = ∑ c, v i c * (A c k : ℂ) := by
  unfold velocities
  have hlen : (a.inFrame A b).frames.length = a.frames.length := by simp [inFrame]
  rw [hlen]
  by_cases hN : a.frames.length < 2
  · left
    simp [hN]
  · right
    rw [if_neg hN, if_neg hN]
    refine ⟨_, _, rfl, rfl, by simp, ?_⟩
    intro t v v' hv hv' i hi k
    rw [List.getElem?_map, Option.map_eq_some_iff] at hv hv'
    obtain ⟨t0, ht0, rfl⟩ := hv
    obtain ⟨t1, ht1, rfl⟩ := hv'
    have ht : t < a.frames.length := by
      by_contra hcon
      rw [List.getElem?_eq_none (by simpa using hcon)] at ht0
      cases ht0
    rw [List.getElem?_range ht, Option.some.injEq] at ht0 ht1
    subst ht0
    subst ht1
    simp only [columnVelocity]
    rw [npGradient_getD _ _ (by simp [cDisplacements, hlen]; omega) _ (by simp [cDisplacements, hlen]; exact ht)]
    have hr : ∀ c : Fin d, ((npGradient (((cDisplacements d (natCell a.mdCell) (natVec (coords.getD i 0)) (a.frames.map fun fr c => (natVec (fr i) c, 0)))).map fun x => (x c).1)
        a.dt).getD []).getD t 0 = gradAt ((cDisplacements d (natCell a.mdCell) (natVec (coords.getD i 0)) (a.frames.map fun fr c => (natVec (fr i) c, 0))).map fun x => (x c).1) a.dt t :=
      fun c => npGradient_getD _ _ (by simp [cDisplacements]; omega) _ (by simp [cDisplacements]; exact ht)
    simp only [hr]
    rw [show (a.inFrame A b).dt = a.dt from rfl]
    rw [gradAt_sum a.frames.length _ (fun c : Fin d => (cDisplacements d (natCell a.mdCell) (natVec (coords.getD i 0))
      (a.frames.map fun fr c => (natVec (fr i) c, 0))).map fun x => (x c).1) (fun c => A c k) (by simp [cDisplacements, hlen]) (by simp [cDisplacements])]
    · push_cast
      rfl
    · intro s
      unfold cDisplacements
      simp only [List.map_map]
      rw [show (a.inFrame A b).frames = a.frames.map fun fr i => Matrix.vecMul (fr i) A + b from rfl, show (a.inFrame A b).mdCell = a.mdCell * A from rfl]
      simp only [List.getD_eq_getElem?_getD, List.getElem?_map]
      cases hs : a.frames[s]? with
      | none => simp
      | some fr =>
        simp only [Option.map_some, Option.getD_some, Function.comp]
        rw [List.getElem?_eq_getElem hi]
        simp only [Option.map_some, Option.getD_some]
        exact cDisplacement_frame hd A _ hA hc b _ _ k

end AnalysisInput

/-! ## Projections -/

theorem qVector_frame (A pc : Matrix (Fin d) (Fin d) ℝ) (hA : A * A.transpose = 1) (q : Fin d → ℝ) : qVector (pc * A) q = Matrix.vecMul (qVector pc q) A := by
  have hinv : A⁻¹ = A.transpose := Matrix.inv_eq_right_inv hA
  unfold qVector
  rw [Matrix.vecMul_vecMul, Matrix.mul_inv_rev, hinv, Matrix.transpose_mul, Matrix.transpose_transpose, Matrix.smul_mul]

/-- The phase factor that another origin gives to the projections. -/
noncomputable def originPhase (q b : Fin d → ℝ) : ℂ := Complex.exp (-Complex.I * ((∑ c, q c * b c : ℝ) : ℂ))

theorem originPhase_norm (q b : Fin d → ℝ) : ‖originPhase q b‖ = 1 := by
  unfold originPhase
  rw [show -Complex.I * ((∑ c, q c * b c : ℝ) : ℂ) = ((-∑ c, q c * b c : ℝ) : ℂ) * Complex.I by push_cast; ring]
  exact Complex.norm_exp_ofReal_mul_I _

theorem originPhase_zero (q : Fin d → ℝ) : originPhase q 0 = 1 := by simp [originPhase]

/-- The projection onto a wave vector turns with the axes. -/
theorem waveVector_frame (A : Matrix (Fin d) (Fin d) ℝ) (hA : A * A.transpose = 1) (b q : Fin d → ℝ) (coords : List (Fin d → ℝ)) (types : List ℕ)
    (hlen : types.length = coords.length) (T : ℕ) (v v' : ℕ → Fin d → ℂ) (hv : ∀ i < coords.length, ∀ k, v' i k = ∑ c, v i c * (A c k : ℂ)) (masses : List ℝ) (t : ℕ) (k : Fin d) :
    projectOntoWaveVector (massWeighted masses v') (Matrix.vecMul q A) (coords.map fun x => Matrix.vecMul x A + b) types T (-1) t k =
      originPhase (Matrix.vecMul q A) b * ∑ c, projectOntoWaveVector (massWeighted masses v) q coords types T (-1) t c * (A c k : ℂ) := by
  simp only [projectOntoWaveVector_eq]
  have hneg : ¬ ((-1 : ℤ) > -1 ∧ (t : ℤ) ≠ -1) := by omega
  simp only [if_neg hneg]
  have hswap : ∀ (N : ℂ) (g : ℕ → Fin d → ℂ) (S : Finset ℕ), ∑ c, (∑ i ∈ S, g i c) / N * (A c k : ℂ) = (∑ i ∈ S, ∑ c, g i c * (A c k : ℂ)) / N := by
    intro N g S
    rw [Finset.sum_comm, Finset.sum_div]
    refine Finset.sum_congr rfl fun c _ => ?_
    rw [div_mul_eq_mul_div, Finset.sum_mul]
  rw [hswap, mul_div_assoc', Finset.mul_sum]
  congr 1
  refine Finset.sum_congr rfl fun i hi => ?_
  have hic : i < coords.length := by
    rw [← hlen]
    exact Finset.mem_range.1 (Finset.mem_filter.1 hi).1
  rw [getD_map_frame A b coords i hic]
  have hph : ∑ c, Matrix.vecMul q A c * (Matrix.vecMul (coords.getD i 0) A + b) c = (∑ c, q c * coords.getD i 0 c) + ∑ c, Matrix.vecMul q A c * b c := by
    simp only [Pi.add_apply, mul_add, Finset.sum_add_distrib, dot_vecMul A hA]
  rw [hph]
  unfold massWeighted originPhase
  rw [hv i hic k, Finset.sum_mul, Finset.sum_mul, Finset.mul_sum]
  refine Finset.sum_congr rfl fun c _ => ?_
  push_cast
  rw [mul_add, Complex.exp_add]
  ring

theorem phonon_frame {T : ℕ} (A : Matrix (Fin d) (Fin d) ℝ) (hA : A * A.transpose = 1) (z : ℂ) (vc vc' : Fin T → Fin d → ℂ) (ev : Fin f → Fin T → Fin d → ℂ)
    (h : ∀ t k, vc' t k = z * ∑ c, vc t c * (A c k : ℂ)) (s : Fin f) :
    projectOntoPhonon vc' (fun s t k => ∑ c, ev s t c * (A c k : ℂ)) s = z * projectOntoPhonon vc ev s := by
  have hAA : ∀ c e : Fin d, ∑ k, (A c k : ℂ) * (A e k : ℂ) = if c = e then 1 else 0 := by
    intro c e
    have := congrFun (congrFun hA c) e
    rw [Matrix.mul_apply, Matrix.one_apply] at this
    simp only [Matrix.transpose_apply] at this
    have := congrArg (fun x : ℝ => (x : ℂ)) this
    push_cast at this
    rw [this]
    split_ifs <;> simp
  have hsum : ∀ w : Fin T → ℂ, (List.finRange T).foldl (fun acc i => acc + w i) 0 = ∑ i, w i := by
    intro w
    rw [foldl_add_list, zero_add, Fin.sum_univ_def]
  unfold projectOntoPhonon
  rw [hsum, hsum, Finset.mul_sum]
  refine Finset.sum_congr rfl fun t _ => ?_
  have h1 : ∑ k, vc' t k * star (∑ e, ev s t e * (A e k : ℂ)) = z * ∑ c, ∑ e, vc t c * star (ev s t e) * ∑ k, (A c k : ℂ) * (A e k : ℂ) := by
    simp only [h, star_sum, star_mul', Complex.star_def, Complex.conj_ofReal, Finset.mul_sum, Finset.sum_mul]
    rw [Finset.sum_comm]
    have : ∀ e : Fin d, ∑ k, ∑ c, z * (vc t c * (A c k : ℂ)) * ((starRingEnd ℂ) (ev s t e) * (A e k : ℂ)) =
        ∑ c, ∑ k, z * (vc t c * (starRingEnd ℂ) (ev s t e) * ((A c k : ℂ) * (A e k : ℂ))) := by
      intro e
      rw [Finset.sum_comm]
      exact Finset.sum_congr rfl fun c _ => Finset.sum_congr rfl fun k _ => by ring
    rw [Finset.sum_congr rfl fun e _ => this e, Finset.sum_comm]
  rw [h1]
  congr 1
  refine Finset.sum_congr rfl fun c _ => ?_
  simp only [hAA, mul_ite, mul_one, mul_zero, Finset.sum_ite_eq, Finset.mem_univ, if_true]

/-- Lists that agree entry by entry. -/
theorem map_eq_map_of {α β γ : Type*} (l' : List α) (l : List β) (hl : l'.length = l.length) (g' : α → γ) (g : β → γ)
    (h : ∀ (t : ℕ) (x : β) (x' : α), l[t]? = some x → l'[t]? = some x' → g' x' = g x) : l'.map g' = l.map g := by
  apply List.ext_getElem (by simp [hl])
  intro t ht ht'
  rw [List.length_map] at ht ht'
  rw [List.getElem_map, List.getElem_map]
  exact h t _ _ (List.getElem?_eq_getElem ht') (List.getElem?_eq_getElem ht)

/-- One row of the projected velocities. -/
theorem row_inFrame (A : Matrix (Fin d) (Fin d) ℝ) (hA : A * A.transpose = 1) (b q : Fin d → ℝ) (coords : List (Fin d → ℝ)) (n : List ℕ) (labels : List ℕ)
    (hlen : (expandSupercell labels n).length = coords.length) (T T' : ℕ) (hT : T' = T) (labels' : List ℕ) (hl : labels' = labels) (q' : Fin d → ℝ) (hq : q' = Matrix.vecMul q A)
    (v v' : ℕ → Fin d → ℂ) (hv : ∀ i < coords.length, ∀ k, v' i k = ∑ c, v i c * (A c k : ℂ)) (masses : List ℝ) (ev : Fin f → ℕ → Fin d → ℂ) (s : Fin f) :
    projectOntoPhonon (fun (t : Fin T') k => projectOntoWaveVector (massWeighted masses v') q' (coords.map fun x => Matrix.vecMul x A + b) (expandSupercell labels' n) T' (-1) t k)
        (fun s (t : Fin T') k => ∑ c, ev s t c * (A c k : ℂ)) s =
      originPhase (Matrix.vecMul q A) b * projectOntoPhonon (fun (t : Fin T) k => projectOntoWaveVector (massWeighted masses v) q coords (expandSupercell labels n) T (-1) t k)
        (fun s (t : Fin T) k => ev s t k) s := by
  subst hT
  subst hl
  subst hq
  have key := fun (t : Fin T') (k : Fin d) => waveVector_frame A hA b q coords (expandSupercell labels' n) hlen T' v v' hv masses t k
  generalize originPhase (Matrix.vecMul q A) b = z at key ⊢
  generalize hX : (fun (t : Fin T') (k : Fin d) => projectOntoWaveVector (massWeighted masses v') (Matrix.vecMul q A) (coords.map fun x => Matrix.vecMul x A + b)
    (expandSupercell labels' n) T' (-1) t k) = X
  generalize hY : (fun (t : Fin T') (k : Fin d) => projectOntoWaveVector (massWeighted masses v) q coords (expandSupercell labels' n) T' (-1) t k) = Y
  have h : ∀ t k, X t k = z * ∑ c, Y t c * (A c k : ℂ) := by
    intro t k
    rw [← hX, ← hY]
    exact key t k
  exact phonon_frame A hA z Y X (fun s (t : Fin T') k => ev s t k) h s

namespace AnalysisInput

variable (a : AnalysisInput d f) (A : Matrix (Fin d) (Fin d) ℝ) (b : Fin d → ℝ)

/-- The projected velocities do not change, up to one phase factor. -/
theorem vq_inFrame (hd : 2 ≤ d) (hA : A * A.transpose = 1) (hc : a.mdCell.det ≠ 0) :
    (a.inFrame A b).vq = a.vq.map (List.map fun row s => originPhase (Matrix.vecMul (qVector a.primCellOf a.q) A) b * row s) := by
  unfold vq
  rw [multiples_inFrame a A b hA]
  cases a.multiples with
  | none => simp
  | some n =>
    simp only [Option.bind_eq_bind, Option.bind_some]
    rw [show (a.inFrame A b).positions = a.positions.map fun x => Matrix.vecMul x A + b from rfl, show (a.inFrame A b).cell = a.cell * A from rfl,
      positionsSupercell_frame]
    have hlab := labels_inFrame a A b hA
    have hT : (a.inFrame A b).nPrim = a.nPrim := by unfold nPrim; rw [hlab]
    rcases velocities_inFrame a A b hd hA hc (positionsSupercell a.positions a.cell n) with ⟨h1, h2⟩ | ⟨vs, vs', h1, h2, hl, h⟩
    · rw [h1, h2]
      simp
    · rw [h1, h2]
      simp only [Option.bind_some, Option.map_some, Option.some.injEq, List.map_map]
      refine map_eq_map_of vs' vs hl _ _ ?_
      intro t v v' hv0 hv1
      have hv := h t v v' hv0 hv1
      simp only [Function.comp]
      funext s
      have hq : qVector (a.inFrame A b).primCellOf (a.inFrame A b).q = Matrix.vecMul (qVector a.primCellOf a.q) A := by
        rw [primCellOf_inFrame, show (a.inFrame A b).q = a.q from rfl, qVector_frame A _ hA]
      rw [hq, show (a.inFrame A b).masses = a.masses from rfl, show (a.inFrame A b).ev = fun s t k => ∑ c, a.ev s t c * (A c k : ℂ) from rfl]
      exact row_inFrame A hA b (qVector a.primCellOf a.q) (positionsSupercell a.positions a.cell n) n a.labels (by rw [C02_length a.labels a.positions a.cell n (by simp [labels, typeLabels])]) a.nPrim (a.inFrame A b).nPrim hT (a.inFrame A b).labels hlab _ rfl _ _ hv (expandSupercell a.masses n) a.ev s

end AnalysisInput

/-- C137: the phonon spectra do not depend on the Cartesian axes: rotating or reflecting the whole crystal and trajectory (and the eigenvectors with them) leaves the
result of the program unchanged, whatever the algorithm and the parameters are. -/
theorem C137_axes (hd : 2 ≤ d) (env : SpecEnv) (alg : ℤ) (p : SpecParams) (a : AnalysisInput d f) (hc : a.mdCell.det ≠ 0) (A : Matrix (Fin d) (Fin d) ℝ)
    (hA : A * A.transpose = 1) : (a.inFrame A 0).phononSpectrum env alg p = a.phononSpectrum env alg p := by
  unfold AnalysisInput.phononSpectrum
  rw [a.vq_inFrame A 0 hd hA hc, originPhase_zero, show (a.inFrame A 0).dt = a.dt from rfl]
  cases a.vq with
  | none => simp
  | some v => simp

/-- C137: nor on the origin of the coordinates, with the direct and all fast Fourier transforms. -/
theorem C137_origin (hd : 2 ≤ d) (env : SpecEnv) (alg : ℤ) (ha : alg ≠ 1) (p : SpecParams) (a : AnalysisInput d f) (hc : a.mdCell.det ≠ 0) (A : Matrix (Fin d) (Fin d) ℝ)
    (hA : A * A.transpose = 1) (b : Fin d → ℝ) (h0 : alg = 0 → 0 < p.step ∧ a.frames.length < env.fuel) :
    (a.inFrame A b).phononSpectrum env alg p = a.phononSpectrum env alg p := by
  unfold AnalysisInput.phononSpectrum
  rw [a.vq_inFrame A b hd hA hc, Option.map_map]
  cases hv : a.vq with
  | none => simp
  | some v =>
    have hl : v.length = a.frames.length := by
      unfold AnalysisInput.vq at hv
      simp only [Option.bind_eq_bind, Option.bind_eq_some_iff] at hv
      obtain ⟨n, -, vs, hvs, hv⟩ := hv
      simp only [Option.some.injEq] at hv
      subst hv
      unfold AnalysisInput.velocities at hvs
      split at hvs
      · cases hvs
      · rw [Option.some.injEq] at hvs
        subst hvs
        simp
    simp only [Option.map_some, Function.comp, Option.some.injEq]
    rw [show (a.inFrame A b).dt = a.dt from rfl, C106_scale env alg ha p v a.dt (by rw [hl]; exact h0), originPhase_norm]
    cases powerSpectra env alg p v a.dt <;> simp [Except.map]

/-! ## A crystal the theorems apply to -/

/-- Two different atoms in a square cell of side 1, MD cell of 2 × 1 cells, two frames in which the first image of the first atom moves by a tenth. -/
noncomputable def pairCrystal : AnalysisInput 2 2 where
  positions := [![0, 0], ![1 / 4, 1 / 4]]
  masses := [23, 35]
  cell := 1
  primitive := 1
  mdCell := !![2, 0; 0, 1]
  frames := [fun i => if i = 0 then ![0, 0] else if i = 1 then ![1, 0] else if i = 2 then ![1 / 4, 1 / 4] else ![5 / 4, 1 / 4],
    fun i => if i = 0 then ![1 / 10, 0] else if i = 1 then ![1, 0] else if i = 2 then ![1 / 4, 1 / 4] else ![5 / 4, 1 / 4]]
  dt := 1
  q := ![1 / 2, 0]
  ev := fun s t _ => if s.val = t then 1 else 2

namespace AnalysisInput

theorem pairCrystal_multiples : pairCrystal.multiples = some [2, 1] := by
  have h := C15_exact (1 : Matrix (Fin 2) (Fin 2) ℝ) 1 (by simp) (fun i => ⟨i, by simp⟩) ![2, 1] 0.01 (by norm_num)
  have e : Matrix.diagonal (fun i => ((![2, 1] : Fin 2 → ℕ) i : ℝ)) * 1 * 1 = (!![2, 0; 0, 1] : Matrix (Fin 2) (Fin 2) ℝ) := by
    ext i j; fin_cases i <;> fin_cases j <;> simp
  rw [e] at h
  unfold multiples
  rw [show pairCrystal.mdCell = !![2, 0; 0, 1] from rfl, show pairCrystal.cell = 1 from rfl, h]
  simp

theorem pairCrystal_primCell : pairCrystal.primCellOf = 1 := by simp [primCellOf, pairCrystal]

theorem pairCrystal_det : pairCrystal.mdCell.det ≠ 0 := by simp [pairCrystal, Matrix.det_fin_two]

theorem pairCrystal_vq : pairCrystal.vq.isSome = true := by
  unfold vq
  rw [pairCrystal_multiples]
  simp [velocities, pairCrystal]

end AnalysisInput

/-- C137_axes and C137_origin: a rotation by 90 degrees and a shift. -/
example (env : SpecEnv) (p : SpecParams) : (pairCrystal.inFrame !![0, 1; -1, 0] 0).phononSpectrum env 1 p = pairCrystal.phononSpectrum env 1 p ∧
    (pairCrystal.inFrame !![0, 1; -1, 0] ![3, 1 / 3]).phononSpectrum env 3 p = pairCrystal.phononSpectrum env 3 p ∧
    (pairCrystal.phononSpectrum env 3 p).isSome = true := by
  have hA : (!![0, 1; -1, 0] : Matrix (Fin 2) (Fin 2) ℝ) * (!![0, 1; -1, 0] : Matrix (Fin 2) (Fin 2) ℝ).transpose = 1 := by
    ext i j; fin_cases i <;> fin_cases j <;> simp [Matrix.mul_apply, Fin.sum_univ_two]
  refine ⟨C137_axes le_rfl env 1 p _ AnalysisInput.pairCrystal_det _ hA, C137_origin le_rfl env 3 (by norm_num) p _ AnalysisInput.pairCrystal_det _ hA _ (by norm_num), ?_⟩
  unfold AnalysisInput.phononSpectrum
  rw [Option.isSome_map, AnalysisInput.pairCrystal_vq]

end Verif
