import Verif.Model.LammpsBox
import Verif.Model.Supercell
import Verif.Props.LammpsCell
import Verif.Props.Parsers

/-! # C58, C59, C79: cell and orientation of a LAMMPS dump -/

set_option autoImplicit false
set_option linter.unusedSectionVars false

namespace Verif

open Matrix

section bounds
variable {K : Type*} [Field K] [LinearOrder K] [IsStrictOrderedRing K]

/-- Specification (LAMMPS documentation of `dump` and "Triclinic simulation boxes"): the box `xlo xhi ylo yhi zlo zhi xy xz yz` is written with the bounds of the orthogonal box that contains it. -/
def dumpBounds (xlo xhi ylo yhi zlo zhi xy xz yz : K) : Matrix (Fin 3) (Fin 3) K :=
  !![xlo + min (min (min 0 xy) xz) (xy + xz), xhi + max (max (max 0 xy) xz) (xy + xz), xy;
     ylo + min 0 yz, yhi + max 0 yz, xz;
     zlo, zhi, yz]

/-- **C58**: the cell derived from the bounds is the cell LAMMPS used, with tilts of any sign. -/
theorem C58_triclinic (xlo xhi ylo yhi zlo zhi xy xz yz : K) :
    boundsCell (dumpBounds xlo xhi ylo yhi zlo zhi xy xz yz) = !![xhi - xlo, 0, 0; xy, yhi - ylo, 0; xz, yz, zhi - zlo] := by
  ext i j
  fin_cases i <;> fin_cases j <;> simp [boundsCell, dumpBounds, Matrix.transpose]

/-- **C58**, orthogonal boxes (two numbers per line). -/
theorem C58_orthogonal (xlo xhi ylo yhi zlo zhi : K) :
    (boundsArray [[xlo, xhi], [ylo, yhi], [zlo, zhi]]).map boundsCell = some (Matrix.diagonal ![xhi - xlo, yhi - ylo, zhi - zlo]) := by
  simp only [boundsArray, Option.map_some, Option.some.injEq]
  ext i j
  fin_cases i <;> fin_cases j <;> simp [boundsCell, Matrix.transpose, Matrix.diagonal]

/-- **C58**: three numbers per line are taken as bounds and tilt. -/
theorem C58_lines (b : Matrix (Fin 3) (Fin 3) K) :
    boundsArray [[b 0 0, b 0 1, b 0 2], [b 1 0, b 1 1, b 1 2], [b 2 0, b 2 1, b 2 2]] = some b := by
  simp only [boundsArray, Option.some.injEq]
  ext i j
  fin_cases i <;> fin_cases j <;> rfl

/-- A box with tilts of both signs. -/
example : boundsCell (dumpBounds 0 4 1 5 0 6 (-1) 2 (1 : ℚ)) = !![4, 0, 0; -1, 4, 0; 2, 1, 6] := by rw [C58_triclinic]; norm_num

end bounds

theorem norm3_rotate (R : Matrix (Fin 3) (Fin 3) ℝ) (hR : R * Rᵀ = 1) (v : Fin 3 → ℝ) : norm3 (vecMul v R) = norm3 v := by
  unfold norm3
  rw [← Matrix.dotProduct_mulVec, ← Matrix.vecMul_transpose, Matrix.vecMul_vecMul, hR, Matrix.vecMul_one]

theorem norm3_smul (a : ℝ) (ha : 0 ≤ a) (v : Fin 3 → ℝ) : norm3 (a • v) = a * norm3 v := by
  unfold norm3
  rw [smul_dotProduct, dotProduct_smul, smul_eq_mul, smul_eq_mul, ← mul_assoc, Real.sqrt_mul (mul_self_nonneg a), Real.sqrt_mul_self ha]

theorem unitMatrix_eq (m : Matrix (Fin 3) (Fin 3) ℝ) : unitMatrix m = Matrix.diagonal (fun i => (norm3 (m i))⁻¹) * m := by
  ext i j; rw [Matrix.diagonal_mul]; rfl

theorem unitMatrix_det (m : Matrix (Fin 3) (Fin 3) ℝ) (h : m.det ≠ 0) : IsUnit (unitMatrix m).det := by
  rw [unitMatrix_eq, Matrix.det_mul, Matrix.det_diagonal, isUnit_iff_ne_zero]
  refine mul_ne_zero (Finset.prod_ne_zero_iff.2 fun i _ => inv_ne_zero (norm3_pos _ fun h0 => ?_).ne') h
  exact h (Matrix.det_eq_zero_of_row_eq_zero i fun j => congrFun h0 j)

/-- The transformation undoes the rotation `R` of an integer supercell. -/
theorem transformationMat_eq (cell R : Matrix (Fin 3) (Fin 3) ℝ) (hdet : cell.det ≠ 0) (hR : R * Rᵀ = 1) (n : Fin 3 → ℕ) (hn : ∀ i, 0 < n i) :
    transformationMat cell (diagflatCell cell n * R) = Rᵀ := by
  have hrow : ∀ i, (diagflatCell cell n * R) i = vecMul ((n i : ℝ) • cell i) R := by
    intro i; ext j
    rw [Matrix.mul_apply]
    simp only [diagflatCell, Matrix.diagonal_mul, vecMul, dotProduct, Pi.smul_apply, smul_eq_mul]
  have h : unitMatrix (diagflatCell cell n * R) = unitMatrix cell * R := by
    ext i j
    have e1 : unitMatrix (diagflatCell cell n * R) i j = (norm3 ((diagflatCell cell n * R) i))⁻¹ * (diagflatCell cell n * R) i j := rfl
    have e2 : (unitMatrix cell * R) i j = (norm3 (cell i))⁻¹ * vecMul (cell i) R j := by
      rw [unitMatrix_eq, Matrix.mul_assoc, Matrix.diagonal_mul, Matrix.mul_apply]; rfl
    rw [e1, e2, hrow, norm3_rotate R hR, norm3_smul _ (by positivity), Matrix.smul_vecMul, Pi.smul_apply, smul_eq_mul]
    have : (n i : ℝ) ≠ 0 := by exact_mod_cast (hn i).ne'
    field_simp
  unfold transformationMat
  rw [h, ← Matrix.mul_assoc, Matrix.nonsing_inv_mul _ (unitMatrix_det cell hdet), Matrix.one_mul]

/-- **C59**: if the cell of the dump is an integer supercell of the cell of the structure, turned by `R` (a rotation or a rotation with a mirror), then the parser hands over the supercell in the orientation of
the structure, and turns every frame back: a frame whose atoms are at `p R` becomes the frame with the atoms at `p`. -/
theorem C59_geometry (words : Line → Option (List ℝ)) (cell R : Matrix (Fin 3) (Fin 3) ℝ) (hdet : cell.det ≠ 0) (hR : R * Rᵀ = 1) (n : Fin 3 → ℕ) (hn : ∀ i, 0 < n i)
    (xlo xhi ylo yhi zlo zhi xy xz yz : ℝ) (hcell : !![xhi - xlo, 0, 0; xy, yhi - ylo, 0; xz, yz, zhi - zlo] = diagflatCell cell n * R)
    (lines : List Line) (b : Matrix (Fin 3) (Fin 3) ℝ) (hb : b = dumpBounds xlo xhi ylo yhi zlo zhi xy xz yz)
    (hlines : lines.mapM words = some [[b 0 0, b 0 1, b 0 2], [b 1 0, b 1 1, b 1 2], [b 2 0, b 2 1, b 2 2]]) :
    ∃ geo, (lammpsGeometry words cell).box lines = some geo ∧ geo.1 = diagflatCell cell n ∧
      ∀ atoms : List (Fin 3 → ℝ), (lammpsGeometry words cell).rotate geo (atoms.map fun p => List.ofFn (vecMul p R)) = some (atoms.map fun p => List.ofFn p) := by
  have hT := transformationMat_eq cell R hdet hR n hn
  have hbc : boundsCell b = diagflatCell cell n * R := by rw [hb, C58_triclinic, hcell]
  refine ⟨(boundsCell b * transformationMat cell (boundsCell b), transformationMat cell (boundsCell b)), ?_, ?_, ?_⟩
  · simp only [lammpsGeometry, hlines, Option.bind_some, C58_lines, Option.map_some]
  · simp only [hbc, hT]
    rw [Matrix.mul_assoc, hR, Matrix.mul_one]
  · intro atoms
    simp only [lammpsGeometry, hbc, hT]
    induction atoms with
    | nil => rfl
    | cons p atoms ih =>
      rw [List.map_cons, List.mapM_cons, ih]
      have : (![vecMul p R 0, vecMul p R 1, vecMul p R 2] : Fin 3 → ℝ) = vecMul p R := by
        ext i; fin_cases i <;> rfl
      simp only [List.ofFn_succ, List.ofFn_zero, Fin.succ_zero_eq_one, Fin.succ_one_eq_two]
      rw [this, Matrix.vecMul_vecMul, hR, Matrix.vecMul_one]
      rfl

/-- **C59**, together with the reader (C48): the whole trajectory comes back in the orientation of the structure. `atoms k` are the positions of the atoms in frame `k` in that orientation. -/
theorem C59_trajectory (c : Codec ℝ) (words : Line → Option (List ℝ)) (cell R : Matrix (Fin 3) (Fin 3) ℝ) (hdet : cell.det ≠ 0) (hR : R * Rᵀ = 1)
    (m : Fin 3 → ℕ) (hm : ∀ i, 0 < m i) (xlo xhi ylo yhi zlo zhi xy xz yz : ℝ) (hcell : !![xhi - xlo, 0, 0; xy, yhi - ylo, 0; xz, yz, zhi - zlo] = diagflatCell cell m * R)
    (b : Matrix (Fin 3) (Fin 3) ℝ) (hb : b = dumpBounds xlo xhi ylo yhi zlo zhi xy xz yz)
    (a : ReadArgs ℝ) (ha : a.indexing = none) (n : ℕ) (labels : Line) (frames : List (DumpStep × ℝ × List (Fin 3 → ℝ)))
    (hok : ∀ f ∈ frames, f.1.Ok c n 3 labels f.2.1 (f.2.2.map fun p => List.ofFn (vecMul p R)))
    (hbox : ∀ f ∈ frames, f.1.box.mapM words = some [[b 0 0, b 0 1, b 0 2], [b 1 0, b 1 1, b 1 2], [b 2 0, b 2 1, b 2 2]])
    (hne : frames ≠ []) (h1 : 1 ≤ a.initialCut) (he : a.endCut = none) (hlim : frames.length + 1 ≤ a.initialCut + a.limit + 2) (hmm : a.memmap = false) (hl : a.lastSteps = none)
    (hlab : hasKeyword "vx vy".toList labels = true ∨ hasKeyword "x y".toList labels = true) :
    readLammps c (lammpsGeometry words cell) a (frames.map (·.1.lines)).flatten =
      some ⟨hasKeyword "vx vy".toList labels, (frames.drop (a.initialCut - 1)).map (fun f => f.2.1 * a.timeStep),
        (frames.drop (a.initialCut - 1)).map (fun f => f.2.2.map fun p => List.ofFn p)⟩ := by
  obtain ⟨f0, hf0⟩ := List.exists_mem_of_ne_nil _ hne
  obtain ⟨geo, hg1, -, hg3⟩ := C59_geometry words cell R hdet hR m hm xlo xhi ylo yhi zlo zhi xy xz yz hcell f0.1.box b hb (hbox f0 hf0)
  set dump : List (DumpFrame ℝ) := frames.map fun f => { text := f.1, t := f.2.1, raw := f.2.2.map fun p => List.ofFn (vecMul p R), out := f.2.2.map fun p => List.ofFn p } with hd
  have hfile : DumpFile c (lammpsGeometry words cell) a n 3 geo labels dump := by
    refine ⟨?_, ?_, ?_⟩
    · intro f hf
      obtain ⟨f', hf', rfl⟩ := List.mem_map.1 hf
      exact hok f' hf'
    · intro f hf
      obtain ⟨f', hf', rfl⟩ := List.mem_map.1 hf
      exact ⟨_, by rw [ha]; rfl, hg3 f'.2.2⟩
    · intro f hf
      obtain ⟨f', hf', rfl⟩ := List.mem_map.1 (List.mem_of_head? hf)
      rw [← hg1]
      simp only [lammpsGeometry, hbox f' hf', hbox f0 hf0]
  have := C48_to_end c (lammpsGeometry words cell) a n 3 geo labels dump hfile (by simp [hd, hne]) h1 he (by simpa [hd] using hlim) hmm hl hlab
  rw [hd, List.map_map] at this
  simp only [Function.comp_def] at this
  rw [this]
  simp [List.map_drop, Function.comp_def]

/-- The hypotheses of C59 for a monoclinic cell given in an orientation that is not the LAMMPS one, supercell 2 × 3 × 1. -/
example : ∃ (cell R : Matrix (Fin 3) (Fin 3) ℝ), cell.det ≠ 0 ∧ R * Rᵀ = 1 ∧ R ≠ 1 ∧
    !![(2 : ℝ), 0, 0; 9 / 5, 12 / 5, 0; 0, 0, 4] = diagflatCell cell ![2, 3, 1] * R := by
  refine ⟨!![0, 1, 0; 4 / 5, 3 / 5, 0; 0, 0, 4], !![0, 1, 0; 1, 0, 0; 0, 0, 1], ?_, ?_, ?_, ?_⟩
  · rw [Matrix.det_fin_three]; simp
  · ext i j; fin_cases i <;> fin_cases j <;> simp [Matrix.mul_apply, Fin.sum_univ_three]
  · intro h
    have := congrFun (congrFun h 0) 0
    simp at this
  · ext i j
    fin_cases i <;> fin_cases j <;> simp [Matrix.mul_apply, Fin.sum_univ_three, diagflatCell, Matrix.diagonal_mul, Matrix.vecHead, Matrix.vecTail] <;> norm_num

/-- **C79**: if the angles between the lattice vectors of the dump are those of the structure, the transformation keeps all distances. -/
theorem C79_distances_partial (cell supercell : Matrix (Fin 3) (Fin 3) ℝ) (hdet : cell.det ≠ 0)
    (hangle : unitMatrix supercell * (unitMatrix supercell)ᵀ = unitMatrix cell * (unitMatrix cell)ᵀ) (p q : Fin 3 → ℝ) :
    norm3 (vecMul p (transformationMat cell supercell) - vecMul q (transformationMat cell supercell)) = norm3 (p - q) := by
  have hu := unitMatrix_det cell hdet
  have h1 : ((unitMatrix cell)⁻¹ * unitMatrix supercell) * ((unitMatrix cell)⁻¹ * unitMatrix supercell)ᵀ = 1 := by
    rw [Matrix.transpose_mul, Matrix.mul_assoc, ← Matrix.mul_assoc (unitMatrix supercell), hangle, ← Matrix.mul_assoc, ← Matrix.mul_assoc, Matrix.nonsing_inv_mul _ hu, Matrix.one_mul,
      Matrix.transpose_nonsing_inv, Matrix.mul_nonsing_inv _ (by rwa [Matrix.det_transpose])]
  have h2 : transformationMat cell supercell * (transformationMat cell supercell)ᵀ = 1 := by
    unfold transformationMat
    rw [Matrix.transpose_transpose]
    exact mul_eq_one_comm.1 h1
  rw [← Matrix.sub_vecMul, norm3_rotate _ h2]

/-- **C79, exactly**: the transformation keeps all distances if and only if the angles between the lattice vectors of the dump are those of the structure (`unitMatrix` has the lattice vectors divided by
their lengths in the rows, so that the products are the cosines of the angles). -/
theorem C79_iff (cell supercell : Matrix (Fin 3) (Fin 3) ℝ) (hdet : cell.det ≠ 0) :
    (∀ p q : Fin 3 → ℝ, norm3 (vecMul p (transformationMat cell supercell) - vecMul q (transformationMat cell supercell)) = norm3 (p - q)) ↔
      ∀ i j, supercell i ⬝ᵥ supercell j / (norm3 (supercell i) * norm3 (supercell j)) = cell i ⬝ᵥ cell j / (norm3 (cell i) * norm3 (cell j)) := by
  have hg : ∀ (m : Matrix (Fin 3) (Fin 3) ℝ) i j, (unitMatrix m * (unitMatrix m)ᵀ) i j = m i ⬝ᵥ m j / (norm3 (m i) * norm3 (m j)) := by
    intro m i j
    rw [Matrix.mul_apply]
    simp only [unitMatrix, Matrix.transpose_apply, Matrix.of_apply, Pi.smul_apply, smul_eq_mul, dotProduct, Fin.sum_univ_three, div_eq_mul_inv, mul_inv]
    ring
  constructor
  · intro h
    set M := transformationMat cell supercell with hM
    have hsq : ∀ p : Fin 3 → ℝ, vecMul p M ⬝ᵥ vecMul p M = p ⬝ᵥ p := by
      intro p
      have := h p 0
      rw [Matrix.zero_vecMul, sub_zero, sub_zero] at this
      unfold norm3 at this
      have h0 : ∀ v : Fin 3 → ℝ, 0 ≤ v ⬝ᵥ v := fun v => Finset.sum_nonneg fun i _ => mul_self_nonneg _
      exact (Real.sqrt_inj (h0 _) (h0 _)).1 this
    have hMM : M * Mᵀ = 1 := by
      have hpol : ∀ p r : Fin 3 → ℝ, vecMul p M ⬝ᵥ vecMul r M = p ⬝ᵥ r := by
        intro p r
        have h1 := hsq (p + r)
        have h2 := hsq p
        have h3 := hsq r
        rw [Matrix.add_vecMul, add_dotProduct, dotProduct_add, dotProduct_add, add_dotProduct, dotProduct_add, dotProduct_add, dotProduct_comm (vecMul r M), dotProduct_comm r p] at h1
        linarith
      ext i j
      have := hpol (Pi.single i 1) (Pi.single j 1)
      rw [Matrix.single_one_vecMul, Matrix.single_one_vecMul, single_one_dotProduct] at this
      rw [Matrix.mul_apply, Matrix.one_apply]
      simp only [Matrix.transpose_apply]
      have e : ∑ k, M i k * M j k = M.row i ⬝ᵥ M.row j := rfl
      rw [e, this, Pi.single_apply]
    have hu := unitMatrix_det cell hdet
    have h1 : ((unitMatrix cell)⁻¹ * unitMatrix supercell) * ((unitMatrix cell)⁻¹ * unitMatrix supercell)ᵀ = 1 := by
      rw [hM] at hMM
      unfold transformationMat at hMM
      rw [Matrix.transpose_transpose] at hMM
      exact mul_eq_one_comm.1 hMM
    have h2 : unitMatrix supercell * (unitMatrix supercell)ᵀ = unitMatrix cell * (unitMatrix cell)ᵀ := by
      have e : unitMatrix supercell = unitMatrix cell * ((unitMatrix cell)⁻¹ * unitMatrix supercell) := by
        rw [← Matrix.mul_assoc, Matrix.mul_nonsing_inv _ hu, Matrix.one_mul]
      rw [e, Matrix.transpose_mul, Matrix.mul_assoc, ← Matrix.mul_assoc ((unitMatrix cell)⁻¹ * unitMatrix supercell), h1, Matrix.one_mul]
    intro i j
    rw [← hg, ← hg, h2]
  · intro h p q
    refine C79_distances_partial cell supercell hdet ?_ p q
    ext i j
    rw [hg, hg, h]

/-- **C79 fails** for a dump whose box is sheared with respect to the structure (as in a simulation at constant pressure): distances are changed by the "rotation". -/
theorem C79_sheared_violated : ¬ ∀ (cell supercell : Matrix (Fin 3) (Fin 3) ℝ), cell.det ≠ 0 → supercell.det ≠ 0 → ∀ p q : Fin 3 → ℝ,
    norm3 (vecMul p (transformationMat cell supercell) - vecMul q (transformationMat cell supercell)) = norm3 (p - q) := by
  intro h
  have hn1 : ∀ i, norm3 ((1 : Matrix (Fin 3) (Fin 3) ℝ) i) = 1 := by
    intro i
    unfold norm3
    fin_cases i <;> simp [dotProduct, Fin.sum_univ_three, Matrix.one_apply]
  set S : Matrix (Fin 3) (Fin 3) ℝ := !![1, 0, 0; 3 / 5, 4 / 5, 0; 0, 0, 1] with hS
  have hn2 : ∀ i, norm3 (S i) = 1 := by
    intro i
    unfold norm3
    rw [Real.sqrt_eq_one]
    fin_cases i <;> simp [hS, dotProduct, Fin.sum_univ_three] <;> norm_num
  have e1 : unitMatrix 1 = 1 := by
    rw [unitMatrix_eq]; simp [hn1]
  have e2 : unitMatrix S = S := by
    rw [unitMatrix_eq]; simp [hn2]
  have hT : transformationMat 1 S = Sᵀ := by
    unfold transformationMat; rw [e1, e2, inv_one, Matrix.one_mul]
  have := h 1 S (by simp) (by rw [hS, Matrix.det_fin_three]; simp) ![0, 1, 0] 0
  rw [hT] at this
  have l : vecMul ![0, 1, 0] Sᵀ - vecMul 0 Sᵀ = (![0, 4 / 5, 0] : Fin 3 → ℝ) := by
    ext i; rw [Matrix.zero_vecMul, sub_zero]; simp only [vecMul, dotProduct, Fin.sum_univ_three, Matrix.transpose_apply]; fin_cases i <;> simp [hS]
  rw [l, sub_zero] at this
  have h2 := congrArg (· ^ 2) this
  simp only [norm3_sq] at h2
  simp [dotProduct, Fin.sum_univ_three] at h2
  norm_num at h2

end Verif
