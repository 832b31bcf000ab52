import Verif.Props.Supercell
import Verif.Props.AtomTypes
import Mathlib.Tactic.NormNum.BigOperators
import Mathlib.Data.Rat.Floor
import Mathlib.Tactic.LinearCombination

/-! # C05–C08: coordinates, atom types, caches of `Structure` -/

set_option autoImplicit false

namespace Verif

variable {K : Type*} [Field K] [LinearOrder K] [IsStrictOrderedRing K] [FloorRing K] {d : ℕ}

theorem rowsMul_rowsMul (l : List (Fin d → K)) (A B : Matrix (Fin d) (Fin d) K) :
    rowsMul (rowsMul l A) B = rowsMul l (A * B) := by
  simp [rowsMul, Matrix.vecMul_vecMul]

theorem rowsMul_one (l : List (Fin d → K)) : rowsMul l (1 : Matrix (Fin d) (Fin d) K) = l := by
  simp [rowsMul]

theorem rowsMul_cancel (l : List (Fin d → K)) (A : Matrix (Fin d) (Fin d) K) (h : A.det ≠ 0) :
    rowsMul (rowsMul l A) A⁻¹ = l := by
  rw [rowsMul_rowsMul, Matrix.mul_nonsing_inv _ (isUnit_iff_ne_zero.2 h), rowsMul_one]

theorem rowsMul_cancel' (l : List (Fin d → K)) (A : Matrix (Fin d) (Fin d) K) (h : A.det ≠ 0) :
    rowsMul (rowsMul l A⁻¹) A = l := by
  rw [rowsMul_rowsMul, Matrix.nonsing_inv_mul _ (isUnit_iff_ne_zero.2 h), rowsMul_one]

theorem superOr_none_positions (p : List (Fin d → K)) (cell : Matrix (Fin d) (Fin d) K) :
    positionsSupercell p cell (Structure.superOr d none) = p := C01_unit p cell

theorem superOr_none_expand {α : Type*} (v : List α) :
    expandSupercell v (Structure.superOr d none) = v := by
  simp [expandSupercell, Structure.superOr, List.prod_replicate]

/-! ## C05 -/

/-- C05: an object built from Cartesian positions: scaled positions times the cell give the positions back. -/
theorem C05_cart_scaled_cart (s : Structure K d) (p : List (Fin d → K)) (hdet : s.cell.det ≠ 0)
    (hp : s.positions = some p) (hs : s.scaled = none) :
    ∃ sp s', s.getScaledPositions none = some (sp, s') ∧ rowsMul sp s'.cell = p ∧
      s'.getPositions none = some (p, s') := by
  refine ⟨rowsMul p s.cell⁻¹, { s with scaled := some (rowsMul p s.cell⁻¹) }, ?_, ?_, ?_⟩
  · simp [Structure.getScaledPositions, hs, Structure.getPositions, hp, superOr_none_positions, npInv, hdet]
  · exact rowsMul_cancel' _ _ hdet
  · simp [Structure.getPositions, hp, superOr_none_positions]

/-- C05: an object built from scaled positions: the Cartesian positions are `scaled · cell`, and
scaling them again gives the original scaled positions. -/
theorem C05_scaled_cart_scaled (s : Structure K d) (sp : List (Fin d → K)) (hdet : s.cell.det ≠ 0)
    (hp : s.positions = none) (hs : s.scaled = some sp) :
    ∃ p s', s.getPositions none = some (p, s') ∧ p = rowsMul sp s.cell ∧
      rowsMul p s.cell⁻¹ = sp ∧ s'.getScaledPositions none = some (sp, s') := by
  refine ⟨rowsMul sp s.cell, { s with positions := some (rowsMul sp s.cell) }, ?_, rfl, ?_, ?_⟩
  · simp [Structure.getPositions, hs, hp, superOr_none_positions]
  · exact rowsMul_cancel _ _ hdet
  · simp [Structure.getScaledPositions, hs]

/-- C05, supercell argument: `get_scaled_positions(n)` times `get_cell(n)` gives `get_positions(n)`. -/
theorem C05_supercell (s : Structure K d) (p sp : List (Fin d → K)) (n : Fin d → ℕ)
    (hdet : (getCellSupercell s.cell n).det ≠ 0) (hp : s.positions = some p) (hs : s.scaled = some sp) :
    ∃ q s', s.getScaledPositions (some n) = some (q, s') ∧
      rowsMul q (getCellSupercell s.cell n) = positionsSupercell p s.cell (List.ofFn n) := by
  refine ⟨rowsMul (positionsSupercell p s.cell (List.ofFn n)) (getCellSupercell s.cell n)⁻¹, s, ?_, ?_⟩
  · simp [Structure.getScaledPositions, hs, Structure.getPositions, hp, npInv, hdet, Structure.superOr]
  · exact rowsMul_cancel' _ _ hdet

example : ∃ s : Structure ℚ 3, s.cell.det ≠ 0 ∧ s.positions = some [fun _ => 1] ∧ s.scaled = none :=
  ⟨{ cell := 1, positions := some [fun _ => 1], masses := [1] }, by simp, rfl, rfl⟩

/-! ## C06 on the object -/

/-- Specification: `r` and `r'` differ by a vector of the lattice spanned by the rows of `primCell`. -/
def LatticeEquiv (primCell : Matrix (Fin d) (Fin d) K) (r r' : Fin d → K) : Prop :=
  ∃ z : Fin d → ℤ, r' = r + Matrix.vecMul (fun i => (z i : K)) primCell

theorem latticeEquiv_equivalence (primCell : Matrix (Fin d) (Fin d) K) :
    Equivalence (LatticeEquiv primCell) := by
  refine ⟨fun r => ⟨0, ?_⟩, ?_, ?_⟩
  · have : (fun i : Fin d => (((0 : Fin d → ℤ) i : ℤ) : K)) = 0 := by funext i; simp
    rw [this]; simp
  · rintro r r' ⟨z, rfl⟩
    refine ⟨-z, ?_⟩
    have : (fun i : Fin d => (((-z : Fin d → ℤ) i : ℤ) : K)) = - fun i => (z i : K) := by funext i; simp
    rw [this, Matrix.neg_vecMul]; simp
  · rintro r r' r'' ⟨z, rfl⟩ ⟨w, rfl⟩
    refine ⟨z + w, ?_⟩
    have : (fun i : Fin d => (((z + w : Fin d → ℤ) i : ℤ) : K))
        = (fun i => (z i : K)) + fun i => (w i : K) := by funext i; simp
    rw [this, Matrix.add_vecMul, add_assoc]

/-- The separation computed by the loop vanishes for lattice-equivalent positions. -/
theorem atomSeparation_eq_zero (primCell : Matrix (Fin d) (Fin d) K) (hdet : primCell.det ≠ 0)
    (r r' : Fin d → K) (h : LatticeEquiv primCell r r') : atomSeparation primCell r r' = 0 := by
  obtain ⟨z, rfl⟩ := h
  unfold atomSeparation
  have h1 : Matrix.mulVec (primCell⁻¹).transpose (r + Matrix.vecMul (fun i => (z i : K)) primCell - r)
      = fun i => (z i : K) := by
    rw [add_sub_cancel_left, Matrix.mulVec_transpose, Matrix.vecMul_vecMul,
      Matrix.mul_nonsing_inv _ (isUnit_iff_ne_zero.2 hdet), Matrix.vecMul_one]
  simp only [h1, roundEven_intCast, Matrix.mulVec_transpose]
  simp

/-- ... and only for those. -/
theorem latticeEquiv_of_atomSeparation_eq_zero (primCell : Matrix (Fin d) (Fin d) K)
    (r r' : Fin d → K) (h : atomSeparation primCell r r' = 0) : LatticeEquiv primCell r r' := by
  unfold atomSeparation at h
  simp only at h
  rw [Finset.sum_eq_zero_iff_of_nonneg (fun i _ => sq_nonneg _)] at h
  refine ⟨fun c => roundEven ((Matrix.mulVec (primCell⁻¹).transpose (r' - r)) c), ?_⟩
  funext c
  have := h c (Finset.mem_univ c)
  rw [sq_eq_zero_iff, Matrix.mulVec_transpose] at this
  simp only [Pi.sub_apply, Pi.add_apply] at this ⊢
  linear_combination this

/-- C06 for the object: in a crystal whose atoms are well separated (atoms that are not lattice translates
of each other stay further apart than the tolerance), `get_atom_type_index()` gives two atoms the same label iff they have
the same mass and differ by a primitive lattice vector. -/
theorem C06_object (primCell : Matrix (Fin d) (Fin d) K) (hdet : primCell.det ≠ 0)
    (pos : List (Fin d → K)) (masses : List K)
    (hsep : ∀ i j, i < j → j < pos.length →
      atomSeparation primCell (pos.getD i 0) (pos.getD j 0) < 1 / 1000 →
      LatticeEquiv primCell (pos.getD i 0) (pos.getD j 0))
    (i j : ℕ) (hi : i < pos.length) (hj : j < pos.length) :
    (typeLabels (sameAtoms primCell pos masses) pos.length)[i]?
        = (typeLabels (sameAtoms primCell pos masses) pos.length)[j]?
      ↔ LatticeEquiv primCell (pos.getD i 0) (pos.getD j 0) ∧ masses[i]? = masses[j]? := by
  have hE := latticeEquiv_equivalence (K := K) primCell
  apply C06_classes _ _ (fun i j => LatticeEquiv primCell (pos.getD i 0) (pos.getD j 0) ∧ masses[i]? = masses[j]?)
  · exact ⟨fun _ => ⟨hE.refl _, rfl⟩, fun h => ⟨hE.symm h.1, h.2.symm⟩,
      fun h g => ⟨hE.trans h.1 g.1, h.2.trans g.2⟩⟩
  · intro i j hij hj
    simp only [sameAtoms, Bool.and_eq_true, decide_eq_true_eq]
    constructor
    · rintro ⟨h1, h2⟩; exact ⟨hsep i j hij hj h1, h2⟩
    · rintro ⟨h1, h2⟩
      refine ⟨?_, h2⟩
      rw [atomSeparation_eq_zero primCell hdet _ _ h1]
      norm_num
  · exact hi
  · exact hj

/-! ## C08 / C33-style history theorem for `Structure` -/

/-- Specification (no caches): the atom types of a crystal. -/
noncomputable def specTypes (cell P : Matrix (Fin d) (Fin d) K) (pos : List (Fin d → K)) (masses : List K) :
    List ℕ :=
  typeLabels (sameAtoms (cell.transpose * P).transpose pos (masses.take pos.length)) pos.length

/-- The object `s` represents the crystal `(cell, P, pos, masses)`: every cache is empty or holds the right value. -/
structure Represents (s : Structure K d) (cell P : Matrix (Fin d) (Fin d) K) (pos : List (Fin d → K))
    (masses : List K) : Prop where
  h_cell : s.cell = cell
  h_masses : s.masses = masses
  h_positions : s.positions = some pos ∨ (s.positions = none ∧ s.scaled = some (rowsMul pos cell⁻¹))
  h_scaled : s.scaled = none ∨ s.scaled = some (rowsMul pos cell⁻¹)
  h_matrix : s.primitiveMatrix = some P ∨ (s.primitiveMatrix = none ∧ s.primitiveCell = none ∧ P = 1)
  h_primCell : s.primitiveCell = none ∨ s.primitiveCell = some (cell.transpose * P).transpose
  h_types : s.typeIndex = none ∨ s.typeIndex = some (specTypes cell P pos masses)
  h_nTypes : s.nTypes = none ∨ s.nTypes = some (specTypes cell P pos masses).toFinset.card
  h_nPrimitive : s.nPrimitive = none ∨ s.nPrimitive = some (specTypes cell P pos masses).toFinset.card
  h_nCellAtoms : s.nCellAtoms = none ∨ s.nCellAtoms = some pos.length

section Getters

variable {s : Structure K d} {cell P : Matrix (Fin d) (Fin d) K} {pos : List (Fin d → K)} {masses : List K}

theorem Represents.getPositions (h : Represents s cell P pos masses) (hdet : cell.det ≠ 0)
    (sc : Option (List ℕ)) :
    ∃ s', s.getPositions sc = some (positionsSupercell pos cell (Structure.superOr d sc), s') ∧
      Represents s' cell P pos masses := by
  rcases h.h_positions with hp | ⟨hp, hs⟩
  · refine ⟨s, ?_, h⟩
    simp [Structure.getPositions, hp, h.h_cell]
  · refine ⟨{ s with positions := some pos }, ?_, ?_⟩
    · simp [Structure.getPositions, hp, hs, h.h_cell, rowsMul_cancel' _ _ hdet]
    · obtain ⟨h1, h2, h3, h4, h5, h6, h7, h8, h9, h10⟩ := h
      exact ⟨h1, h2, Or.inl rfl, h4, h5, h6, h7, h8, h9, h10⟩

theorem Represents.getPositions_none (h : Represents s cell P pos masses) (hdet : cell.det ≠ 0) :
    ∃ s', s.getPositions none = some (pos, s') ∧ Represents s' cell P pos masses := by
  simpa only [superOr_none_positions] using h.getPositions hdet none

theorem Represents.getScaled (h : Represents s cell P pos masses) (hdet : cell.det ≠ 0) :
    ∃ s', s.getScaledPositions none = some (rowsMul pos cell⁻¹, s') ∧ Represents s' cell P pos masses := by
  rcases h.h_scaled with hs | hs
  · obtain ⟨s', e, h'⟩ := h.getPositions_none hdet
    refine ⟨{ s' with scaled := some (rowsMul pos cell⁻¹) }, ?_, ?_⟩
    · simp [Structure.getScaledPositions, hs, e, npInv, h'.h_cell, hdet]
    · obtain ⟨h1, h2, h3, h4, h5, h6, h7, h8, h9, h10⟩ := h'
      exact ⟨h1, h2, h3.imp id (fun x => ⟨x.1, rfl⟩), Or.inr rfl, h5, h6, h7, h8, h9, h10⟩
  · exact ⟨s, by simp [Structure.getScaledPositions, hs], h⟩

theorem Represents.getPrimitiveMatrix (h : Represents s cell P pos masses) :
    ∃ s', s.getPrimitiveMatrix = some (P, s') ∧ Represents s' cell P pos masses := by
  rcases h.h_matrix with hm | ⟨hm, hc, rfl⟩
  · exact ⟨s, by simp [Structure.getPrimitiveMatrix, hm], h⟩
  · refine ⟨{ s with primitiveMatrix := some 1 }, by simp [Structure.getPrimitiveMatrix, hm, hc], ?_⟩
    obtain ⟨h1, h2, h3, h4, h5, h6, h7, h8, h9, h10⟩ := h
    exact ⟨h1, h2, h3, h4, Or.inl rfl, h6, h7, h8, h9, h10⟩

theorem Represents.getPrimitiveCell (h : Represents s cell P pos masses) :
    ∃ s', s.getPrimitiveCell = some ((cell.transpose * P).transpose, s') ∧
      Represents s' cell P pos masses := by
  rcases h.h_primCell with hc | hc
  · obtain ⟨s', e, h'⟩ := h.getPrimitiveMatrix
    refine ⟨{ s' with primitiveCell := some (cell.transpose * P).transpose }, ?_, ?_⟩
    · simp [Structure.getPrimitiveCell, hc, e, h'.h_cell]
    · have hm : s'.primitiveMatrix = some P := by
        rcases h.h_matrix with hm | ⟨hm, hc', rfl⟩
        · have : s' = s := by
            simp [Structure.getPrimitiveMatrix, hm] at e; exact e.symm
          rw [this, hm]
        · simp [Structure.getPrimitiveMatrix, hm, hc'] at e
          rw [← e]
      obtain ⟨h1, h2, h3, h4, h5, h6, h7, h8, h9, h10⟩ := h'
      exact ⟨h1, h2, h3, h4, Or.inl hm, Or.inr rfl, h7, h8, h9, h10⟩
  · exact ⟨s, by simp [Structure.getPrimitiveCell, hc], h⟩

theorem Represents.getNumberOfCellAtoms (h : Represents s cell P pos masses) (hdet : cell.det ≠ 0) :
    ∃ s', s.getNumberOfCellAtoms = some (pos.length, s') ∧ Represents s' cell P pos masses := by
  rcases h.h_nCellAtoms with hn | hn
  · obtain ⟨s', e, h'⟩ := h.getPositions_none hdet
    refine ⟨{ s' with nCellAtoms := some pos.length }, by simp [Structure.getNumberOfCellAtoms, hn, e], ?_⟩
    obtain ⟨h1, h2, h3, h4, h5, h6, h7, h8, h9, h10⟩ := h'
    exact ⟨h1, h2, h3, h4, h5, h6, h7, h8, h9, Or.inr rfl⟩
  · exact ⟨s, by simp [Structure.getNumberOfCellAtoms, hn], h⟩

theorem Represents.getMasses (h : Represents s cell P pos masses) (hdet : cell.det ≠ 0)
    (hm : pos.length ≤ masses.length) (sc : Option (List ℕ)) :
    ∃ s', s.getMasses sc = some (expandSupercell (masses.take pos.length) (Structure.superOr d sc), s') ∧
      Represents s' cell P pos masses := by
  obtain ⟨s', e, h'⟩ := h.getNumberOfCellAtoms hdet
  refine ⟨s', ?_, h'⟩
  simp [Structure.getMasses, e, h'.h_masses, Nat.not_lt.2 hm]

/-- The comparison of masses inside the loop uses the list expanded by the supercell argument; this says
that it nevertheless distinguishes the same pairs of unit cell atoms. -/
def MassPatternOK (d : ℕ) (masses : List K) (n : ℕ) (sc : Option (List ℕ)) : Prop :=
  ∀ i j, i < j → j < n →
    ((expandSupercell (masses.take n) (Structure.superOr d sc))[i]?
        = (expandSupercell (masses.take n) (Structure.superOr d sc))[j]?
      ↔ (masses.take n)[i]? = (masses.take n)[j]?)

theorem massPatternOK_none (masses : List K) (n : ℕ) : MassPatternOK d masses n none := by
  intro i j _ _
  rw [superOr_none_expand]

theorem typeLabels_congr (f g : ℕ → ℕ → Bool) (n : ℕ) (h : ∀ i j, i < j → j < n → f i j = g i j) :
    typeLabels f n = typeLabels g n := by
  have inner : ∀ i (t : ℕ → Option ℕ), (List.range' (i + 1) (n - (i + 1))).foldl (typeInner f i) t
      = (List.range' (i + 1) (n - (i + 1))).foldl (typeInner g i) t := by
    intro i t
    funext j
    rw [typeInner_foldl, typeInner_foldl]
    congr 1
    apply propext
    constructor <;> rintro ⟨a, b, c⟩
    · exact ⟨a, b, by rw [← h i j a (by omega)]; exact c⟩
    · exact ⟨a, b, by rw [h i j a (by omega)]; exact c⟩
  have : typeOuter f n = typeOuter g n := by
    funext st i
    unfold typeOuter
    simp only [inner]
  unfold typeLabels typeLoop
  rw [this]

/-- `get_masses` leaves the type cache alone. -/
theorem Represents.getMasses_types (h : Represents s cell P pos masses) (hdet : cell.det ≠ 0)
    (hm : pos.length ≤ masses.length) (sc : Option (List ℕ)) :
    ∃ s', s.getMasses sc = some (expandSupercell (masses.take pos.length) (Structure.superOr d sc), s') ∧
      Represents s' cell P pos masses ∧ s'.typeIndex = s.typeIndex := by
  obtain ⟨s', e, h'⟩ := h.getMasses hdet hm sc
  refine ⟨s', e, h', ?_⟩
  unfold Structure.getMasses Structure.getNumberOfCellAtoms Structure.getPositions at e
  rcases h.h_nCellAtoms with hn | hn <;> rcases h.h_positions with hp | ⟨hp, hs⟩
  · simp [hn, hp] at e; rw [← e.2.2]
  · simp [hn, hp, hs] at e; rw [← e.2.2]
  · simp [hn] at e; rw [← e.2.2]
  · simp [hn] at e; rw [← e.2.2]

/-- `get_atom_type_index` when the types have not been computed yet: the masses used are those expanded by
the supercell argument. -/
theorem Represents.getTypes_fresh (h : Represents s cell P pos masses) (hdet : cell.det ≠ 0) (hP : P.det ≠ 0)
    (hm : pos.length ≤ masses.length) (sc : Option (List ℕ)) (ht : s.typeIndex = none) :
    ∃ s', s.getAtomTypeIndex sc
        = some (expandSupercell (typeLabels (sameAtoms (cell.transpose * P).transpose pos
            (expandSupercell (masses.take pos.length) (Structure.superOr d sc))) pos.length)
            (Structure.superOr d sc), s') ∧
      (typeLabels (sameAtoms (cell.transpose * P).transpose pos
            (expandSupercell (masses.take pos.length) (Structure.superOr d sc))) pos.length
          = specTypes cell P pos masses → Represents s' cell P pos masses) := by
  obtain ⟨s1, e1, h1, ht1⟩ := h.getMasses_types hdet hm sc
  rw [ht] at ht1
  obtain ⟨s2, e2, h2⟩ := h1.getPrimitiveCell
  obtain ⟨s3, e3, h3⟩ := h2.getNumberOfCellAtoms hdet
  obtain ⟨s4, e4, h4⟩ := h3.getPositions_none hdet
  have hpc : (cell.transpose * P).transpose.det ≠ 0 := by
    rw [Matrix.det_transpose, Matrix.det_mul, Matrix.det_transpose]
    exact mul_ne_zero hdet hP
  generalize hL : typeLabels (sameAtoms (cell.transpose * P).transpose pos
            (expandSupercell (masses.take pos.length) (Structure.superOr d sc))) pos.length = L
  have hlen : L.take pos.length = L := by
    apply List.take_of_length_le
    rw [← hL]; simp [typeLabels]
  have hlen' : ¬ L.length < pos.length := by rw [← hL]; simp [typeLabels]
  have h4n : s4.getNumberOfCellAtoms = some (pos.length, s4) ∨ s4.nCellAtoms = none := by
    rcases h4.h_nCellAtoms with hn | hn
    · exact Or.inr hn
    · exact Or.inl (by simp [Structure.getNumberOfCellAtoms, hn])
  have h5 : ∃ s6, Structure.getNumberOfCellAtoms { s4 with typeIndex := some L } = some (pos.length, s6) ∧
      (L = specTypes cell P pos masses → Represents s6 cell P pos masses) := by
    by_cases hLs : L = specTypes cell P pos masses
    · have h5 : Represents { s4 with typeIndex := some L } cell P pos masses := by
        obtain ⟨h1, h2, h3, h4, h5, h6, h7, h8, h9, h10⟩ := h4
        exact ⟨h1, h2, h3, h4, h5, h6, Or.inr (by rw [hLs]), h8, h9, h10⟩
      obtain ⟨s6, e6, h6⟩ := h5.getNumberOfCellAtoms hdet
      exact ⟨s6, e6, fun _ => h6⟩
    · rcases h4.h_nCellAtoms with hn | hn
      · rcases h4.h_positions with hp | ⟨hp, hs⟩
        · exact ⟨_, by simp only [Structure.getNumberOfCellAtoms, hn, Structure.getPositions, hp,
            Option.bind_eq_bind, Option.bind_some, superOr_none_positions]; rfl, fun h => absurd h hLs⟩
        · exact ⟨_, by simp only [Structure.getNumberOfCellAtoms, hn, Structure.getPositions, hp, hs,
            Option.bind_eq_bind, Option.bind_some, superOr_none_positions, h4.h_cell,
            rowsMul_cancel' _ _ hdet]; rfl, fun h => absurd h hLs⟩
      · exact ⟨_, by simp only [Structure.getNumberOfCellAtoms, hn]; rfl, fun h => absurd h hLs⟩
  obtain ⟨s6, e6, h6⟩ := h5
  refine ⟨s6, ?_, h6⟩
  simp only [Structure.getAtomTypeIndex, e1, ht1, e2, e3, e4, npInv, hpc, if_false, Option.bind_eq_bind,
      Option.bind_some, hL, e6, hlen, if_neg hlen']

theorem Represents.getTypes (h : Represents s cell P pos masses) (hdet : cell.det ≠ 0) (hP : P.det ≠ 0)
    (hm : pos.length ≤ masses.length) (sc : Option (List ℕ)) (hsc : MassPatternOK d masses pos.length sc) :
    ∃ s', s.getAtomTypeIndex sc
        = some (expandSupercell (specTypes cell P pos masses) (Structure.superOr d sc), s') ∧
      Represents s' cell P pos masses := by
  rcases h.h_types with ht | ht
  · have hlab : typeLabels (sameAtoms (cell.transpose * P).transpose pos
        (expandSupercell (masses.take pos.length) (Structure.superOr d sc))) pos.length
        = specTypes cell P pos masses := by
      unfold specTypes
      apply typeLabels_congr
      intro i j hij hj
      unfold sameAtoms
      congr 1
      rw [decide_eq_decide]
      exact hsc i j hij hj
    obtain ⟨s', e, h'⟩ := h.getTypes_fresh hdet hP hm sc ht
    exact ⟨s', by rw [e, hlab], h' hlab⟩
  · have hlen : (specTypes cell P pos masses).take pos.length = specTypes cell P pos masses := by
      apply List.take_of_length_le
      simp [specTypes, typeLabels]
    have hlen' : ¬ (specTypes cell P pos masses).length < pos.length := by simp [specTypes, typeLabels]
    obtain ⟨s1, e1, h1, ht1⟩ := h.getMasses_types hdet hm sc
    rw [ht] at ht1
    obtain ⟨s6, e6, h6⟩ := h1.getNumberOfCellAtoms hdet
    refine ⟨s6, ?_, h6⟩
    simp only [Structure.getAtomTypeIndex, e1, ht1, Option.bind_eq_bind, Option.bind_some, e6, hlen, if_neg hlen']

theorem Represents.getTypes_none (h : Represents s cell P pos masses) (hdet : cell.det ≠ 0) (hP : P.det ≠ 0)
    (hm : pos.length ≤ masses.length) :
    ∃ s', s.getAtomTypeIndex none = some (specTypes cell P pos masses, s') ∧
      Represents s' cell P pos masses := by
  have := h.getTypes hdet hP hm none (massPatternOK_none _ _)
  simpa only [superOr_none_expand] using this

theorem Represents.getNumberOfAtomTypes (h : Represents s cell P pos masses) (hdet : cell.det ≠ 0)
    (hP : P.det ≠ 0) (hm : pos.length ≤ masses.length) :
    ∃ s', s.getNumberOfAtomTypes = some ((specTypes cell P pos masses).toFinset.card, s') ∧
      Represents s' cell P pos masses := by
  rcases h.h_nTypes with hn | hn
  · obtain ⟨s', e, h'⟩ := h.getTypes_none hdet hP hm
    refine ⟨{ s' with nTypes := some (specTypes cell P pos masses).toFinset.card },
      by simp [Structure.getNumberOfAtomTypes, hn, e], ?_⟩
    obtain ⟨h1, h2, h3, h4, h5, h6, h7, h8, h9, h10⟩ := h'
    exact ⟨h1, h2, h3, h4, h5, h6, h7, Or.inr rfl, h9, h10⟩
  · exact ⟨s, by simp [Structure.getNumberOfAtomTypes, hn], h⟩

theorem Represents.getNumberOfPrimitiveAtoms (h : Represents s cell P pos masses) (hdet : cell.det ≠ 0)
    (hP : P.det ≠ 0) (hm : pos.length ≤ masses.length) :
    ∃ s', s.getNumberOfPrimitiveAtoms = some ((specTypes cell P pos masses).toFinset.card, s') ∧
      Represents s' cell P pos masses := by
  rcases h.h_nPrimitive with hn | hn
  · obtain ⟨s', e, h'⟩ := h.getTypes_none hdet hP hm
    refine ⟨{ s' with nPrimitive := some (specTypes cell P pos masses).toFinset.card },
      by simp [Structure.getNumberOfPrimitiveAtoms, hn, e], ?_⟩
    obtain ⟨h1, h2, h3, h4, h5, h6, h7, h8, h9, h10⟩ := h'
    exact ⟨h1, h2, h3, h4, h5, h6, h7, h8, Or.inr rfl, h10⟩
  · exact ⟨s, by simp [Structure.getNumberOfPrimitiveAtoms, hn], h⟩

theorem Represents.setPrimitiveMatrix (h : Represents s cell P pos masses) (Q : Matrix (Fin d) (Fin d) K) :
    Represents (s.setPrimitiveMatrix Q) cell Q pos masses := by
  obtain ⟨h1, h2, h3, h4, h5, h6, h7, h8, h9, h10⟩ := h
  exact ⟨h1, h2, h3, h4, Or.inl rfl, Or.inl rfl, Or.inl rfl, Or.inl rfl, Or.inl rfl, h10⟩

end Getters

/-- The public calls whose interleavings are considered (C08). -/
inductive StrOp (K : Type*) (d : ℕ)
  | positions (sc : Option (List ℕ))
  | scaled
  | primitiveCell
  | primitiveMatrix
  | cellAtoms
  | masses (sc : Option (List ℕ))
  | types (sc : Option (List ℕ))
  | nTypes
  | nPrimitive
  | setPrimitive (P : Matrix (Fin d) (Fin d) K)

/-- The object after a call (`none`: the program stopped). -/
noncomputable def StrOp.step (s : Structure K d) : StrOp K d → Option (Structure K d)
  | .positions sc => (s.getPositions sc).map Prod.snd
  | .scaled => (s.getScaledPositions none).map Prod.snd
  | .primitiveCell => s.getPrimitiveCell.map Prod.snd
  | .primitiveMatrix => s.getPrimitiveMatrix.map Prod.snd
  | .cellAtoms => s.getNumberOfCellAtoms.map Prod.snd
  | .masses sc => (s.getMasses sc).map Prod.snd
  | .types sc => (s.getAtomTypeIndex sc).map Prod.snd
  | .nTypes => s.getNumberOfAtomTypes.map Prod.snd
  | .nPrimitive => s.getNumberOfPrimitiveAtoms.map Prod.snd
  | .setPrimitive P => some (s.setPrimitiveMatrix P)

/-- A whole history of calls. -/
noncomputable def StrOp.run : List (StrOp K d) → Structure K d → Option (Structure K d)
  | [], s => some s
  | op :: ops, s => (op.step s).bind (StrOp.run ops)

/-- The primitive matrix a user expects after a history: the last one set. -/
def StrOp.lastP (P : Matrix (Fin d) (Fin d) K) (ops : List (StrOp K d)) : Matrix (Fin d) (Fin d) K :=
  ops.foldl (fun P op => match op with | .setPrimitive Q => Q | _ => P) P

/-- Side conditions on a call: invertible primitive matrices, and (because of C07) a supercell argument of
`get_atom_type_index` that does not confuse the masses. -/
def StrOp.Ok (masses : List K) (n : ℕ) : StrOp K d → Prop
  | .types sc => MassPatternOK d masses n sc
  | .setPrimitive P => P.det ≠ 0
  | _ => True

theorem represents_step {s : Structure K d} {cell P : Matrix (Fin d) (Fin d) K} {pos : List (Fin d → K)}
    {masses : List K} (h : Represents s cell P pos masses) (hdet : cell.det ≠ 0) (hP : P.det ≠ 0)
    (hm : pos.length ≤ masses.length) (op : StrOp K d) (hop : op.Ok masses pos.length) :
    ∃ s', op.step s = some s' ∧ Represents s' cell (StrOp.lastP P [op]) pos masses ∧
      (StrOp.lastP P [op]).det ≠ 0 := by
  cases op with
  | positions sc => obtain ⟨s', e, h'⟩ := h.getPositions hdet sc; exact ⟨s', by simp [StrOp.step, e], h', hP⟩
  | scaled => obtain ⟨s', e, h'⟩ := h.getScaled hdet; exact ⟨s', by simp [StrOp.step, e], h', hP⟩
  | primitiveCell => obtain ⟨s', e, h'⟩ := h.getPrimitiveCell; exact ⟨s', by simp [StrOp.step, e], h', hP⟩
  | primitiveMatrix =>
    obtain ⟨s', e, h'⟩ := h.getPrimitiveMatrix; exact ⟨s', by simp [StrOp.step, e], h', hP⟩
  | cellAtoms =>
    obtain ⟨s', e, h'⟩ := h.getNumberOfCellAtoms hdet; exact ⟨s', by simp [StrOp.step, e], h', hP⟩
  | masses sc => obtain ⟨s', e, h'⟩ := h.getMasses hdet hm sc; exact ⟨s', by simp [StrOp.step, e], h', hP⟩
  | types sc =>
    obtain ⟨s', e, h'⟩ := h.getTypes hdet hP hm sc hop; exact ⟨s', by simp [StrOp.step, e], h', hP⟩
  | nTypes =>
    obtain ⟨s', e, h'⟩ := h.getNumberOfAtomTypes hdet hP hm; exact ⟨s', by simp [StrOp.step, e], h', hP⟩
  | nPrimitive =>
    obtain ⟨s', e, h'⟩ := h.getNumberOfPrimitiveAtoms hdet hP hm; exact ⟨s', by simp [StrOp.step, e], h', hP⟩
  | setPrimitive Q => exact ⟨_, rfl, h.setPrimitiveMatrix Q, hop⟩

theorem represents_run {s : Structure K d} {cell P : Matrix (Fin d) (Fin d) K} {pos : List (Fin d → K)}
    {masses : List K} (h : Represents s cell P pos masses) (hdet : cell.det ≠ 0) (hP : P.det ≠ 0)
    (hm : pos.length ≤ masses.length) (ops : List (StrOp K d)) (hops : ∀ op ∈ ops, op.Ok masses pos.length) :
    ∃ s', StrOp.run ops s = some s' ∧ Represents s' cell (StrOp.lastP P ops) pos masses ∧
      (StrOp.lastP P ops).det ≠ 0 := by
  induction ops generalizing s P with
  | nil => exact ⟨s, rfl, h, hP⟩
  | cons op ops ih =>
    obtain ⟨s1, e1, h1, hP1⟩ := represents_step h hdet hP hm op (hops op (by simp))
    obtain ⟨s2, e2, h2, hP2⟩ := ih h1 hP1 (fun o ho => hops o (by simp [ho]))
    exact ⟨s2, by simp [StrOp.run, e1, e2], h2, hP2⟩

/-- C08 (primitive matrix part, every history): start from a freshly built structure with the given positions, call
any sequence of getters and `set_primitive_matrix`; afterwards the primitive cell, the atom types, the number
of types/primitive atoms and the positions are those of the crystal with the last primitive matrix set. -/
theorem C08_primitive_partial (cell : Matrix (Fin d) (Fin d) K) (pos : List (Fin d → K)) (masses : List K)
    (hdet : cell.det ≠ 0) (hm : pos.length ≤ masses.length) (ops : List (StrOp K d))
    (hops : ∀ op ∈ ops, op.Ok masses pos.length) :
    ∃ s, StrOp.run ops { cell := cell, positions := some pos, masses := masses } = some s ∧
      let P := StrOp.lastP 1 ops
      s.getPrimitiveMatrix.map Prod.fst = some P ∧
      s.getPrimitiveCell.map Prod.fst = some (cell.transpose * P).transpose ∧
      (s.getAtomTypeIndex none).map Prod.fst = some (specTypes cell P pos masses) ∧
      s.getNumberOfAtomTypes.map Prod.fst = some (specTypes cell P pos masses).toFinset.card ∧
      s.getNumberOfPrimitiveAtoms.map Prod.fst = some (specTypes cell P pos masses).toFinset.card ∧
      (s.getPositions none).map Prod.fst = some pos := by
  have h0 : Represents ({ cell := cell, positions := some pos, masses := masses } : Structure K d)
      cell 1 pos masses :=
    ⟨rfl, rfl, Or.inl rfl, Or.inl rfl, Or.inr ⟨rfl, rfl, rfl⟩, Or.inl rfl, Or.inl rfl, Or.inl rfl,
      Or.inl rfl, Or.inl rfl⟩
  obtain ⟨s, e, h, hP⟩ := represents_run h0 hdet (by simp) hm ops hops
  obtain ⟨_, e0, _⟩ := h.getPrimitiveMatrix
  obtain ⟨_, e1, _⟩ := h.getPrimitiveCell
  obtain ⟨_, e2, _⟩ := h.getTypes_none hdet hP hm
  obtain ⟨_, e3, _⟩ := h.getNumberOfAtomTypes hdet hP hm
  obtain ⟨_, e4, _⟩ := h.getNumberOfPrimitiveAtoms hdet hP hm
  obtain ⟨_, e5, _⟩ := h.getPositions_none hdet
  exact ⟨s, e, by simp [e0], by simp [e1], by simp [e2], by simp [e3], by simp [e4], by simp [e5]⟩

example : ∃ ops : List (StrOp ℚ 3), ops.length = 4 ∧
    ∀ op ∈ ops, op.Ok ([1, 2] : List ℚ) 2 :=
  ⟨[.nTypes, .setPrimitive 1, .positions (some [2, 2, 2]), .nPrimitive], rfl, by
    intro op hop
    simp only [List.mem_cons, List.not_mem_nil, or_false] at hop
    rcases hop with rfl | rfl | rfl | rfl <;> simp [StrOp.Ok]⟩

/-- C08, violated part: after `set_positions(p)` on an object that was built from positions, `get_positions()`
still returns the old positions. -/
theorem C08_set_positions_violated (s : Structure K d) (old p : List (Fin d → K)) (s' : Structure K d)
    (h : s.positions = some old) (hset : s.setPositions p = some s') :
    (s'.getPositions none).map Prod.fst = some old := by
  unfold Structure.setPositions at hset
  rw [Option.map_eq_some_iff] at hset
  obtain ⟨inv, _, rfl⟩ := hset
  simp [Structure.getPositions, h, superOr_none_positions]

/-- C08, what holds: if the Cartesian positions have not been given or asked for yet, `set_positions` works. -/
theorem C08_set_positions_partial (s : Structure K d) (p : List (Fin d → K)) (hdet : s.cell.det ≠ 0)
    (h : s.positions = none) :
    ∃ s', s.setPositions p = some s' ∧ (s'.getPositions none).map Prod.fst = some p := by
  refine ⟨{ s with scaled := some (rowsMul p s.cell⁻¹) },
    by simp only [Structure.setPositions, npInv, hdet, if_false, Option.map_some], ?_⟩
  simp [Structure.getPositions, h, superOr_none_positions, rowsMul_cancel' _ _ hdet]

/-- C08, violated part: after `set_cell(c)` an object built from scaled positions, whose Cartesian positions
have been read once, still returns the positions of the old cell. -/
theorem C08_set_cell_violated : ∃ (s : Structure ℚ 3) (p sp : List (Fin 3 → ℚ)) (s1 s2 : Structure ℚ 3)
    (c : Matrix (Fin 3) (Fin 3) ℚ),
    s.positions = none ∧ s.getPositions none = some (p, s1) ∧
    (s1.setCell c).getScaledPositions none = some (sp, s2) ∧
    (s2.getPositions none).map Prod.fst ≠ some (rowsMul sp c) := by
  refine ⟨{ cell := 1, scaled := some [fun _ => 1], masses := [1] }, [fun _ => 1], [fun _ => 1],
    { cell := 1, positions := some [fun _ => 1], scaled := some [fun _ => 1], masses := [1] },
    { cell := 2, positions := some [fun _ => 1], scaled := some [fun _ => 1], masses := [1] }, 2, rfl, ?_, ?_, ?_⟩
  · simp only [Structure.getPositions, superOr_none_positions]
    rw [rowsMul_one]
  · simp [Structure.getScaledPositions, Structure.setCell]
  · simp only [Structure.getPositions, superOr_none_positions, Option.map_some]
    intro h
    have h := congrArg (fun o => o.map (fun l => l.map (fun v => v 0))) h
    have e : (2 : Matrix (Fin 3) (Fin 3) ℚ) = 1 + 1 := by rw [one_add_one_eq_two]
    simp [rowsMul, e, Matrix.vecMul_add] at h

/-! ## C07 -/

/-- C07 holds for every supercell argument that does not confuse the masses (in particular for no supercell, and
when all masses are equal). -/
theorem C07_partial (s : Structure K d) {cell P : Matrix (Fin d) (Fin d) K} {pos : List (Fin d → K)}
    {masses : List K} (h : Represents s cell P pos masses) (hdet : cell.det ≠ 0) (hP : P.det ≠ 0)
    (hm : pos.length ≤ masses.length) (sc : List ℕ) (hsc : MassPatternOK d masses pos.length (some sc)) :
    ∃ s' t, s.getAtomTypeIndex none = some (t, s') ∧
      (s.getAtomTypeIndex (some sc)).map Prod.fst = some (expandSupercell t sc) := by
  obtain ⟨s1, e1, _⟩ := h.getTypes_none hdet hP hm
  obtain ⟨s2, e2, _⟩ := h.getTypes hdet hP hm (some sc) hsc
  exact ⟨s1, _, e1, by rw [e2]; rfl⟩

/-- The mass patterns agree when all masses of the unit cell are equal. -/
theorem massPatternOK_of_const (m : K) (n : ℕ) (sc : List ℕ) (hsc : 0 < sc.prod) :
    MassPatternOK d (List.replicate n m) n (some sc) := by
  intro i j hij hj
  have hN : ∀ k < n, (expandSupercell ((List.replicate n m).take n) (Structure.superOr d (some sc)))[k]?
      = some m := by
    intro k hk
    have hk' : k < n * sc.prod := lt_of_lt_of_le hk (Nat.le_mul_of_pos_right _ hsc)
    have hlen : k < (expandSupercell ((List.replicate n m).take n) sc).length := by
      unfold expandSupercell
      rw [length_flatMap_const _ sc.prod _ (by simp)]
      simp; rw [mul_comm]; exact hk'
    simp only [Structure.superOr, Option.getD_some]
    rw [List.getElem?_eq_getElem hlen]
    congr 1
    have hmem := List.getElem_mem hlen
    unfold expandSupercell at hmem
    simp only [List.mem_flatMap] at hmem
    obtain ⟨a, ha, hb⟩ := hmem
    have := List.eq_of_mem_replicate hb
    simp at ha
    exact this.trans ha.2
  rw [hN i (by omega), hN j hj]
  simp [hj, (by omega : i < n)]

/-- Witness for C07: two atoms half a cell apart with masses 1 and 2; the primitive cell is half the cell. -/
def c07Witness : Structure ℚ 3 where
  cell := Matrix.diagonal ![2, 1, 1]
  positions := some [![0, 0, 0], ![1, 0, 0]]
  masses := [1, 2]
  primitiveMatrix := some (Matrix.diagonal ![1 / 2, 1, 1])

/-- C07, negation: two atoms half a cell apart with masses 1 and 2, primitive cell = half the cell. Asked first without
supercell the labels are 0, 1; asked first with supercell (2,1,1) both atoms get label 0. -/
theorem C07_violated : ∃ s : Structure ℚ 3,
    (s.getAtomTypeIndex none).map Prod.fst = some [0, 1] ∧
    (s.getAtomTypeIndex (some [2, 1, 1])).map Prod.fst = some (expandSupercell [0, 0] [2, 1, 1]) := by
  have hpc : ((Matrix.diagonal ![2, 1, 1] : Matrix (Fin 3) (Fin 3) ℚ).transpose
      * Matrix.diagonal ![1 / 2, 1, 1]).transpose = 1 := by
    rw [Matrix.diagonal_transpose, Matrix.diagonal_mul_diagonal, Matrix.diagonal_transpose,
      ← Matrix.diagonal_one]
    congr 1
    funext i
    fin_cases i <;> norm_num
  have hd1 : (Matrix.diagonal ![2, 1, 1] : Matrix (Fin 3) (Fin 3) ℚ).det ≠ 0 := by
    simp [Matrix.det_diagonal, Fin.prod_univ_three]
  have hd2 : (Matrix.diagonal ![1 / 2, 1, 1] : Matrix (Fin 3) (Fin 3) ℚ).det ≠ 0 := by
    simp [Matrix.det_diagonal, Fin.prod_univ_three]
  have hsep : atomSeparation (1 : Matrix (Fin 3) (Fin 3) ℚ) ![0, 0, 0] ![1, 0, 0] = 0 := by
    apply atomSeparation_eq_zero _ (by simp)
    refine ⟨![1, 0, 0], ?_⟩
    rw [Matrix.vecMul_one]
    funext i
    fin_cases i <;> simp
  have lab : ∀ ms : List ℚ, typeLabels (sameAtoms (1 : Matrix (Fin 3) (Fin 3) ℚ)
      [![0, 0, 0], ![1, 0, 0]] ms) 2 = if ms[0]? = ms[1]? then [0, 0] else [0, 1] := by
    intro ms
    have h01 : sameAtoms (1 : Matrix (Fin 3) (Fin 3) ℚ) [![0, 0, 0], ![1, 0, 0]] ms 0 1
        = decide (ms[0]? = ms[1]?) := by
      simp only [sameAtoms, List.getD_cons_zero, List.getD_cons_succ, hsep]
      norm_num
    rw [typeLabels_congr _ (fun _ _ => decide (ms[0]? = ms[1]?)) 2]
    · by_cases h : ms[0]? = ms[1]?
      · rw [if_pos h]; simp only [h]; decide
      · rw [if_neg h]; simp only [h]; decide
    · intro i j hij hj
      have : i = 0 := by omega
      have : j = 1 := by omega
      subst_vars
      exact h01
  have h0 : Represents c07Witness (Matrix.diagonal ![2, 1, 1]) (Matrix.diagonal ![1 / 2, 1, 1])
      [![0, 0, 0], ![1, 0, 0]] [1, 2] :=
    ⟨rfl, rfl, Or.inl rfl, Or.inl rfl, Or.inl rfl, Or.inl rfl, Or.inl rfl, Or.inl rfl,
      Or.inl rfl, Or.inl rfl⟩
  refine ⟨c07Witness, ?_, ?_⟩
  · obtain ⟨s', e, _⟩ := h0.getTypes_fresh hd1 hd2 (by simp) none rfl
    rw [e, superOr_none_expand, superOr_none_expand, hpc]
    simp only [List.length_cons, List.length_nil, lab]
    simp
  · obtain ⟨s', e, _⟩ := h0.getTypes_fresh hd1 hd2 (by simp) (some [2, 1, 1]) rfl
    rw [e, hpc]
    simp only [List.length_cons, List.length_nil, lab]
    simp [Structure.superOr, expandSupercell]

end Verif
