import Verif.Model.SeekPath
import Verif.Props.Structure
import Verif.Props.GenerateCell

/-! # C132: the automatic band path -/

set_option autoImplicit false

namespace Verif

theorem mem_npUnique {α : Type*} [LinearOrder α] (l : List α) (a : α) : a ∈ (npUnique l).1 ↔ a ∈ l := by
  unfold npUnique
  simp

theorem nodup_npUnique {α : Type*} [LinearOrder α] (l : List α) : (npUnique l).1.Nodup := by
  unfold npUnique
  exact (List.perm_insertionSort _ _).nodup_iff.2 (List.nodup_dedup l)

/-- C132: the numbers given to seekpath tell the elements apart: two atoms have the same number if and only if they are of the same element, and the numbers are 0, 1, ... up to the number of elements. -/
theorem C132_species {α : Type*} [LinearOrder α] (elements : List α) :
    (npUniqueInverse elements).length = elements.length ∧
    (∀ (i j : ℕ) (hi : i < elements.length) (hj : j < elements.length), (npUniqueInverse elements)[i]? = (npUniqueInverse elements)[j]? ↔ elements[i] = elements[j]) ∧
    ∀ m, m ∈ npUniqueInverse elements ↔ m < elements.dedup.length := by
  refine ⟨by simp [npUniqueInverse], fun i j hi hj => ?_, fun m => ?_⟩
  · unfold npUniqueInverse
    rw [List.getElem?_map, List.getElem?_map, List.getElem?_eq_getElem hi, List.getElem?_eq_getElem hj, Option.map_some, Option.map_some, Option.some.injEq]
    refine ⟨fun h => ?_, fun h => by rw [h]⟩
    exact (List.idxOf_inj ((mem_npUnique _ _).2 (List.getElem_mem hi))).1 h
  · have hlen : (npUnique elements).1.length = elements.dedup.length := by unfold npUnique; simp
    unfold npUniqueInverse
    rw [List.mem_map]
    constructor
    · rintro ⟨a, ha, rfl⟩
      rw [← hlen]
      exact List.idxOf_lt_length_iff.2 ((mem_npUnique _ _).2 ha)
    · intro hm
      rw [← hlen] at hm
      exact ⟨_, (mem_npUnique _ _).1 (List.getElem_mem hm), (nodup_npUnique elements).idxOf_getElem m hm⟩

example : npUniqueInverse ["Na", "Cl", "Na", "Cl"] = [1, 0, 1, 0] := by decide +kernel

theorem pathRanges_eq {L : Type*} [DecidableEq L] (coords : List (L × (Fin 3 → ℝ))) : ∀ (path : List (L × L)) (r : List ((Fin 3 → ℝ) × (Fin 3 → ℝ))),
    pathRanges coords path = some r → List.Forall₂ (fun (ab : L × L) (xy : (Fin 3 → ℝ) × (Fin 3 → ℝ)) => coords.lookup ab.1 = some xy.1 ∧ coords.lookup ab.2 = some xy.2) path r
  | [], r, h => by
    simp only [pathRanges, Option.some.injEq] at h
    subst h; exact .nil
  | (a, b) :: path, r, h => by
    unfold pathRanges at h
    split at h
    · next x y r' h1 h2 h3 =>
      simp only [Option.some.injEq] at h
      subst h
      exact .cons ⟨h1, h2⟩ (pathRanges_eq coords path r' h3)
    · simp at h

theorem pathRanges_none {L : Type*} [DecidableEq L] (coords : List (L × (Fin 3 → ℝ))) : ∀ path : List (L × L),
    (∀ ab ∈ path, coords.lookup ab.1 ≠ none ∧ coords.lookup ab.2 ≠ none) → pathRanges coords path ≠ none
  | [], _ => by simp [pathRanges]
  | (a, b) :: path, h => by
    have h1 := h (a, b) (List.mem_cons_self ..)
    have h2 := pathRanges_none coords path fun ab hab => h ab (List.mem_cons_of_mem _ hab)
    unfold pathRanges
    obtain ⟨x, hx⟩ := Option.ne_none_iff_exists'.1 h1.1
    obtain ⟨y, hy⟩ := Option.ne_none_iff_exists'.1 h1.2
    obtain ⟨r, hr⟩ := Option.ne_none_iff_exists'.1 h2
    simp only at hx hy
    rw [hx, hy, hr]
    simp

/-- C132: for every crystal with an invertible cell, seekpath is given this crystal (the fractional positions belong to the cartesian ones) and the returned segments are, one by one and in the order of seekpath, those between the two points
of the labels; there is an answer whenever seekpath knows the coordinates of its labels. -/
theorem C132_path (s : Structure ℝ 3) (p : List (Fin 3 → ℝ)) (hdet : s.cell.det ≠ 0) (hp : s.positions = some p) (hs : s.scaled = none) (elements : List String)
    (getPath : Matrix (Fin 3) (Fin 3) ℝ → List (Fin 3 → ℝ) → List ℕ → SeekData String) :
    ∃ positions, rowsMul positions s.cell = p ∧
      let data := getPath s.cell positions (npUniqueInverse elements)
      (∀ b s', getPathUsingSeekPath s elements (some getPath) = some (b, s') → b.labels = data.path ∧
        List.Forall₂ (fun (ab : String × String) (xy : (Fin 3 → ℝ) × (Fin 3 → ℝ)) => data.pointCoords.lookup ab.1 = some xy.1 ∧ data.pointCoords.lookup ab.2 = some xy.2) b.labels b.ranges) ∧
      ((∀ ab ∈ data.path, data.pointCoords.lookup ab.1 ≠ none ∧ data.pointCoords.lookup ab.2 ≠ none) → getPathUsingSeekPath s elements (some getPath) ≠ none) := by
  obtain ⟨sp, s'', h1, h2, -⟩ := C05_cart_scaled_cart s p hdet hp hs
  have hcell : s''.cell = s.cell := by
    simp [Structure.getScaledPositions, hs, Structure.getPositions, hp, superOr_none_positions, npInv, hdet] at h1
    rw [← h1.2]
  rw [hcell] at h2
  refine ⟨sp, h2, ?_, ?_⟩
  · intro b s' h
    simp only [getPathUsingSeekPath, h1, Option.map_eq_some_iff, Prod.mk.injEq] at h
    obtain ⟨r, hr, rfl, rfl⟩ := h
    exact ⟨rfl, pathRanges_eq _ _ _ hr⟩
  · intro h
    have := pathRanges_none _ _ h
    simp only [getPathUsingSeekPath, h1]
    simpa using this

/-- A path of two segments, and one with a label without coordinates. -/
example (x y : Fin 3 → ℝ) : pathRanges [("GAMMA", x), ("X", y)] [("GAMMA", "X"), ("X", "GAMMA")] = some [(x, y), (y, x)] ∧ pathRanges [("GAMMA", x), ("X", y)] [("GAMMA", "L")] = none := by
  constructor <;> simp [pathRanges, List.lookup]

/-- C132: without seekpath the path is one segment from the zone centre to (1/2, 0, 1/2), labelled so. -/
theorem C132_fallback (s : Structure ℝ 3) (elements : List String) :
    ∃ b, getPathUsingSeekPath s elements none = some (b, s) ∧ b.ranges = [(![0, 0, 0], ![1 / 2, 0, 1 / 2])] ∧ b.labels = [("GAMMA", "1/2,0,1/2")] := ⟨_, rfl, rfl, rfl⟩

theorem qVector_inj {A B : Matrix (Fin 3) (Fin 3) ℝ} (hA : A.det ≠ 0) (hB : B.det ≠ 0) : (∀ q, qVector A q = qVector B q) ↔ A = B := by
  refine ⟨fun h => ?_, fun h q => by rw [h]⟩
  have hpi : (2 * Real.pi) ≠ 0 := by have := Real.pi_pos; positivity
  have h1 : (2 * Real.pi) • (A⁻¹).transpose = (2 * Real.pi) • (B⁻¹).transpose := by
    ext i j
    have := congrFun (h (Pi.single i 1)) j
    unfold qVector at this
    simpa using this
  have h2 : A⁻¹ = B⁻¹ := Matrix.transpose_injective (smul_right_injective _ hpi h1)
  have h3 := congrArg (·⁻¹) h2
  rwa [Matrix.nonsing_inv_nonsing_inv A (isUnit_iff_ne_zero.2 hA), Matrix.nonsing_inv_nonsing_inv B (isUnit_iff_ne_zero.2 hB)] at h3

/-- C132 (part): the wave vectors of the path. seekpath gives its coordinates relative to the reciprocal vectors of its own primitive cell, the program uses them relative to those of the primitive cell of the structure (`PRIMITIVE MATRIX`):
all of them are the wave vectors that are meant, if and only if the two primitive cells are the same. Missing, and false: the general case (`C132_primitive_violated`). -/
theorem C132_primitive_partial (data : SeekData String) (prim : Matrix (Fin 3) (Fin 3) ℝ) (h1 : data.primitiveLattice.det ≠ 0) (h2 : prim.det ≠ 0) :
    (∀ q, qVector prim q = qVector data.primitiveLattice q) ↔ prim = data.primitiveLattice := qVector_inj h2 h1

/-- C132 is violated: a face centred cubic crystal given by its cubic cell, without a `PRIMITIVE MATRIX`. The point X of seekpath, (1/2, 0, 1/2) in its primitive cell, is read as another wave vector. -/
theorem C132_primitive_violated (a : ℝ) (ha : 0 < a) :
    qVector (a • (1 : Matrix (Fin 3) (Fin 3) ℝ)) ![1 / 2, 0, 1 / 2] ≠ qVector (!![0, a / 2, a / 2; a / 2, 0, a / 2; a / 2, a / 2, 0]) ![1 / 2, 0, 1 / 2] := by
  intro h
  have hpi := Real.pi_pos
  have i1 : (a • (1 : Matrix (Fin 3) (Fin 3) ℝ))⁻¹ = (1 / a) • 1 := by
    apply Matrix.inv_eq_right_inv
    rw [Matrix.smul_mul, Matrix.mul_smul, Matrix.one_mul, smul_smul, mul_one_div_cancel ha.ne', one_smul]
  have i2 : (!![0, a / 2, a / 2; a / 2, 0, a / 2; a / 2, a / 2, 0] : Matrix (Fin 3) (Fin 3) ℝ)⁻¹ = !![-1 / a, 1 / a, 1 / a; 1 / a, -1 / a, 1 / a; 1 / a, 1 / a, -1 / a] := by
    apply Matrix.inv_eq_right_inv
    ext i j
    fin_cases i <;> fin_cases j <;> simp [Matrix.mul_apply, Fin.sum_univ_three] <;> field_simp <;> ring
  have h0 := congrFun h 0
  unfold qVector at h0
  rw [i1, i2] at h0
  simp [Matrix.vecMul, dotProduct, Fin.sum_univ_three, Matrix.transpose_apply, Matrix.one_apply] at h0
  exact ha.ne' h0

end Verif
