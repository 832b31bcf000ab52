import Verif.Model.Supercell
import Verif.Util
import Mathlib.Data.Matrix.Basic
import Mathlib.Tactic.FinCases

/-! # C01–C05: supercell positions, per-atom data, cell, scaled coordinates -/

set_option autoImplicit false

namespace Verif

/-- Specification: the position of the translation `x = [x1, x2, ...]` inside the block of one atom:
`x1 + s1*(x2 + s2*(x3 + ...))`. -/
def flatIndex : List ℕ → List ℕ → ℕ
  | s :: ss, x :: xs => x + s * flatIndex ss xs
  | _, _ => 0

/-- Specification: `x` is a translation of the supercell, `0 ≤ x_i < s_i`. -/
def InBox : List ℕ → List ℕ → Prop
  | s :: ss, x :: xs => x < s ∧ InBox ss xs
  | [], [] => True
  | _, _ => False

/-! ## Helper lemmas -/

theorem pyProduct_append_single (ls : List (List ℕ)) (l : List ℕ) :
    pyProduct (ls ++ [l]) = (pyProduct ls).flatMap fun r => l.map fun a => r ++ [a] := by
  induction ls with
  | nil => simp [pyProduct, List.flatMap]; induction l <;> simp_all
  | cons k ls ih =>
    simp only [List.cons_append, pyProduct, ih, List.flatMap_assoc, List.map_flatMap, List.flatMap_map,
      List.map_map]
    rfl

theorem cellTranslations_nil : cellTranslations [] = [[]] := rfl

theorem cellTranslations_cons (s : ℕ) (ss : List ℕ) :
    cellTranslations (s :: ss) = (cellTranslations ss).flatMap fun t => (List.range s).map (· :: t) := by
  unfold cellTranslations
  simp only [List.reverse_cons, List.map_append, List.map_cons, List.map_nil, pyProduct_append_single,
    List.map_flatMap, List.flatMap_map, List.map_map]
  congr 1
  funext r
  apply List.map_congr_left
  intro a _
  simp

theorem length_cellTranslations (s : List ℕ) : (cellTranslations s).length = s.prod := by
  induction s with
  | nil => rfl
  | cons s ss ih =>
    rw [cellTranslations_cons, length_flatMap_const _ s _ (by simp), ih, List.prod_cons]

theorem length_of_mem_cellTranslations (s : List ℕ) : ∀ t ∈ cellTranslations s, t.length = s.length := by
  induction s with
  | nil => simp [cellTranslations_nil]
  | cons s ss ih =>
    intro t ht
    rw [cellTranslations_cons] at ht
    simp only [List.mem_flatMap, List.mem_map] at ht
    obtain ⟨u, hu, a, _, rfl⟩ := ht
    simp [ih u hu]

theorem getElem?_cellTranslations (s : List ℕ) : ∀ x, InBox s x →
    (cellTranslations s)[flatIndex s x]? = some x := by
  induction s with
  | nil =>
    intro x hx
    cases x with
    | nil => simp [cellTranslations_nil, flatIndex]
    | cons => simp [InBox] at hx
  | cons s ss ih =>
    intro x hx
    cases x with
    | nil => simp [InBox] at hx
    | cons x xs =>
      obtain ⟨h1, h2⟩ := hx
      rw [cellTranslations_cons]
      have := getElem?_flatMap_const (fun t => (List.range s).map (· :: t)) s (cellTranslations ss)
        (by simp) (flatIndex ss xs) x h1
      simp only [flatIndex]
      rw [add_comm, this, ih xs h2]
      simp [h1]

theorem flatIndex_lt (s : List ℕ) : ∀ x, InBox s x → flatIndex s x < s.prod := by
  induction s with
  | nil =>
    intro x hx
    cases x with
    | nil => simp [flatIndex]
    | cons => simp [InBox] at hx
  | cons s ss ih =>
    intro x hx
    cases x with
    | nil => simp [InBox] at hx
    | cons x xs =>
      obtain ⟨h1, h2⟩ := hx
      have := ih xs h2
      simp only [flatIndex, List.prod_cons]
      nlinarith

theorem inBox_of_mem_cellTranslations (s : List ℕ) : ∀ t ∈ cellTranslations s, InBox s t := by
  induction s with
  | nil => simp [cellTranslations_nil, InBox]
  | cons s ss ih =>
    intro t ht
    rw [cellTranslations_cons] at ht
    simp only [List.mem_flatMap, List.mem_map, List.mem_range] at ht
    obtain ⟨u, hu, a, ha, rfl⟩ := ht
    exact ⟨ha, ih u hu⟩

variable {K : Type*} [Field K] {d : ℕ}

/-! ## C01 -/

/-- C01: number of rows. -/
theorem C01_count (positions : List (Fin d → K)) (cell : Matrix (Fin d) (Fin d) K) (supercell : List ℕ) :
    (positionsSupercell positions cell supercell).length = positions.length * supercell.prod := by
  unfold positionsSupercell
  rw [length_flatMap_const _ supercell.prod _ (by simp [length_cellTranslations]), mul_comm]

/-- C01: the row of atom `k` and translation `x` (any number of dimensions): at index
`k * prod(s) + (x1 + s1*(x2 + s2*(x3 + ...)))` stands the unit cell position plus `Σ_i x_i a_i`. -/
theorem C01_order (positions : List (Fin d → K)) (cell : Matrix (Fin d) (Fin d) K) (supercell : List ℕ)
    (k : ℕ) (p : Fin d → K) (hk : positions[k]? = some p)
    (x : List ℕ) (hx : InBox supercell x) :
    (positionsSupercell positions cell supercell)[k * supercell.prod + flatIndex supercell x]?
      = some (fun j => p j + ∑ i : Fin d, (x.getD i 0 : K) * cell i j) := by
  unfold positionsSupercell
  rw [mul_comm, getElem?_flatMap_const _ supercell.prod _ (by simp [length_cellTranslations]) k _
    (flatIndex_lt _ _ hx), hk]
  simp only [Option.bind_some, List.getElem?_map, getElem?_cellTranslations _ _ hx, Option.map_some]
  rfl

/-- C01 in three dimensions, with the index written out. -/
theorem C01_order_3d (positions : List (Fin 3 → K)) (cell : Matrix (Fin 3) (Fin 3) K) (s1 s2 s3 : ℕ)
    (k : ℕ) (p : Fin 3 → K) (hk : positions[k]? = some p)
    (x y z : ℕ) (hx : x < s1) (hy : y < s2) (hz : z < s3) :
    (positionsSupercell positions cell [s1, s2, s3])[k * (s1 * s2 * s3) + (x + s1 * y + s1 * s2 * z)]?
      = some (fun j => p j + (x * cell 0 j + y * cell 1 j + z * cell 2 j)) := by
  have := C01_order positions cell [s1, s2, s3] k p hk [x, y, z] ⟨hx, hy, hz, trivial⟩
  have e : k * (s1 * s2 * s3) + (x + s1 * y + s1 * s2 * z)
      = k * [s1, s2, s3].prod + flatIndex [s1, s2, s3] [x, y, z] := by
    simp only [flatIndex, List.prod_cons, List.prod_nil]; ring
  rw [e, this]
  simp [Fin.sum_univ_three]

/-- C01: with no supercell argument (all multiplicities 1) the unit cell positions are returned unchanged. -/
theorem C01_unit (positions : List (Fin d → K)) (cell : Matrix (Fin d) (Fin d) K) :
    positionsSupercell positions cell (List.replicate d 1) = positions := by
  have h : ∀ n : ℕ, cellTranslations (List.replicate n 1) = [List.replicate n 0] := by
    intro n
    induction n with
    | zero => rfl
    | succ n ih => rw [List.replicate_succ, cellTranslations_cons, ih]; rfl
  unfold positionsSupercell
  rw [h]
  have h2 : latticeVector (List.replicate d 0) cell = 0 := by
    funext j
    unfold latticeVector
    simp [List.getD_eq_getElem?_getD]
  simp [h2]

example : ([fun _ => 0, fun _ => 1] : List (Fin 3 → ℚ))[1]? = some (fun _ => 1) ∧
    InBox [2, 3, 4] [1, 2, 3] := by simp [InBox]

/-! ## C02 -/

/-- C02: every per-atom list has the length of the list of positions. -/
theorem C02_length {α : Type*} (v : List α) (positions : List (Fin d → K))
    (cell : Matrix (Fin d) (Fin d) K) (supercell : List ℕ) (h : v.length = positions.length) :
    (expandSupercell v supercell).length = (positionsSupercell positions cell supercell).length := by
  rw [C01_count]
  unfold expandSupercell
  rw [length_flatMap_const _ supercell.prod _ (by simp), h, mul_comm]

/-- C02: entry `i` of the expanded list and row `i` of the positions belong to the same unit-cell atom `k`:
the entry is `v[k]` and the row is the position of atom `k` plus a translation `x` of the supercell. -/
theorem C02_aligned {α : Type*} (v : List α) (positions : List (Fin d → K))
    (cell : Matrix (Fin d) (Fin d) K) (supercell : List ℕ) (h : v.length = positions.length)
    (i : ℕ) (hi : i < (positionsSupercell positions cell supercell).length) :
    ∃ (k : ℕ) (a : α) (p : Fin d → K) (x : List ℕ), v[k]? = some a ∧ positions[k]? = some p ∧
      InBox supercell x ∧
      (expandSupercell v supercell)[i]? = some a ∧
      (positionsSupercell positions cell supercell)[i]?
        = some (fun j => p j + ∑ c : Fin d, (x.getD c 0 : K) * cell c j) := by
  rw [C01_count] at hi
  obtain ⟨N, hN⟩ : ∃ N, N = supercell.prod := ⟨_, rfl⟩
  rw [← hN] at hi
  have hN0 : 0 < N := by
    rcases Nat.eq_zero_or_pos N with h0 | h0
    · rw [h0] at hi; simp at hi
    · exact h0
  have hk : i / N < positions.length := by
    rw [Nat.div_lt_iff_lt_mul hN0]; exact hi
  have hj : i % N < N := Nat.mod_lt _ hN0
  have hx : i % N < (cellTranslations supercell).length := by rw [length_cellTranslations, ← hN]; exact hj
  obtain ⟨k, hkk⟩ : ∃ k, k = i / N := ⟨_, rfl⟩
  obtain ⟨m, hm⟩ : ∃ m, m = i % N := ⟨_, rfl⟩
  have hi' : i = N * k + m := by rw [hkk, hm]; exact (Nat.div_add_mod i N).symm
  rw [← hkk] at hk
  rw [← hm] at hj hx
  have hkv : k < v.length := by omega
  refine ⟨k, v[k], positions[k], (cellTranslations supercell)[m], List.getElem?_eq_getElem _,
    List.getElem?_eq_getElem _, inBox_of_mem_cellTranslations _ _ (List.getElem_mem _), ?_, ?_⟩
  · rw [hi']
    unfold expandSupercell
    rw [getElem?_flatMap_const _ N _ (by simp [hN]) _ _ hj, List.getElem?_eq_getElem hkv]
    simp [← hN, hj]
  · rw [hi']
    unfold positionsSupercell
    rw [getElem?_flatMap_const _ N _ (by simp [hN, length_cellTranslations]) _ _ hj,
      List.getElem?_eq_getElem hk]
    simp only [Option.bind_some, List.getElem?_map, List.getElem?_eq_getElem hx, Option.map_some]
    rfl

/-- C02, block form: the entry at `k * prod(s) + j` is that of unit-cell atom `k`. -/
theorem C02_block {α : Type*} (v : List α) (supercell : List ℕ) (k j : ℕ) (hj : j < supercell.prod) :
    (expandSupercell v supercell)[k * supercell.prod + j]? = v[k]? := by
  unfold expandSupercell
  rw [mul_comm, getElem?_flatMap_const _ supercell.prod _ (by simp) k _ hj]
  cases v[k]? <;> simp [hj]

example : (expandSupercell ["Ga", "N"] [2, 1, 1]) = ["Ga", "Ga", "N", "N"] := by decide

/-! ## C03 -/

/-- C03: ranges. -/
theorem C03_range (i s0 s1 s2 : ℕ) (h0 : 0 < s0) (h1 : 0 < s1) (h2 : 0 < s2) :
    (dynaphopyOrder i s0 s1 s2).1 < s0 ∧ (dynaphopyOrder i s0 s1 s2).2.1 < s1 ∧
    (dynaphopyOrder i s0 s1 s2).2.2.1 < s2 := by
  unfold dynaphopyOrder
  refine ⟨Nat.mod_lt _ h0, ?_, ?_⟩
  · rw [Nat.div_lt_iff_lt_mul h0, mul_comm s1]; exact Nat.mod_lt _ (by positivity)
  · rw [Nat.div_lt_iff_lt_mul (by positivity)]
    calc i % (s0 * s1 * s2) < s0 * s1 * s2 := Nat.mod_lt _ (by positivity)
      _ = s2 * (s1 * s0) := by ring

/-- C03: the result determines the index (so distinct rows give distinct results). -/
theorem C03_reconstruct (i s0 s1 s2 : ℕ) :
    let o := dynaphopyOrder i s0 s1 s2
    i = o.2.2.2 * (s0 * s1 * s2) + (o.1 + s0 * o.2.1 + s0 * s1 * o.2.2.1) := by
  simp only [dynaphopyOrder]
  have e1 : i % (s0 * s1) = i % s0 + s0 * (i / s0 % s1) := Nat.mod_mul
  have e2 : i % (s0 * s1 * s2) = i % (s0 * s1) + (s0 * s1) * (i / (s0 * s1) % s2) := Nat.mod_mul
  have hy : s0 * (i % (s0 * s1) / s0) = i % (s0 * s1) - i % s0 := by
    rcases Nat.eq_zero_or_pos s0 with h | h
    · subst h; simp
    · have := Nat.div_add_mod (i % (s0 * s1)) s0
      rw [Nat.mod_mod_of_dvd _ (Dvd.intro _ rfl)] at this
      omega
  have hz : s0 * s1 * (i % (s0 * s1 * s2) / (s1 * s0)) = i % (s0 * s1 * s2) - i % (s0 * s1) := by
    have := Nat.div_add_mod (i % (s0 * s1 * s2)) (s0 * s1)
    rw [Nat.mod_mod_of_dvd _ (Dvd.intro _ rfl)] at this
    rw [mul_comm s1 s0]
    omega
  have hk := Nat.div_add_mod i (s0 * s1 * s2)
  have c1 : i % s0 ≤ i % (s0 * s1) := by rw [e1]; omega
  have c2 : i % (s0 * s1) ≤ i % (s0 * s1 * s2) := by rw [e2]; exact Nat.le_add_right _ _
  have e3 : s1 * s0 * s2 = s0 * s1 * s2 := by ring
  rw [e3, mul_comm (i / (s0 * s1 * s2))]
  omega

/-- C03: row `i` of `get_positions(size)` is the atom `k` translated by `(x, y, z)`. -/
theorem C03_row (positions : List (Fin 3 → K)) (cell : Matrix (Fin 3) (Fin 3) K) (s0 s1 s2 i : ℕ)
    (hi : i < (positionsSupercell positions cell [s0, s1, s2]).length) :
    ∃ p, positions[(dynaphopyOrder i s0 s1 s2).2.2.2]? = some p ∧
    (positionsSupercell positions cell [s0, s1, s2])[i]? = some (fun j => p j +
      ((dynaphopyOrder i s0 s1 s2).1 * cell 0 j + (dynaphopyOrder i s0 s1 s2).2.1 * cell 1 j
        + (dynaphopyOrder i s0 s1 s2).2.2.1 * cell 2 j)) := by
  rw [C01_count] at hi
  simp only [List.prod_cons, List.prod_nil, mul_one] at hi
  have hpos : 0 < s0 * (s1 * s2) := by
    rcases Nat.eq_zero_or_pos (s0 * (s1 * s2)) with h0 | h0
    · rw [h0] at hi; simp at hi
    · exact h0
  have h0 : 0 < s0 := Nat.pos_of_mul_pos_right hpos
  have h12 : 0 < s1 * s2 := Nat.pos_of_mul_pos_left hpos
  have h1 : 0 < s1 := Nat.pos_of_mul_pos_right h12
  have h2 : 0 < s2 := Nat.pos_of_mul_pos_left h12
  have hr := C03_range i s0 s1 s2 h0 h1 h2
  have hk : (dynaphopyOrder i s0 s1 s2).2.2.2 < positions.length := by
    simp only [dynaphopyOrder]
    rw [Nat.div_lt_iff_lt_mul (by positivity)]
    calc i < positions.length * (s0 * (s1 * s2)) := hi
      _ = positions.length * (s1 * s0 * s2) := by ring
  refine ⟨positions[(dynaphopyOrder i s0 s1 s2).2.2.2], List.getElem?_eq_getElem hk, ?_⟩
  have := C01_order_3d positions cell s0 s1 s2 _ _ (List.getElem?_eq_getElem hk) _ _ _ hr.1 hr.2.1 hr.2.2
  rw [← C03_reconstruct] at this
  exact this

/-- C03: distinct rows give distinct results. -/
theorem C03_injective (i i' s0 s1 s2 : ℕ) (h : dynaphopyOrder i s0 s1 s2 = dynaphopyOrder i' s0 s1 s2) :
    i = i' := by
  have h1 := C03_reconstruct i s0 s1 s2
  have h2 := C03_reconstruct i' s0 s1 s2
  simp only at h1 h2
  rw [h1, h2, h]

/-- C03: it is also onto: the row built from `(x, y, z, k)` is decoded to `(x, y, z, k)`. -/
theorem C03_decode (x y z k s0 s1 s2 : ℕ) (hx : x < s0) (hy : y < s1) (hz : z < s2) :
    dynaphopyOrder (k * (s0 * s1 * s2) + (x + s0 * y + s0 * s1 * z)) s0 s1 s2 = (x, y, z, k) := by
  set i := k * (s0 * s1 * s2) + (x + s0 * y + s0 * s1 * z) with hi
  have h0 : 0 < s0 := by omega
  have h1 : 0 < s1 := by omega
  have h2 : 0 < s2 := by omega
  have a1 : x + s0 * y < s0 * s1 := by nlinarith
  have a2 : x + s0 * y + s0 * s1 * z < s0 * s1 * s2 := by
    have : s0 * s1 * (z + 1) ≤ s0 * s1 * s2 := Nat.mul_le_mul_left _ hz
    rw [Nat.mul_add, Nat.mul_one] at this
    omega
  have m3 : i % (s0 * s1 * s2) = x + s0 * y + s0 * s1 * z := by
    rw [hi, Nat.mul_comm k, Nat.mul_add_mod, Nat.mod_eq_of_lt a2]
  have m2 : i % (s0 * s1) = x + s0 * y := by
    rw [← Nat.mod_mod_of_dvd i (Dvd.intro s2 rfl : s0 * s1 ∣ s0 * s1 * s2), m3, Nat.add_mul_mod_self_left,
      Nat.mod_eq_of_lt a1]
  have m1 : i % s0 = x := by
    rw [← Nat.mod_mod_of_dvd i (Dvd.intro s1 rfl : s0 ∣ s0 * s1), m2, Nat.add_mul_mod_self_left,
      Nat.mod_eq_of_lt hx]
  have mk : i / (s0 * s1 * s2) = k := by
    rw [hi, Nat.mul_comm k, Nat.mul_add_div (by positivity), Nat.div_eq_of_lt a2, Nat.add_zero]
  simp only [dynaphopyOrder, m1, m2, m3]
  have y' : (x + s0 * y) / s0 = y := by
    rw [Nat.add_mul_div_left _ _ h0, Nat.div_eq_of_lt hx, Nat.zero_add]
  have z' : (x + s0 * y + s0 * s1 * z) / (s1 * s0) = z := by
    rw [mul_comm s1 s0, Nat.add_mul_div_left _ _ (by positivity), Nat.div_eq_of_lt a1, Nat.zero_add]
  rw [y', z', show s1 * s0 * s2 = s0 * s1 * s2 by ring, mk]

example : dynaphopyOrder 23 2 3 2 = (1, 2, 1, 1) := by decide

/-! ## C04 -/

/-- Specification of the supercell lattice: row `i` is `s_i` times the unit cell vector `i`. -/
def IsSupercellOf (A cell : Matrix (Fin d) (Fin d) K) (s : Fin d → ℕ) : Prop :=
  ∀ i j, A i j = s i * cell i j

/-- C04 is false in general: `get_cell(supercell)` is the supercell lattice iff every
non-zero component `j` of lattice vector `i` has the same multiplicity as the vector, i.e. exactly when
the cell does not mix directions with different multiplicities. -/
theorem C04_iff [CharZero K] (cell : Matrix (Fin d) (Fin d) K) (s : Fin d → ℕ) :
    IsSupercellOf (getCellSupercell cell s) cell s ↔ ∀ i j, cell i j ≠ 0 → s i = s j := by
  unfold IsSupercellOf getCellSupercell
  simp only [Matrix.mul_diagonal]
  constructor
  · intro h i j hij
    have := h i j
    rw [mul_comm] at this
    have := mul_right_cancel₀ hij this
    exact_mod_cast this.symm
  · intro h i j
    by_cases hij : cell i j = 0
    · simp [hij]
    · rw [h i j hij, mul_comm]

/-- C04 holds for orthogonal (diagonal) cells and for isotropic supercells. -/
theorem C04_partial [CharZero K] (cell : Matrix (Fin d) (Fin d) K) (s : Fin d → ℕ)
    (h : (∀ i j, i ≠ j → cell i j = 0) ∨ (∀ i j, s i = s j)) :
    IsSupercellOf (getCellSupercell cell s) cell s := by
  rw [C04_iff]
  intro i j hij
  rcases h with h | h
  · by_contra hne
    exact hij (h i j (fun e => hne (by rw [e])))
  · exact h i j

/-- C04, negation: for the fcc primitive cell and supercell (2,1,1) the result is not the supercell lattice. -/
theorem C04_violated : ¬ (∀ (cell : Matrix (Fin 3) (Fin 3) ℚ) (s : Fin 3 → ℕ),
    IsSupercellOf (getCellSupercell cell s) cell s) := by
  intro h
  have := (C04_iff !![0, 1, 1; 1, 0, 1; 1, 1, 0] ![2, 1, 1]).1 (h _ _) 0 1 (by decide +kernel)
  simp at this

/-- The formula used by the trajectory readers (`np.dot(np.diagflat(s), cell)`) is the supercell lattice. -/
theorem C04_diagflat (cell : Matrix (Fin d) (Fin d) K) (s : Fin d → ℕ) :
    IsSupercellOf (diagflatCell cell s) cell s := by
  intro i j
  simp [diagflatCell, Matrix.diagonal_mul]

end Verif
