import Verif.Model.Commensurate
import Verif.Props.Dynamics
import Verif.Props.Projection
import Mathlib.Data.List.Nodup
import Mathlib.Data.List.ProdSigma

/-! # C92: commensurate points of a structure -/

set_option autoImplicit false
set_option linter.unusedSectionVars false

namespace Verif

/-- Specification: `q` (in the basis of the primitive reciprocal cell, `Pinv` the inverse of the primitive matrix) is
periodic in the supercell with `m` unit cells along each axis. -/
def PeriodicIn (Pinv : Matrix (Fin 3) (Fin 3) ℚ) (m : Fin 3 → ℕ) (q : Fin 3 → ℚ) : Prop :=
  ∀ c, ∃ z : ℤ, Matrix.vecMul q Pinv c * (m c : ℚ) = z

theorem commensurateTest_iff (Pinv : Matrix (Fin 3) (Fin 3) ℚ) (n : Fin 3 → ℕ) (q : Fin 3 → ℚ) :
    commensurateTest Pinv n q = true ↔ PeriodicIn Pinv (fun c => 2 * n c) q := by
  unfold commensurateTest PeriodicIn
  rw [decide_eq_true_iff]
  refine forall_congr' fun c => ?_
  rw [Int.fract_eq_zero_iff]
  constructor
  · rintro ⟨z, hz⟩
    exact ⟨z, by push_cast; linarith⟩
  · rintro ⟨z, hz⟩
    exact ⟨z, by push_cast at hz; linarith⟩

/-- C92: every point returned is periodic in the supercell of twice the size, for every primitive matrix and supercell. -/
theorem C92_sound (Pinv : Matrix (Fin 3) (Fin 3) ℚ) (n : Fin 3 → ℕ) (q : Fin 3 → ℚ) (hq : q ∈ structureCommensurate Pinv n) :
    PeriodicIn Pinv (fun c => 2 * n c) q := by
  unfold structureCommensurate at hq
  rw [List.mem_filter] at hq
  exact (commensurateTest_iff Pinv n q).1 hq.2

theorem commensurateAxis_eq (n : ℕ) (hn : 0 < n) (hd : 2 * n ∣ 10 ^ 5) :
    commensurateAxis n = (List.range (2 * n)).map fun (j : ℕ) => -1 / 2 + (j : ℚ) / (2 * n : ℚ) := by
  have hn' : (n : ℚ) ≠ 0 := by exact_mod_cast hn.ne'
  have h1 : ((1 : ℚ) / 2 - (-1 / 2)) / (1 / ((n : ℚ) * 2)) = ((2 * n : ℕ) : ℚ) := by
    push_cast; field_simp; norm_num
  unfold commensurateAxis arange
  rw [h1, Int.ceil_natCast, Int.toNat_natCast, List.map_map]
  refine List.map_congr_left fun j _ => ?_
  obtain ⟨k, hk⟩ := hd
  have hk' : (10 : ℚ) ^ 5 = 2 * n * k := by exact_mod_cast hk
  simp only [Function.comp]
  have h2 : (-1 / 2 + (j : ℚ) * (1 / ((n : ℚ) * 2))) = ((-50000 + (j * k : ℕ) : ℤ) : ℚ) / 10 ^ 5 := by
    push_cast
    rw [eq_div_iff (by positivity)]
    have : (j : ℚ) * (1 / ((n : ℚ) * 2)) * 10 ^ 5 = j * k := by
      rw [hk']; field_simp
    rw [add_mul, this]
    norm_num
  rw [h2]
  unfold aroundDec
  rw [div_mul_cancel₀ _ (by positivity : (10 : ℚ) ^ 5 ≠ 0)]
  have hre : ∀ m : ℤ, roundEven (m : ℚ) = m := by
    intro m
    simp [roundEven]
  have h3 : roundEven ((((-50000 + (j * k : ℕ) : ℤ)) : ℚ)) = -50000 + (j * k : ℕ) := hre _
  rw [h3, ← h2]
  field_simp

theorem mem_commensurateAxis (n : ℕ) (hn : 0 < n) (hd : 2 * n ∣ 10 ^ 5) (x : ℚ) :
    x ∈ commensurateAxis n ↔ -1 / 2 ≤ x ∧ x < 1 / 2 ∧ ∃ z : ℤ, x * ((2 * n : ℕ) : ℚ) = z := by
  have hn' : (0 : ℚ) < n := by exact_mod_cast hn
  rw [commensurateAxis_eq n hn hd, List.mem_map]
  constructor
  · rintro ⟨j, hj, rfl⟩
    rw [List.mem_range] at hj
    have hj' : (j : ℚ) < 2 * n := by exact_mod_cast hj
    refine ⟨?_, ?_, (j : ℤ) - n, ?_⟩
    · have : 0 ≤ (j : ℚ) / (2 * n) := by positivity
      linarith
    · have : (j : ℚ) / (2 * n) < 1 := by rw [div_lt_one (by positivity)]; exact hj'
      linarith
    · push_cast; field_simp; ring
  · rintro ⟨h1, h2, z, hz⟩
    push_cast at hz
    have hz0 : (0 : ℤ) ≤ z + n := by
      have : (0 : ℚ) ≤ ((z + n : ℤ) : ℚ) := by push_cast; rw [← hz]; nlinarith
      exact_mod_cast this
    refine ⟨(z + n).toNat, ?_, ?_⟩
    · rw [List.mem_range]
      have : ((z + n : ℤ) : ℚ) < ((2 * n : ℤ) : ℚ) := by push_cast; rw [← hz]; nlinarith
      have : z + n < 2 * n := by exact_mod_cast this
      omega
    · have : (((z + n).toNat : ℕ) : ℚ) = z + n := by
        have h3 : (((z + n).toNat : ℤ)) = z + n := Int.toNat_of_nonneg hz0
        exact_mod_cast h3
      rw [this, ← hz]
      field_simp; ring

theorem nodup_commensurateAxis (n : ℕ) (hn : 0 < n) (hd : 2 * n ∣ 10 ^ 5) : (commensurateAxis n).Nodup := by
  have hn' : (0 : ℚ) < n := by exact_mod_cast hn
  rw [commensurateAxis_eq n hn hd]
  refine List.Nodup.map (fun a b h => ?_) List.nodup_range
  have h2 : (a : ℚ) / (2 * n) = (b : ℚ) / (2 * n) := by linarith
  have h3 : (a : ℚ) = b := by field_simp at h2; exact h2
  exact_mod_cast h3

theorem mem_structureCommensurate (Pinv : Matrix (Fin 3) (Fin 3) ℚ) (n : Fin 3 → ℕ) (q : Fin 3 → ℚ) :
    q ∈ structureCommensurate Pinv n ↔ (∀ c, q c ∈ commensurateAxis (n c)) ∧ PeriodicIn Pinv (fun c => 2 * n c) q := by
  unfold structureCommensurate
  rw [List.mem_filter, commensurateTest_iff]
  refine and_congr_left fun _ => ?_
  simp only [List.mem_flatMap, List.mem_map]
  constructor
  · rintro ⟨a, ha, b, hb, c, hc, rfl⟩
    intro i
    fin_cases i
    · exact ha
    · exact hb
    · exact hc
  · intro h
    refine ⟨q 0, h 0, q 1, h 1, q 2, h 2, ?_⟩
    funext i
    fin_cases i <;> rfl

/-- C92: for a primitive unit cell and supercell numbers that divide 50000, the result is exactly the set of points of the cube
`[-1/2, 1/2)³` periodic in the supercell of *twice* the size, each once. -/
theorem C92_double (n : Fin 3 → ℕ) (hn : ∀ c, 0 < n c) (hd : ∀ c, 2 * n c ∣ 10 ^ 5) :
    (∀ q, q ∈ structureCommensurate 1 n ↔ (∀ c, -1 / 2 ≤ q c ∧ q c < 1 / 2) ∧ PeriodicIn 1 (fun c => 2 * n c) q) ∧
    (structureCommensurate 1 n).Nodup ∧ (structureCommensurate 1 n).length = 8 * (n 0 * n 1 * n 2) := by
  have hmem : ∀ q, q ∈ structureCommensurate 1 n ↔ (∀ c, -1 / 2 ≤ q c ∧ q c < 1 / 2) ∧ PeriodicIn 1 (fun c => 2 * n c) q := by
    intro q
    rw [mem_structureCommensurate]
    refine and_congr_left fun hp => ?_
    refine forall_congr' fun c => ?_
    rw [mem_commensurateAxis (n c) (hn c) (hd c)]
    have := hp c
    rw [Matrix.vecMul_one] at this
    exact ⟨fun h => ⟨h.1, h.2.1⟩, fun h => ⟨h.1, h.2, this⟩⟩
  have hall : structureCommensurate 1 n = ((commensurateAxis (n 0)).flatMap fun k1 => (commensurateAxis (n 1)).flatMap fun k2 =>
    (commensurateAxis (n 2)).map fun k3 => ![k1, k2, k3]) := by
    unfold structureCommensurate
    rw [List.filter_eq_self]
    intro q hq
    rw [commensurateTest_iff]
    simp only [List.mem_flatMap, List.mem_map] at hq
    obtain ⟨a, ha, b, hb, c, hc, rfl⟩ := hq
    intro i
    rw [Matrix.vecMul_one]
    fin_cases i
    · exact ((mem_commensurateAxis _ (hn 0) (hd 0) a).1 ha).2.2
    · exact ((mem_commensurateAxis _ (hn 1) (hd 1) b).1 hb).2.2
    · exact ((mem_commensurateAxis _ (hn 2) (hd 2) c).1 hc).2.2
  have hlen : ∀ c, (commensurateAxis (n c)).length = 2 * n c := by
    intro c
    rw [commensurateAxis_eq (n c) (hn c) (hd c)]
    simp
  refine ⟨hmem, ?_, ?_⟩
  · rw [hall, List.nodup_flatMap]
    refine ⟨fun a _ => ?_, ?_⟩
    · rw [List.nodup_flatMap]
      refine ⟨fun b _ => ?_, ?_⟩
      · refine List.Nodup.map (fun c c' h => ?_) (nodup_commensurateAxis _ (hn 2) (hd 2))
        exact congrFun h 2
      · refine (nodup_commensurateAxis _ (hn 1) (hd 1)).imp fun {b b'} hne => ?_
        intro q h1 h2
        simp only [List.mem_map] at h1 h2
        obtain ⟨c, _, rfl⟩ := h1
        obtain ⟨c', _, h⟩ := h2
        exact hne (congrFun h 1).symm
    · refine (nodup_commensurateAxis _ (hn 0) (hd 0)).imp fun {a a'} hne => ?_
      intro q h1 h2
      simp only [List.mem_flatMap, List.mem_map] at h1 h2
      obtain ⟨b, _, c, _, rfl⟩ := h1
      obtain ⟨b', _, c', _, h⟩ := h2
      exact hne (congrFun h 0).symm
  · rw [hall]
    simp only [List.length_flatMap, List.length_map, hlen, List.map_const', List.sum_replicate, smul_eq_mul]
    ring

/-- C92, the property fails: "the points returned are the points commensurate with the supercell". For the unit cell itself
(supercell 1, 1, 1) seven points of the zone boundary are returned besides Γ; for 3 unit cells the points ±1/3 are lost in the rounding to five
decimals. -/
theorem C92_violated :
    (![-1 / 2, -1 / 2, -1 / 2] ∈ structureCommensurate 1 (fun _ => 1) ∧ ¬ PeriodicIn 1 (fun _ => 1) ![-1 / 2, -1 / 2, -1 / 2]) ∧
    (![1 / 3, 0, 0] ∉ structureCommensurate 1 ![3, 1, 1] ∧ PeriodicIn 1 ![3, 1, 1] ![1 / 3, 0, 0] ∧
      ![33333 / 100000, 0, 0] ∉ structureCommensurate 1 ![3, 1, 1]) := by
  refine ⟨⟨?_, ?_⟩, ?_, ?_, ?_⟩
  · rw [(C92_double (fun _ => 1) (fun _ => one_pos) (fun _ => by norm_num)).1]
    refine ⟨fun c => ?_, fun c => ?_⟩
    · fin_cases c <;> norm_num
    · rw [Matrix.vecMul_one]
      refine ⟨-1, ?_⟩
      fin_cases c <;> norm_num
  · intro h
    obtain ⟨z, hz⟩ := h 0
    rw [Matrix.vecMul_one] at hz
    norm_num at hz
    have h2 : (-1 : ℚ) = ((2 * z : ℤ) : ℚ) := by push_cast; linarith
    have h3 : (-1 : ℤ) = 2 * z := by exact_mod_cast h2
    omega
  · intro h
    have h1 := ((mem_structureCommensurate _ _ _).1 h).1 0
    simp only [commensurateAxis, List.mem_map] at h1
    obtain ⟨x, _, hx⟩ := h1
    unfold aroundDec at hx
    have h2 : (roundEven (x * 10 ^ 5) : ℚ) * 3 = 100000 := by
      simp only [Matrix.cons_val_zero] at hx
      rw [div_eq_iff (by positivity)] at hx
      rw [hx]; norm_num
    have h3 : roundEven (x * 10 ^ 5) * 3 = 100000 := by exact_mod_cast h2
    omega
  · intro c
    rw [Matrix.vecMul_one]
    fin_cases c
    · exact ⟨1, by norm_num⟩
    · exact ⟨0, by norm_num⟩
    · exact ⟨0, by norm_num⟩
  · intro h
    obtain ⟨z, hz⟩ := C92_sound _ _ _ h 0
    rw [Matrix.vecMul_one] at hz
    norm_num at hz
    have h2 : (6 * 33333 : ℚ) = ((100000 * z : ℤ) : ℚ) := by push_cast; linarith
    have h3 : (6 * 33333 : ℤ) = 100000 * z := by exact_mod_cast h2
    omega

/-- a 2×4×5 supercell: 320 points -/
example : (structureCommensurate 1 ![2, 4, 5]).length = 8 * (2 * 4 * 5) :=
  (C92_double ![2, 4, 5] (by intro c; fin_cases c <;> norm_num) (by intro c; fin_cases c <;> norm_num)).2.2

end Verif
