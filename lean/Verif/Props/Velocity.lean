import Verif.Model.Velocity
import Verif.Props.Displacements

/-! # C17: velocity from coordinates -/

set_option autoImplicit false

namespace Verif

variable {K : Type*} [Field K] [LinearOrder K] [IsStrictOrderedRing K] [FloorRing K]

/-- Finite differences of a linear series are constant, at every step including both ends. -/
theorem npGradient_linear {F : Type*} [AddCommGroup F] [Module K F] (N : ℕ) (hN : 2 ≤ N) (a v : F) (h : K) (hh : h ≠ 0) :
    npGradient ((List.range N).map fun (i : ℕ) => a + ((i : K) * h) • v) h = some (List.replicate N v) := by
  have get : ∀ i, i < N → ((List.range N).map fun (i : ℕ) => a + ((i : K) * h) • v).getD i 0 = a + ((i : K) * h) • v := by
    intro i hi
    simp [List.getD_eq_getElem?_getD, List.getElem?_range hi]
  unfold npGradient
  simp only [List.length_map, List.length_range]
  rw [if_neg (by omega)]
  congr 1
  apply List.ext_getElem
  · simp
  · intro i h1 h2
    have hi : i < N := by simpa using h1
    simp only [List.getElem_map, List.getElem_range, List.getElem_replicate]
    split
    · rw [get 1 (by omega), get 0 (by omega)]
      simp [smul_smul, hh]
    · split
      · rw [get i hi, get (i - 1) (by omega), add_sub_add_left_eq_sub, ← sub_smul, smul_smul]
        have : h⁻¹ * ((i : K) * h - ((i - 1 : ℕ) : K) * h) = 1 := by
          rw [Nat.cast_sub (by omega)]; field_simp; push_cast; ring
        rw [this, one_smul]
      · rw [get (i + 1) (by omega), get (i - 1) (by omega), add_sub_add_left_eq_sub, ← sub_smul, smul_smul]
        have : (2 * h)⁻¹ * (((i + 1 : ℕ) : K) * h - ((i - 1 : ℕ) : K) * h) = 1 := by
          rw [Nat.cast_sub (by omega)]; field_simp; push_cast; ring
        rw [this, one_smul]

/-- C17: an atom that moves at constant velocity `v` from `pos + a`, seen through any periodic wrapping `z` of every
frame, has velocity `v` at every step, as long as it stays closer than half a cell (in every fractional coordinate) to
its reference position. Every dimension ≥ 2, every number of frames ≥ 2, every time step. -/
theorem C17_uniform_partial (n : ℕ) (hn : 2 ≤ n) (cell : ℕ → ℕ → K) (hc : (toMatrix n cell).det ≠ 0)
    (pos a v : ℕ → K) (h : K) (hh : h ≠ 0) (N : ℕ) (hN : 2 ≤ N) (z : ℕ → Fin n → ℤ) (frame : ℕ → ℕ → K × K)
    (hframe : ∀ i, i < N → ∀ k : Fin n,
      (frame i k).1 = pos k + (a k + (i : K) * h * v k) + ∑ l, (z i l : K) * cell l k)
    (hnear : ∀ i, i < N → ∃ f, HasFrac n cell (fun k => a k + (i : K) * h * v k) f ∧ ∀ l, |f l| < 1 / 2)
    (k : Fin n) :
    columnVelocity n cell pos ((List.range N).map frame) h k = some (List.replicate N (v k)) := by
  have hd : (cDisplacements n cell pos ((List.range N).map frame)).map (fun d => (d k).1)
      = (List.range N).map fun (i : ℕ) => a k + ((i : K) * h) • v k := by
    unfold cDisplacements
    rw [List.map_map, List.map_map]
    apply List.map_congr_left
    intro i hi
    have hi' := List.mem_range.mp hi
    obtain ⟨f, hf, hsmall⟩ := hnear i hi'
    have hf' : HasFrac n cell (fun k => (frame i k).1 - pos k) (fun l => f l + z i l) := by
      intro k
      simp only [add_mul, Finset.sum_add_distrib]
      rw [← hf k, hframe i hi' k]; ring
    have hr : ∀ l, roundAway (f l + (z i l : K)) = z i l := by
      intro l
      apply roundAway_eq_of_near
      simpa using hsmall l
    simp only [Function.comp_apply]
    rw [cDisplacement_eq n hn cell hc pos (frame i) _ hf' k]
    simp only [hr]
    rw [hframe i hi' k, smul_eq_mul]
    ring
  unfold columnVelocity
  rw [hd]
  exact npGradient_linear N hN (a k) (v k) h hh

/-- C17: a static atom has zero velocity, whatever the wrapping of the frames. -/
theorem C17_static (n : ℕ) (hn : 2 ≤ n) (cell : ℕ → ℕ → K) (hc : (toMatrix n cell).det ≠ 0)
    (pos a : ℕ → K) (h : K) (hh : h ≠ 0) (N : ℕ) (hN : 2 ≤ N) (z : ℕ → Fin n → ℤ) (frame : ℕ → ℕ → K × K)
    (hframe : ∀ i, i < N → ∀ k : Fin n, (frame i k).1 = pos k + a k + ∑ l, (z i l : K) * cell l k)
    (hnear : ∃ f, HasFrac n cell (fun k => a k) f ∧ ∀ l, |f l| < 1 / 2) (k : Fin n) :
    columnVelocity n cell pos ((List.range N).map frame) h k = some (List.replicate N 0) := by
  refine C17_uniform_partial n hn cell hc pos a (fun _ => 0) h hh N hN z frame ?_ ?_ k
  · intro i hi k; rw [hframe i hi k]; ring
  · intro i _; simpa using hnear

/-- C17: the velocity does not depend on the periodic wrapping of the frames (no fractional displacement exactly half
integer, see C12_tie). -/
theorem C17_wrapping (n : ℕ) (hn : 2 ≤ n) (cell : ℕ → ℕ → K) (hc : (toMatrix n cell).det ≠ 0)
    (pos : ℕ → K) (h : K) (N : ℕ) (z : ℕ → Fin n → ℤ) (frame frame' : ℕ → ℕ → K × K)
    (hz : ∀ i, i < N → ∀ k : Fin n, (frame' i k).1 = (frame i k).1 + ∑ l, (z i l : K) * cell l k)
    (htie : ∀ i, i < N → ∀ f, HasFrac n cell (fun k => (frame i k).1 - pos k) f → ∀ l (m : ℤ), |f l - m| ≠ 1 / 2)
    (k : Fin n) :
    columnVelocity n cell pos ((List.range N).map frame') h k
      = columnVelocity n cell pos ((List.range N).map frame) h k := by
  unfold columnVelocity cDisplacements
  congr 1
  simp only [List.map_map]
  apply List.map_congr_left
  intro i hi
  have hi' := List.mem_range.mp hi
  simp only [Function.comp_apply]
  rw [C12_periodic_images n hn cell hc pos (frame i) (frame' i) (z i) (hz i hi') (htie i hi') k]

/-- **C17**: a trajectory with fewer than two steps has no velocity (an error of `np.gradient`); with two or more there is one value for each step. -/
theorem C17_short (n : ℕ) (cell : ℕ → ℕ → K) (pos : ℕ → K) (frames : List (ℕ → K × K)) (h : K) (j : ℕ) :
    (columnVelocity n cell pos frames h j = none ↔ frames.length < 2) ∧ ∀ v, columnVelocity n cell pos frames h j = some v → v.length = frames.length := by
  have hl : (cDisplacements n cell pos frames).length = frames.length := by simp [cDisplacements]
  unfold columnVelocity npGradient
  rw [List.length_map, hl]
  constructor
  · split <;> simp_all
  · intro v hv
    split at hv
    · simp at hv
    · rw [Option.some.injEq] at hv; subst hv; simp

/-- C17, negation: uniform motion (0.2 cells per step) through the boundary half a cell from the reference position does
not give the velocity: the minimum image jumps back. -/
theorem C17_drift_violated : ∃ (frame : ℕ → ℕ → ℚ × ℚ),
    (∀ i k, (frame i k).1 = if k = 0 then (i : ℚ) * 1 * (1 / 5) else 0) ∧
    columnVelocity 2 (fun i j => if i = j then 1 else 0) (fun _ => 0) ((List.range 5).map frame) 1 0
      ≠ some (List.replicate 5 (1 / 5)) := by
  refine ⟨fun i k => (if k = 0 then (i : ℚ) * 1 * (1 / 5) else 0, 0), fun i k => rfl, ?_⟩
  decide +kernel

/-- The hypotheses of C17_uniform_partial are satisfiable: motion along x in the unit square, each frame shifted by one more
cell. -/
example : columnVelocity 2 (fun i j => if i = j then (1 : ℚ) else 0) (fun _ => 0)
    ((List.range 4).map fun (i : ℕ) (k : ℕ) => ((if k = 0 then (i : ℚ) * (1 / 10) + i else 0 : ℚ), (0 : ℚ))) 1 0
      = some (List.replicate 4 (1 / 10)) := by
  refine C17_uniform_partial 2 (by norm_num) (fun i j => if i = j then (1 : ℚ) else 0) ?_ (fun _ => 0) (fun _ => 0)
    (fun k => if k = 0 then 1 / 10 else 0) 1 (by norm_num) 4 (by norm_num) (fun i l => if l = 0 then i else 0) _ ?_ ?_ 0
  · rw [Matrix.det_fin_two]; simp [toMatrix]
  · intro i _ k; fin_cases k <;> simp
  · intro i hi
    refine ⟨fun l => if l = 0 then (i : ℚ) / 10 else 0, ?_, ?_⟩
    · intro k; fin_cases k <;> simp [div_eq_mul_inv]
    · intro l
      have : (i : ℚ) < 4 := by exact_mod_cast hi
      have h0 : (0 : ℚ) ≤ i := by positivity
      fin_cases l <;> simp [abs_div] 
      rw [div_lt_iff₀ (by norm_num)]; linarith

end Verif
