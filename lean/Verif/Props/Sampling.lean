import Verif.Model.Sampling
import Verif.Props.Averages
import Mathlib.Data.Fintype.BigOperators
import Mathlib.Data.List.GetD
import Mathlib.Algebra.BigOperators.Field
import Mathlib.Tactic.NormNum
import Mathlib.Tactic.Positivity

/-! # C140: average positions from random samples; C141: frequencies of the highest peaks -/

set_option autoImplicit false

namespace Verif

/-! ## C140 -/

section sampling
variable {K : Type*} [Field K] [LinearOrder K] [IsStrictOrderedRing K] [FloorRing K] {d : ℕ}

theorem sampledFrames_some {F : Type*} [Zero F] (n : ℕ) (hn : 0 < n) (draw : ℕ → ℕ) (frames : List F) :
    sampledFrames (some n) draw frames = (List.range (min frames.length n)).map fun i => frames.getD (draw i - 1) 0 := by
  obtain ⟨n, rfl⟩ : ∃ m, n = m + 1 := ⟨n - 1, by omega⟩
  simp only [sampledFrames]
  congr 2
  split <;> omega

theorem sum_map_range_fin {M : Type*} [AddCommMonoid M] (n : ℕ) (f : ℕ → M) : ((List.range n).map f).sum = ∑ i : Fin n, f i := by
  induction n with
  | zero => simp
  | succ n ih => rw [List.range_succ, List.map_append, List.sum_append, ih, Fin.sum_univ_castSucc]; simp

/-- **C140**: without a number of samples, or with 0, all frames are used and the random numbers do not matter. -/
theorem C140_all (cell unitCell : Matrix (Fin d) (Fin d) K) (positions unitPositions : ℕ → Fin d → K) (types supercell : List ℕ) (nAtoms : ℕ) (samples : Option ℕ) (hs : samples = none ∨ samples = some 0)
    (draw : ℕ → ℕ) (displacements : List (ℕ → Fin d → K)) (j : ℕ) :
    sampledAverage cell unitCell positions unitPositions types supercell nAtoms samples draw false displacements j = averagePosition cell positions displacements j ∧
    sampledAverage cell unitCell positions unitPositions types supercell nAtoms samples draw true displacements j =
      averagePositionUnitCell unitCell unitPositions types supercell nAtoms displacements j := by
  rcases hs with rfl | rfl <;> exact ⟨rfl, rfl⟩

/-- **C140**: with samples, whatever the random numbers from 1 to the number of frames are, exactly `min length samples` frames of the trajectory are averaged: the position of atom `j` is its reference
position plus the mean displacement of these frames, up to a lattice vector of the cell, with fractional coordinates from 0 to 1. -/
theorem C140_samples (cell unitCell : Matrix (Fin d) (Fin d) K) (h : cell.det ≠ 0) (positions unitPositions : ℕ → Fin d → K) (types supercell : List ℕ) (nAtoms n : ℕ) (hn : 0 < n) (draw : ℕ → ℕ)
    (displacements : List (ℕ → Fin d → K)) (hdraw : ∀ i, 1 ≤ draw i ∧ draw i ≤ displacements.length) (j : ℕ) :
    ∃ chosen : Fin (min displacements.length n) → Fin displacements.length, (∀ i, (chosen i : ℕ) + 1 = draw i) ∧
    (∃ z : Fin d → ℤ, ∀ k, sampledAverage cell unitCell positions unitPositions types supercell nAtoms (some n) draw false displacements j k
      = positions j k + (∑ i, displacements[chosen i] j k) / (min displacements.length n : ℕ) - ∑ i, (z i : K) * cell i k) ∧
    ∀ i, 0 ≤ Matrix.vecMul (sampledAverage cell unitCell positions unitPositions types supercell nAtoms (some n) draw false displacements j) cell⁻¹ i ∧
      Matrix.vecMul (sampledAverage cell unitCell positions unitPositions types supercell nAtoms (some n) draw false displacements j) cell⁻¹ i ≤ 1 := by
  have hc : ∀ i, draw i - 1 < displacements.length := fun i => by have := hdraw i; omega
  refine ⟨fun i => ⟨draw i - 1, hc i⟩, fun i => by have := (hdraw i).1; simp only; omega, ?_⟩
  simp only [sampledAverage, Bool.false_eq_true, if_false]
  obtain ⟨⟨z, hz⟩, h2⟩ := C19_average cell h positions (sampledFrames (some n) draw displacements) j
  refine ⟨⟨z, fun k => ?_⟩, h2⟩
  rw [hz k, sampledFrames_some n hn]
  rw [List.length_map, List.length_range, List.map_map, sum_map_range_fin]
  congr 3
  refine Finset.sum_congr rfl fun i _ => ?_
  simp only [Function.comp]
  rw [List.getD_eq_getElem _ _ (hc i)]
  rfl

/-- **C140**: if the displacement of an atom is the same in all frames, samples give the same position as the whole trajectory, for all random numbers. -/
theorem C140_static (cell unitCell : Matrix (Fin d) (Fin d) K) (positions unitPositions : ℕ → Fin d → K) (types supercell : List ℕ) (nAtoms n : ℕ) (hn : 0 < n) (draw : ℕ → ℕ)
    (displacements : List (ℕ → Fin d → K)) (hdraw : ∀ i, 1 ≤ draw i ∧ draw i ≤ displacements.length) (j : ℕ) (u : Fin d → K) (hu : ∀ f ∈ displacements, f j = u) :
    sampledAverage cell unitCell positions unitPositions types supercell nAtoms (some n) draw false displacements j =
    sampledAverage cell unitCell positions unitPositions types supercell nAtoms none draw false displacements j := by
  have avg : ∀ l : List (ℕ → Fin d → K), l ≠ [] → (∀ f ∈ l, f j = u) → averageFrames (K := K) l j = u := by
    intro l hl h
    have hs : ∀ l : List (ℕ → Fin d → K), (∀ f ∈ l, f j = u) → l.sum j = (l.length : K) • u := by
      intro l
      induction l with
      | nil => intro _; simp
      | cons x l ih =>
        intro h
        rw [List.sum_cons, Pi.add_apply, h x (by simp), ih fun f hf => h f (List.mem_cons_of_mem _ hf), List.length_cons]
        push_cast
        rw [add_smul, one_smul, add_comm]
    rw [averageFrames, Pi.smul_apply, hs l h, smul_smul, inv_mul_cancel₀ (by simpa using hl), one_smul]
  have hne : displacements ≠ [] := by
    intro h; have := hdraw 0; rw [h] at this; simp at this; omega
  simp only [sampledAverage, Bool.false_eq_true, if_false, averagePosition]
  rw [show sampledFrames none draw displacements = displacements from rfl, avg displacements hne hu, avg]
  · rw [sampledFrames_some n hn]
    have := List.length_pos_iff.2 hne
    simp only [ne_eq, List.map_eq_nil_iff, List.range_eq_nil]
    omega
  · rw [sampledFrames_some n hn]
    intro f hf
    obtain ⟨i, _, rfl⟩ := List.mem_map.1 hf
    have hl : draw i - 1 < displacements.length := by have := hdraw i; omega
    rw [List.getD_eq_getElem _ _ hl]
    exact hu _ (List.getElem_mem _)

theorem sum_coordinate {M : Type*} [CommSemiring M] {L m : ℕ} (g : Fin L → M) (i : Fin m) : ∑ draw : Fin m → Fin L, g (draw i) = (L ^ (m - 1) : ℕ) * ∑ a, g a := by
  rw [← Equiv.sum_comp (Equiv.funSplitAt i (Fin L)).symm, Fintype.sum_prod_type, Finset.mul_sum]
  refine Finset.sum_congr rfl fun a _ => ?_
  have : ∀ y, g ((Equiv.funSplitAt i (Fin L)).symm (a, y) i) = g a := fun y => by simp [Equiv.funSplitAt, Equiv.piSplitAt]
  rw [Finset.sum_congr rfl fun y _ => this y]
  simp

/-- **C140**: the mean over the samples has no bias: the average of the sampled mean displacement over all equally likely sequences of random numbers is the mean displacement over the whole trajectory. -/
theorem C140_unbiased (n : ℕ) (hn : 0 < n) (displacements : List (ℕ → Fin d → K)) (hne : displacements ≠ []) (j : ℕ) (k : Fin d) :
    (∑ draw : Fin (min displacements.length n) → Fin displacements.length,
      averageFrames (K := K) (sampledFrames (some n) (fun i => if h : i < min displacements.length n then (draw ⟨i, h⟩ : ℕ) + 1 else 1) displacements) j k) /
      (displacements.length ^ min displacements.length n : ℕ) = (displacements.map fun f => f j k).sum / displacements.length := by
  have hLpos : 0 < displacements.length := List.length_pos_iff.2 hne
  have hmpos : 0 < min displacements.length n := by omega
  have hs : ∀ l : List (ℕ → Fin d → K), l.sum j k = (l.map fun f => f j k).sum := by
    intro l; induction l with
    | nil => rfl
    | cons x l ih => simp [ih]
  have one : ∀ draw : Fin (min displacements.length n) → Fin displacements.length, averageFrames (K := K) (sampledFrames (some n) (fun i => if h : i < min displacements.length n then (draw ⟨i, h⟩ : ℕ) + 1 else 1) displacements) j k =
      ((min displacements.length n : ℕ) : K)⁻¹ * ∑ i, displacements[draw i] j k := by
    intro draw
    rw [averageFrames, Pi.smul_apply, Pi.smul_apply, smul_eq_mul, hs, sampledFrames_some n hn, List.length_map, List.length_range, List.map_map, sum_map_range_fin]
    congr 1
    refine Finset.sum_congr rfl fun i _ => ?_
    simp only [Function.comp, i.2, dif_pos, Nat.add_sub_cancel]
    rw [List.getD_eq_getElem _ _ (draw ⟨i, i.2⟩).2]
    rfl
  rw [Finset.sum_congr rfl fun x _ => one x, ← Finset.mul_sum, Finset.sum_comm]
  have col : ∀ i : Fin (min displacements.length n), ∑ draw : Fin (min displacements.length n) → Fin displacements.length, displacements[draw i] j k = (displacements.length ^ (min displacements.length n - 1) : ℕ) * ∑ a : Fin displacements.length, displacements[a] j k := by
    intro i
    exact sum_coordinate (fun a => displacements[a] j k) i
  rw [Finset.sum_congr rfl fun i _ => col i]
  have tot : (displacements.map fun f => f j k).sum = ∑ a : Fin displacements.length, displacements[a] j k := by
    rw [← List.sum_ofFn]
    congr 1
    apply List.ext_getElem <;> simp []
  rw [tot, Finset.sum_const, Finset.card_univ, Fintype.card_fin, nsmul_eq_mul]
  have e : displacements.length ^ (min displacements.length n) = displacements.length ^ (min displacements.length n - 1) * displacements.length := by rw [← pow_succ]; congr 1; omega
  rw [e]
  have h1 : ((min displacements.length n : ℕ) : K) ≠ 0 := by exact_mod_cast hmpos.ne'
  have h2 : (displacements.length : K) ≠ 0 := by exact_mod_cast hLpos.ne'
  push_cast
  field_simp

end sampling

/-- Two frames of one atom in one dimension, displaced by 0 and by 1 in a cell of length 4. -/
def twoFrames : List (ℕ → Fin 1 → ℚ) := [fun _ _ => 0, fun _ _ => 1]

/-- **C140** fails: asking for as many samples as there are frames, or more, does not give the average over the trajectory, because frames can be drawn more than once. -/
theorem C140_exhaustive_violated : ∃ draw : ℕ → ℕ, (∀ i, 1 ≤ draw i ∧ draw i ≤ twoFrames.length) ∧
    (sampledFrames (some 100) draw twoFrames).length = twoFrames.length ∧
    averageFrames (K := ℚ) (sampledFrames (some 100) draw twoFrames) 0 0 = 1 ∧ averageFrames (K := ℚ) twoFrames 0 0 = 1 / 2 := by
  refine ⟨fun _ => 2, fun _ => by simp [twoFrames], by simp [sampledFrames, twoFrames], ?_, ?_⟩
  · simp [sampledFrames, twoFrames, averageFrames, List.range_succ]
    norm_num
  · simp [twoFrames, averageFrames]

example : ∃ draw : ℕ → ℕ, (∀ i, 1 ≤ draw i ∧ draw i ≤ twoFrames.length) ∧ draw 0 ≠ draw 1 := ⟨fun i => i % 2 + 1, fun i => by simp [twoFrames]; omega, by decide⟩

/-! ## C141 -/

theorem pyMaxComplex_spec (l : List (ℝ × ℝ)) (m : ℝ × ℝ) (h : pyMaxComplex l = some m) : m ∈ l ∧ ∀ x ∈ l, ¬ complexLess m x := by
  classical
  have trans : ∀ a b c : ℝ × ℝ, complexLess a b → ¬ complexLess a c → ¬ complexLess b c := by
    rintro ⟨a1, a2⟩ ⟨b1, b2⟩ ⟨c1, c2⟩ hab hac hbc
    simp only [complexLess] at *
    rcases hab with hab | ⟨hab, hab'⟩ <;> rcases hbc with hbc | ⟨hbc, hbc'⟩
    · exact hac (Or.inl (by linarith))
    · exact hac (Or.inl (by linarith))
    · exact hac (Or.inl (by linarith))
    · exact hac (Or.inr ⟨by linarith, by linarith⟩)
  cases l with
  | nil => simp [pyMaxComplex] at h
  | cons x xs =>
    simp only [pyMaxComplex, Option.some.injEq] at h
    subst h
    have key : ∀ (ys : List (ℝ × ℝ)) (x : ℝ × ℝ), (ys.foldl (fun m y => if complexLess m y then y else m) x) ∈ x :: ys ∧
        ∀ z ∈ x :: ys, ¬ complexLess (ys.foldl (fun m y => if complexLess m y then y else m) x) z := by
      intro ys
      induction ys with
      | nil =>
        intro x
        refine ⟨by simp, fun z hz => ?_⟩
        rw [List.mem_singleton.1 hz]
        simp [complexLess]
      | cons y ys ih =>
        intro x
        rw [List.foldl_cons]
        split
        · rename_i hxy
          obtain ⟨h1, h2⟩ := ih y
          refine ⟨List.mem_cons_of_mem _ h1, fun z hz => ?_⟩
          rcases List.mem_cons.1 hz with rfl | hz
          · intro hlt
            refine h2 y (by simp) ?_
            simp only [complexLess] at *
            rcases hlt with hlt | ⟨hlt, hlt'⟩ <;> rcases hxy with hxy | ⟨hxy, hxy'⟩
            · exact Or.inl (by linarith)
            · exact Or.inl (by linarith)
            · exact Or.inl (by linarith)
            · exact Or.inr ⟨by linarith, by linarith⟩
          · exact h2 z hz
        · rename_i hxy
          obtain ⟨h1, h2⟩ := ih x
          refine ⟨?_, fun z hz => ?_⟩
          · rcases List.mem_cons.1 h1 with h1 | h1
            · rw [h1]; simp
            · exact List.mem_cons_of_mem _ (List.mem_cons_of_mem _ h1)
          · rcases List.mem_cons.1 hz with rfl | hz
            · exact h2 _ (by simp)
            · rcases List.mem_cons.1 hz with rfl | hz
              · rcases List.mem_cons.1 h1 with h1 | h1
                · rw [h1]; exact hxy
                · intro hlt
                  have h3 := h2 x (by simp)
                  set M := ys.foldl (fun m y => if complexLess m y then y else m) x
                  simp only [complexLess] at hlt h3 hxy
                  rcases hlt with hlt | ⟨hlt, hlt'⟩
                  · refine hxy (Or.inl ?_)
                    by_contra hc
                    exact h3 (Or.inl (by linarith))
                  · by_cases he : M.1 = x.1
                    · refine hxy (Or.inr ⟨by linarith, ?_⟩)
                      by_contra hc
                      exact h3 (Or.inr ⟨he, by linarith⟩)
                    · rcases lt_or_gt_of_ne he with he | he
                      · exact h3 (Or.inl he)
                      · exact hxy (Or.inl (by linarith))
              · exact h2 z (List.mem_cons_of_mem _ hz)
    exact key xs x

/-- **C141**: with at least one peak in every branch, all within the frequency range, one frequency is returned for each branch: the frequency of a peak of this branch at which the real part of the spectrum is
not less than at any other peak of the branch. For every peak finder. -/
theorem C141_highest (findPeaks : List ℝ → List ℕ) (rows branches : ℕ) (spectrum : ℕ → ℕ → ℝ × ℝ) (frequencies : List ℝ)
    (hpeaks : ∀ b < branches, findPeaks ((List.range rows).map fun i => (spectrum i b).1) ≠ [] ∧ ∀ i ∈ findPeaks ((List.range rows).map fun i => (spectrum i b).1), i < frequencies.length) :
    ∃ result, frequenciesFromCorrelation findPeaks rows branches spectrum frequencies = some result ∧ result.length = branches ∧
    ∀ b < branches, ∃ i ∈ findPeaks ((List.range rows).map fun i => (spectrum i b).1), result[b]? = frequencies[i]? ∧
      ∀ i' ∈ findPeaks ((List.range rows).map fun i => (spectrum i b).1), (spectrum i' b).1 ≤ (spectrum i b).1 := by
  classical
  have one : ∀ b, b < branches → ∃ f, highestPeak (findPeaks ((List.range rows).map fun i => (spectrum i b).1)) (fun i => spectrum i b) frequencies = some f ∧
      ∃ i ∈ findPeaks ((List.range rows).map fun i => (spectrum i b).1), some f = frequencies[i]? ∧
      ∀ i' ∈ findPeaks ((List.range rows).map fun i => (spectrum i b).1), (spectrum i' b).1 ≤ (spectrum i b).1 := by
    intro b hb
    obtain ⟨hne, hin⟩ := hpeaks b hb
    generalize findPeaks ((List.range rows).map fun i => (spectrum i b).1) = peaks at hne hin ⊢
    obtain ⟨m, hm⟩ : ∃ m, pyMaxComplex (peaks.map fun i => spectrum i b) = some m := by
      cases peaks with
      | nil => exact absurd rfl hne
      | cons x xs => exact ⟨_, rfl⟩
    obtain ⟨h1, h2⟩ := pyMaxComplex_spec _ _ hm
    have hlt : (peaks.map fun i => spectrum i b).findIdx (fun h => decide (h = m)) < (peaks.map fun i => spectrum i b).length := by
      rw [List.findIdx_lt_length]
      exact ⟨m, h1, by simp⟩
    have hval := List.findIdx_getElem (w := hlt)
    simp only [decide_eq_true_eq, List.getElem_map] at hval
    have hlt' : (peaks.map fun i => spectrum i b).findIdx (fun h => decide (h = m)) < peaks.length := by simpa using hlt
    set k := (peaks.map fun i => spectrum i b).findIdx (fun h => decide (h = m)) with hk
    have hmem : peaks[k] ∈ peaks := List.getElem_mem _
    have hfl := hin _ hmem
    refine ⟨frequencies[peaks[k]], ?_, peaks[k], hmem, by rw [List.getElem?_eq_getElem hfl], fun i' hi' => ?_⟩
    · simp only [highestPeak, hm, bind, Option.bind]
      have e : peaks[(peaks.map fun i => spectrum i b).findIdx (fun h => decide (h = m))]? = some peaks[k] := by rw [← hk, List.getElem?_eq_getElem hlt']
      have e' : ∀ (inst : DecidablePred fun h : ℝ × ℝ => h = m), (peaks.map fun i => spectrum i b).findIdx (fun h => @decide _ (inst h)) = k := by
        intro inst
        rw [hk]
        congr 1
        funext h
        congr
      simp only [e']
      rw [List.getElem?_eq_getElem hlt']
      simp only
      rw [List.getElem?_eq_getElem hfl]
    · have := h2 (spectrum i' b) (List.mem_map_of_mem hi')
      rw [hval]
      by_contra hc
      exact this (Or.inl (by linarith))
  have hmap : ∀ n ≤ branches, ∃ result, (List.range n).mapM (fun b => highestPeak (findPeaks ((List.range rows).map fun i => (spectrum i b).1)) (fun i => spectrum i b) frequencies) = some result ∧ result.length = n ∧
      ∀ b (hb : b < n), result[b]? = highestPeak (findPeaks ((List.range rows).map fun i => (spectrum i b).1)) (fun i => spectrum i b) frequencies := by
    intro n
    induction n with
    | zero => intro _; exact ⟨[], rfl, rfl, by omega⟩
    | succ n ih =>
      intro hn
      obtain ⟨r, h1, h2, h3⟩ := ih (by omega)
      obtain ⟨f, hf, _⟩ := one n (by omega)
      refine ⟨r ++ [f], ?_, by simp [h2], fun b hb => ?_⟩
      · rw [List.range_succ, List.mapM_append, h1]
        simp [hf]
      · rcases Nat.lt_succ_iff_lt_or_eq.1 hb with hb | rfl
        · rw [List.getElem?_append_left (by omega), h3 b hb]
        · rw [List.getElem?_append_right (by omega), h2, hf]
          simp
  obtain ⟨r, h1, h2, h3⟩ := hmap branches le_rfl
  refine ⟨r, h1, h2, fun b hb => ?_⟩
  obtain ⟨f, hf, i, hi, he, hmax⟩ := one b hb
  exact ⟨i, hi, by rw [h3 b hb, hf, he], hmax⟩

/-- **C141** fails: a branch in which no peak is found stops the whole calculation, also for the branches with peaks. -/
theorem C141_none_violated : ∃ findPeaks : List ℝ → List ℕ, findPeaks [1, 2, 1] = [1] ∧
    frequenciesFromCorrelation findPeaks 3 2 (fun i b => (if b = 0 ∧ i = 1 then 2 else 1, 0)) [10, 20, 30] = none := by
  classical
  refine ⟨fun l => if l = [1, 2, 1] then [1] else [], by simp, ?_⟩
  simp [frequenciesFromCorrelation, List.range_succ, highestPeak, pyMaxComplex]

example : ∃ findPeaks : List ℝ → List ℕ, (findPeaks [3, 2, 5] ≠ [] ∧ ∀ i ∈ findPeaks [3, 2, 5], i < 3) := ⟨fun _ => [0, 2], by simp⟩

end Verif
