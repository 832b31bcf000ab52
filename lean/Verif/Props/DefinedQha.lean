import Verif.Props.QhaBands
import Verif.Props.Defined

/-! # When the methods of the quasi-harmonic script return (C119, C130, C136) -/

set_option autoImplicit false
set_option linter.unusedSectionVars false

namespace Verif
open QhaObj

variable {Q R B : Type} {nt nv nq nb : ℕ} {tools : QhaTools ℝ} {d : QhaFit ℝ Q nt nv nq nb} {tmin tmax : Option ℝ} {s : QhaObj Q nt nv nq nb}

theorem shiftArray_isSome (hu : UniformErrors tools.interp) (v : Option ℝ) (t : ℝ) (i j : Bool) (k : Fin nq) (b : Fin nb) :
    (totalShiftArray tools d v t i j).isSome ↔ (d.totalShift tools v t i j k b).isSome := by
  rw [← totalShiftArray_entry hu v t i j k b, Option.isSome_map]

theorem volumeNumber_eq (hd : s.data = d) {i : ℤ} {j : Fin (nv + 1)} (h : (j : ℤ) = i ∨ i < 0 ∧ (j : ℤ) = i + (nv + 1)) : s.volumeNumber i = some (d.volumes j) := by
  have hj := j.2
  unfold volumeNumber
  simp only []
  rw [hd]
  rcases h with h | ⟨h0, h⟩
  · have hi : ¬ i < 0 := by omega
    simp only [if_neg hi]
    rw [dif_pos ⟨by omega, by omega⟩]
    congr 2
    apply Fin.ext
    simp only
    omega
  · simp only [if_pos h0]
    rw [dif_pos ⟨by omega, by omega⟩]
    congr 2
    apply Fin.ext
    simp only
    omega

/-- **C136**: after any calls, the density of states of an existing volume is drawn exactly if the total shifts exist at this volume and temperature (that is, for one mode, and then for all). -/
theorem C136_density_defined (hu : UniformErrors tools.interp) (thermo : Thermo nq nb) (d : QhaFit ℝ Q nt nv nq nb) (tmin tmax : Option ℝ) (calls : List Call)
    (dosOf : (Fin nq → Fin nb → ℝ) → B) (i : ℤ) (j : Fin (nv + 1)) (hj : (j : ℤ) = i ∨ i < 0 ∧ (j : ℤ) = i + (nv + 1)) (t : ℝ) (k : Fin nq) (b : Fin nb) :
    ((after tools thermo calls (new d tmin tmax)).plotDensity tools dosOf i t).1.isSome ↔ (d.totalShift tools (some (d.volumes j)) t false false k b).isSome := by
  have hc : Consistent tools d tmin tmax (after tools thermo calls (new d tmin tmax)) := consistent_after thermo calls consistent_new
  unfold plotDensity
  rw [volumeNumber_eq hc.data hj]
  simp only []
  rw [(atState_spec hc dosOf t (d.volumes j)).1, Option.isSome_map, totalFrequencyArray, Option.isSome_map, shiftArray_isSome hu _ _ _ _ k b]

/-- **C136**: after any calls, the thermal properties of an existing volume are drawn exactly if the total shifts exist at all temperatures of the range. -/
theorem C136_thermal_defined (hu : UniformErrors tools.interp) (thermo : Thermo nq nb) (d : QhaFit ℝ Q nt nv nq nb) (tmin tmax : Option ℝ) (calls : List Call)
    (i : ℤ) (j : Fin (nv + 1)) (hj : (j : ℤ) = i ∨ i < 0 ∧ (j : ℤ) = i + (nv + 1)) (k : Fin nq) (b : Fin nb) :
    ((after tools thermo calls (new d tmin tmax)).plotThermal tools thermo i).1.isSome ↔
      ∀ t ∈ arange (tmin.getD (d.temperatures 0)) (tmax.getD (d.temperatures (Fin.last nt))) 10, (d.totalShift tools (some (d.volumes j)) t false false k b).isSome := by
  have hc : Consistent tools d tmin tmax (after tools thermo calls (new d tmin tmax)) := consistent_after thermo calls consistent_new
  have e := (getThermalProperties_spec thermo (some (d.volumes j)) hc).1
  have key : (thermalArrays tools d thermo (arange (tmin.getD (d.temperatures 0)) (tmax.getD (d.temperatures (Fin.last nt))) 10) (d.volumes j)).isSome ↔
      ∀ t ∈ arange (tmin.getD (d.temperatures 0)) (tmax.getD (d.temperatures (Fin.last nt))) 10, (d.totalShift tools (some (d.volumes j)) t false false k b).isSome := by
    unfold thermalArrays
    rw [Option.isSome_map, mapM_isSome]
    simp only [Option.isSome_map, totalFrequencyArray, shiftArray_isSome hu _ _ _ _ k b]
  rw [← key]
  unfold plotThermal
  rw [volumeNumber_eq hc.data hj]
  simp only [Option.getD_some] at e ⊢
  rw [← e]
  obtain ⟨m, s', hm⟩ : ∃ m s', (after tools thermo calls (new d tmin tmax)).getThermalProperties tools thermo (some (d.volumes j)) = (m, s') := ⟨_, _, rfl⟩
  rw [hm]
  cases m with
  | none => simp
  | some m => obtain ⟨a, b, c⟩ := m; simp

/-- **C136**: the bands at constant pressure of a path without labels are drawn exactly if external data are given, the path is not empty and the total shifts exist. -/
theorem C136_pressure_defined (hu : UniformErrors tools.interp) (thermo : Thermo nq nb) (d : QhaFit ℝ Q nt nv nq nb) (tmin tmax : Option ℝ) (calls : List Call)
    (bandsOf : R → (Fin nq → Fin nb → ℝ) → B) (distances : B → List (List ℝ)) (p : QhaPath R) (hl : p.labels = none) (hd : ∀ b, ∃ l x, (distances b).getLast? = some l ∧ l.getLast? = some x)
    (t : ℝ) (external : Option (List (ℝ × ℝ))) (k : Fin nq) (b : Fin nb) :
    (plotBandPressure tools bandsOf distances p t external (after tools thermo calls (new d tmin tmax))).isSome ↔
      external.isSome ∧ (d.totalShift tools (some (qhaVolumeAt p.temperatures p.volumes t)) t false false k b).isSome := by
  have hc : Consistent tools d tmin tmax (after tools thermo calls (new d tmin tmax)) := consistent_after thermo calls consistent_new
  unfold plotBandPressure
  rw [(atState_spec hc (bandsOf p.ranges) t _).1, hl, ← shiftArray_isSome hu _ _ _ _ k b]
  unfold totalFrequencyArray
  cases totalShiftArray tools d (some (qhaVolumeAt p.temperatures p.volumes t)) t false false with
  | none => simp
  | some w =>
    simp only [Option.map_some, Option.bind_some, Option.isSome_some, and_true]
    obtain ⟨l, x, h1, h2⟩ := hd (bandsOf p.ranges fun q b => d.harmonic q b + w q b)
    simp [scriptBandAxis, h1, h2]

theorem qpointToIndex_isSome {n : ℕ} (close : Q → Q → Bool) (f : Fin n → Q) (q : Q) : (qpointToIndex close (List.ofFn f) q).isSome ↔ ∃ k, close (f k) q = true := by
  unfold qpointToIndex
  rw [List.findIdx?_isSome]
  simp

/-- **C119** (shifts at constant pressure): the shifts are returned exactly if a wave vector of the first file is close to the one asked for and the total shifts exist at all temperatures with their volumes. -/
theorem C119_pressure_defined (hu : UniformErrors tools.interp) (thermo : Thermo nq nb) (d : QhaFit ℝ Q nt nv nq nb) (tmin tmax : Option ℝ) (calls : List Call) (close : Q → Q → Bool)
    (temperatures volumes : List ℝ) (q : Q) (b : Fin nb) :
    (qhaShiftConstantPressure tools close temperatures volumes q (after tools thermo calls (new d tmin tmax))).1.isSome ↔
      ∃ k, close (d.filesT 0 k).1 q = true ∧ ∀ p ∈ volumes.zip temperatures, (d.totalShift tools (some p.1) p.2 false false k b).isSome := by
  have hc : Consistent tools d tmin tmax (after tools thermo calls (new d tmin tmax)) := consistent_after thermo calls consistent_new
  have hi := qpointToIndex_isSome close (fun i => (d.filesT 0 i).1) q
  unfold qhaShiftConstantPressure
  rw [hc.data]
  cases hq : qpointToIndex close (List.ofFn fun i => (d.filesT 0 i).1) q with
  | none =>
    rw [hq] at hi
    simp only [Option.isSome_none, Bool.false_eq_true, false_iff, not_exists, not_and]
    intro k hk
    exact absurd (hi.2 ⟨k, hk⟩) (by simp)
  | some i =>
    rw [hq] at hi
    obtain ⟨k0, hk0⟩ := hi.1 rfl
    have hlt : i < nq := by
      unfold qpointToIndex at hq
      rw [List.findIdx?_eq_some_iff_getElem] at hq
      simpa using hq.1
    obtain ⟨-, hh⟩ := getHarmonic_spec hc
    obtain ⟨e, -⟩ := qhaShiftLoop_spec (volumes.zip temperatures) hh
    have hex : (∃ k, close (d.filesT 0 k).1 q = true ∧ ∀ p ∈ volumes.zip temperatures, (d.totalShift tools (some p.1) p.2 false false k b).isSome) ↔
        ((volumes.zip temperatures).mapM fun p => totalShiftArray tools d (some p.1) p.2 false false).isSome := by
      rw [mapM_isSome]
      constructor
      · rintro ⟨k, -, h⟩ p hp
        exact (shiftArray_isSome hu _ _ _ _ k b).2 (h p hp)
      · intro h
        exact ⟨k0, hk0, fun p hp => (shiftArray_isSome hu _ _ _ _ k0 b).1 (h p hp)⟩
    rw [hex, ← e]
    obtain ⟨l, s', hl⟩ : ∃ l s', qhaShiftLoop tools (volumes.zip temperatures) (after tools thermo calls (new d tmin tmax)).getHarmonic.2 = (l, s') := ⟨_, _, rfl⟩
    simp only [hl, dif_pos hlt]
    cases l <;> simp

/-- The branches are known exactly if none is chosen or the number exists (counted from the end if negative). -/
theorem branchesOf_isSome (nb : ℕ) (branch : Option ℤ) : (branchesOf nb branch).isSome ↔ ∀ i, branch = some i → -(nb : ℤ) ≤ i ∧ i < nb := by
  cases branch with
  | none => simp [branchesOf]
  | some i =>
    unfold branchesOf
    simp only [Option.some.injEq, forall_eq']
    by_cases h0 : i < 0
    · simp only [if_pos h0]
      split_ifs with h
      · simp; omega
      · simp; omega
    · simp only [if_neg h0]
      split_ifs with h
      · simp; omega
      · simp; omega

/-- **C130**: the total shifts at constant pressure are drawn exactly if they are calculated (`C119_pressure_defined`) and the branch exists. -/
theorem C130_total_defined (hu : UniformErrors tools.interp) (thermo : Thermo nq nb) (d : QhaFit ℝ Q nt nv nq nb) (tmin tmax : Option ℝ) (calls : List Call) (close : Q → Q → Bool)
    (temperatures volumes : List ℝ) (q : Q) (branch : Option ℤ) (b : Fin nb) :
    (plotTotalShift tools close temperatures volumes q branch (after tools thermo calls (new d tmin tmax))).isSome ↔
      (∃ k, close (d.filesT 0 k).1 q = true ∧ ∀ p ∈ volumes.zip temperatures, (d.totalShift tools (some p.1) p.2 false false k b).isSome) ∧
      ∀ i, branch = some i → -(nb : ℤ) ≤ i ∧ i < nb := by
  rw [← C119_pressure_defined hu thermo d tmin tmax calls close temperatures volumes q b, ← branchesOf_isSome]
  unfold plotTotalShift
  cases (qhaShiftConstantPressure tools close temperatures volumes q (after tools thermo calls (new d tmin tmax))).1 with
  | none => simp
  | some r => simp

/-- **C130**: the fitted shifts over the temperature are drawn exactly if a wave vector of the first file is close to the one asked for, the branch exists and the last temperature is above the first. -/
theorem C130_temperature_defined (thermo : Thermo nq nb) (d : QhaFit ℝ Q nt nv nq nb) (tmin tmax : Option ℝ) (calls : List Call) (close : Q → Q → Bool) (q : Q) (branch : Option ℤ) :
    (plotFittedT tools close q branch false (after tools thermo calls (new d tmin tmax))).1.isSome ↔
      (∃ k, close (d.filesT 0 k).1 q = true) ∧ (∀ i, branch = some i → -(nb : ℤ) ≤ i ∧ i < nb) ∧ arange (d.temperatures 0) (d.temperatures (Fin.last nt)) (10 : ℝ) ≠ [] := by
  have hc : Consistent tools d tmin tmax (after tools thermo calls (new d tmin tmax)) := consistent_after thermo calls consistent_new
  rw [← branchesOf_isSome, ← qpointToIndex_isSome close (fun i => (d.filesT 0 i).1) q]
  unfold plotFittedT qIndex
  rw [hc.data]
  cases hq : qpointToIndex close (List.ofFn fun i => (d.filesT 0 i).1) q with
  | none => simp
  | some i =>
    have hlt : i < nq := by
      unfold qpointToIndex at hq
      rw [List.findIdx?_eq_some_iff_getElem] at hq
      simpa using hq.1
    simp only [dif_pos hlt, Bool.false_eq_true, if_false]
    obtain ⟨em, hcm⟩ := getShiftMatrixT_spec hc
    rw [hcm.data]
    obtain ⟨e, hc2⟩ := mapCalls_spec (P := Consistent tools d tmin tmax) (f := fun t s => s.getFittedT tools (some t)) (g := fun t => some fun q b => d.fittedT tools t q b)
      (fun t s hs => getFittedT_spec hs (some t)) (arange (d.temperatures 0) (d.temperatures (Fin.last nt)) 10) hcm
    obtain ⟨m, s', hm⟩ : ∃ m s', mapCalls (fun t s => s.getFittedT tools (some t)) (arange (d.temperatures 0) (d.temperatures (Fin.last nt)) 10)
      (after tools thermo calls (new d tmin tmax)).getShiftMatrixT.2 = (m, s') := ⟨_, _, rfl⟩
    rw [hm] at e ⊢
    simp only at e
    have hs : m.isSome := by
      rw [e, mapM_isSome]; simp
    obtain ⟨arrays, rfl⟩ := Option.isSome_iff_exists.1 hs
    simp only [Option.isSome_some, true_and]
    unfold shiftCurves
    split_ifs with h
    · simp [h]
    · simp [h]

end Verif
