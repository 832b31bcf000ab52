import Verif.Props.FFTPower
import Verif.Props.FitObject
import Verif.Props.Fitdata
import Verif.Props.Qha
import Verif.Props.BandRun
import Verif.Props.Commands
import Verif.Props.LammpsLink
import Verif.Props.SpectrumPlots
import Verif.Props.Analysis

/-! # When the calculations return

Theorems of the form "if the call returns, then ..." say nothing of a program that never returns. Here it is stated when the
calls of C32, C69, C85, C88, C96, C100, C102, C110, C128 and C131 return. -/

set_option autoImplicit false

namespace Verif

/-- C32: the selection of an atom type succeeds exactly if there is an atom of that type. -/
theorem C32_selected {C : Type*} (v : ℕ → ℕ → C) (types : List ℕ) (t dims : ℕ) :
    (selectAtoms v types t (-1) dims).isSome ↔ t ∈ types := by
  have hidx : ((List.range types.length).filter fun i => ((types.getD i 0 : ℕ) : ℤ) = (t : ℤ)) = [] ↔ t ∉ types := by
    rw [List.filter_eq_nil_iff]
    constructor
    · intro h ht
      obtain ⟨i, hi, e⟩ := List.getElem_of_mem ht
      refine h i (List.mem_range.2 hi) ?_
      simp [List.getD_eq_getElem?_getD, List.getElem?_eq_getElem hi, e]
    · intro h i hi
      have hi' := List.mem_range.1 hi
      simp only [List.getD_eq_getElem?_getD, List.getElem?_eq_getElem hi', Option.getD_some, Nat.cast_inj, decide_eq_true_eq]
      intro e
      exact h (e ▸ List.getElem_mem hi')
  unfold selectAtoms
  have h0 : ¬ ((t : ℤ) < 0) := by omega
  rw [if_neg h0]
  simp only []
  by_cases ht : t ∈ types
  · have hne := mt hidx.1 (not_not.2 ht)
    rw [if_neg hne, if_neg (by omega), if_neg (by omega)]
    simp [ht]
  · rw [if_pos (hidx.2 ht)]
    simp [ht]

/-- C100: the fit of a branch is set up for the numbers 0, 1, 2 of the fitting functions and a spectrum that is not empty and not longer than the
frequency range; for other numbers and empty spectra it is not. -/
theorem C100_guess_defined (number : ℕ) (range spectrum : List ℝ) (hl : spectrum.length ≤ range.length) :
    (branchFit number range spectrum).isSome ↔ number < 3 ∧ spectrum ≠ [] := by
  have hk : (fitKindOfNumber number).isSome ↔ number < 3 := by
    match number with
    | 0 | 1 | 2 => simp [fitKindOfNumber]
    | n + 3 => simp [fitKindOfNumber]
  have hh : spectrum ≠ [] → ∃ k m, highest spectrum = some (k, m) := by
    intro hne
    cases spectrum with
    | nil => exact absurd rfl hne
    | cons y ys =>
      unfold highest
      split
      · exact ⟨_, _, rfl⟩
      · split_ifs <;> exact ⟨_, _, rfl⟩
  constructor
  · intro h
    obtain ⟨o, ho⟩ := Option.isSome_iff_exists.1 h
    unfold branchFit at ho
    simp only [Option.bind_eq_some_iff, Option.map_eq_some_iff] at ho
    obtain ⟨km, h1, pos, _, kind, h3, _⟩ := ho
    refine ⟨hk.1 (by rw [h3]; rfl), ?_⟩
    rintro rfl
    simp [highest] at h1
  · rintro ⟨hn, hne⟩
    obtain ⟨k, m, e⟩ := hh hne
    obtain ⟨kind, hkind⟩ := Option.isSome_iff_exists.1 (hk.2 hn)
    have hlt : k < spectrum.length := (List.getElem?_eq_some_iff.1 (highest_spec _ _ _ e).1).1
    unfold branchFit
    rw [e, Option.bind_some, List.getElem?_eq_getElem (by omega : k < range.length), Option.bind_some, hkind]
    rfl

theorem mapM_isSome {α β : Type*} (f : α → Option β) (l : List α) : (l.mapM f).isSome ↔ ∀ x ∈ l, (f x).isSome := by
  induction l with
  | nil => simp
  | cons a l ih =>
    rw [List.mapM_cons]
    cases ha : f a with
    | none => simp [ha]
    | some b =>
      cases hl : l.mapM f with
      | none => rw [hl] at ih; simp [ha] at ih ⊢; simpa using ih
      | some r => rw [hl] at ih; simp [ha] at ih ⊢; simpa using ih

/-- C69: the curves of the groups of columns are made exactly if every row has every column asked for. -/
theorem C69_groups_defined {K : Type*} [Field K] (g : List (List ℕ)) (rows : List (List K)) :
    (fitdataCurves (some g) rows).isSome ↔ ∀ group ∈ g, ∀ row ∈ rows, ∀ c ∈ group, c < row.length := by
  simp only [fitdataCurves, fitdataGroups, fitdataRows, fitdataColumn, mapM_isSome, Option.isSome_map, isSome_getElem?]

/-- C69 without groups: the curves are made exactly if every row but the first is at least as long as the first. -/
theorem C69_columns_defined {K : Type*} [Field K] (first : List K) (rows : List (List K)) :
    (fitdataCurves none (first :: rows)).isSome ↔ first.length ≤ 1 ∨ ∀ row ∈ rows, first.length ≤ row.length := by
  simp only [fitdataCurves, fitdataGroups, fitdataRows, fitdataColumn, mapM_isSome, Option.isSome_map, isSome_getElem?,
    List.headD_cons, List.tail_cons, List.mem_map, List.mem_range'_1]
  constructor
  · intro h
    by_cases h1 : first.length ≤ 1
    · exact Or.inl h1
    · refine Or.inr fun row hr => ?_
      have := h [first.length - 1] ⟨first.length - 1, ⟨by omega, by omega⟩, rfl⟩ row hr (first.length - 1) (by simp)
      omega
  · rintro h _ ⟨i, ⟨h1, h2⟩, rfl⟩ row hr c hc
    rw [List.mem_singleton] at hc
    subst hc
    rcases h with h | h
    · omega
    · have := h row hr; omega

/-- C96, constant pressure: there is a file for every temperature number `20 i` that exists, provided that its volume exists. -/
theorem C96_pressure_all {α β : Type*} (temps : List α) (vols : List β) (i : ℕ) (t : α) (v : β) (ht : temps[20 * i]? = some t)
    (hv : vols[20 * i]? = some v) : (qhaFcPairs temps vols)[i]? = some (t, v) := by
  unfold qhaFcPairs
  rw [List.getElem?_zip_eq_some, pyStride_getElem? 20 (by norm_num), pyStride_getElem? 20 (by norm_num)]
  simpa [mul_comm] using And.intro ht hv

/-- C96, gradient: there is a curve number `i` whenever temperature number `40 i` and volume number `20 i` exist. -/
theorem C96_gradient_all {α β : Type*} (temps : List α) (vols : List β) (i : ℕ) (t : α) (v : β) (ht : temps[40 * i]? = some t)
    (hv : vols[20 * i]? = some v) : (qhaDosPairs temps vols)[i]? = some (t, v) := by
  unfold qhaDosPairs
  rw [List.getElem?_zip_eq_some, pyStride_getElem? 40 (by norm_num), pyStride_getElem? 20 (by norm_num)]
  simpa [mul_comm] using And.intro ht hv

/-- C96: the temperature range exists if there are temperatures. -/
theorem C96_range_defined {K : Type*} [Field K] [LinearOrder K] [IsStrictOrderedRing K] [FloorRing K] (tmin tmax : Option K) (temps : List K) (step : K)
    (h : temps ≠ []) : (qhaTemperatureRange tmin tmax temps step).isSome := by
  cases temps with
  | nil => exact absurd rfl h
  | cons a l => cases tmin <;> cases tmax <;> simp [qhaTemperatureRange, List.getLast?_cons]

/-- C131: the bands are drawn exactly if no linewidths are asked for or all segments have them. -/
theorem C131_drawn {Q L : Type} (bands : List (BandData ℝ Q L)) (plotLinewidths plotHarmonic : Bool) :
    (bandDrawings bands plotLinewidths plotHarmonic).isSome ↔ plotLinewidths = false ∨ ∀ b ∈ bands, b.linewidth.isSome := by
  unfold bandDrawings
  rw [Option.isSome_map, mapM_isSome]
  cases plotLinewidths <;> simp [segmentDrawings]

/-- C102: the program comes to its results exactly if the fitting function, the atom type and the algorithm exist. -/
theorem C102_runs {K V Q : Type*} [Field K] [LinearOrder K] [IsStrictOrderedRing K] [FloorRing K] [DecidableEq Q] (env : QEnv K V Q) (types : ℕ)
    (a : CliOptions K Q) (s : QSettings K Q) (hs : s.freq.Valid) (hr : ∀ r, a.resolution = some r → 0 < r) :
    (cliRun env types a s).isSome ↔ a.Ok types := by
  unfold cliRun
  rw [Option.isSome_map]
  rcases C102_options (V := V) types a s hs hr with ⟨h, hn⟩ | ⟨h, hn⟩ <;> rw [h] <;> simp [hn]

/-- C85: LAMMPS gives a trajectory exactly if the supercell has at least two atoms (after the commands that precede the test). -/
theorem C85_runs {K : Type*} [Field K] [LinearOrder K] [IsStrictOrderedRing K] [FloorRing K] (E : LEngine K) (arrange : List (Fin 3 → K) → List K)
    (totalTime timeStep relaxationTime : K) (supercell : ℕ × ℕ × ℕ) (velocityOnly : Bool) (temperature : Option K) (thermostatMass : K) (sampling : ℤ)
    (s1 : E.State) (hs1 : s1 = E.exec (.replicate supercell.1 supercell.2.1 supercell.2.2) (E.exec (.timestep timeStep) (E.exec .file E.start))) :
    (generateLammps E arrange totalTime timeStep relaxationTime supercell velocityOnly temperature thermostatMass sampling).isSome ↔
      2 ≤ (E.ids (temperature.elim s1 fun t => E.exec (.nvt t thermostatMass) s1)).length := by
  subst hs1
  unfold generateLammps lSetup
  rw [Option.isSome_map]
  simp only []
  split_ifs with h
  all_goals simp; omega

/-- C110: `plot_vc` draws exactly if every frame has the atoms and coordinates asked for. -/
theorem C110_curves_defined {K : Type*} [Field K] (vc : List (List (List K))) (dt : K) (atoms coordinates : List ℕ) (ha : atoms ≠ []) (hc : coordinates ≠ []) :
    (plotVcCurves vc dt atoms coordinates).isSome ↔ ∀ a ∈ atoms, ∀ c ∈ coordinates, ∀ frame ∈ vc, ∃ row, frame[a]? = some row ∧ c < row.length := by
  have hb : ∀ (frame : List (List K)) (a c : ℕ), ((frame[a]?).bind fun row => row[c]?).isSome ↔ ∃ row, frame[a]? = some row ∧ c < row.length := by
    intro frame a c
    cases frame[a]? with
    | none => simp
    | some row => simp
  unfold plotVcCurves
  simp only [if_neg ha, if_neg hc, mapM_isSome, List.mem_flatMap, List.mem_map, forall_exists_index, and_imp, Option.bind_eq_bind]
  constructor
  · intro h a hA c hC frame hf
    have := h (a, c) a hA c hC rfl
    rw [Option.isSome_bind] at this
    obtain ⟨ys, hys⟩ : ∃ ys, (vc.mapM fun (frame : List (List K)) => (frame[a]?).bind fun row => row[c]?) = some ys := by
      rcases e : (vc.mapM fun (frame : List (List K)) => (frame[a]?).bind fun row => row[c]?) with _ | ys
      · rw [e] at this; simp at this
      · exact ⟨ys, rfl⟩
    exact (hb frame a c).1 ((mapM_isSome _ _).1 (by rw [hys]; rfl) frame hf)
  · rintro h _ a hA c hC rfl
    obtain ⟨ys, hys⟩ := Option.isSome_iff_exists.1 ((mapM_isSome (fun (frame : List (List K)) => (frame[a]?).bind fun row => row[c]?) vc).2
      fun frame hf => (hb frame a c).2 (h a hA c hC frame hf))
    simp [hys]

/-- C128: the legend is drawn exactly if it can be said whether there are forces; with force constants it can always. -/
theorem C128_full_defined {A D C : Type} (s : PlotState A D) (spectrum : C) (dos : Option A → C) :
    ((s.plotFull spectrum dos).isSome ↔ s.forces.available.isSome) ∧ (s.forces.fc.isSome → (s.plotFull spectrum dos).isSome) := by
  refine ⟨by simp [PlotState.plotFull], fun h => ?_⟩
  obtain ⟨x, hx⟩ := Option.isSome_iff_exists.1 h
  simp [PlotState.plotFull, ForceState.available, hx]

/-- C88: the displacement file is written exactly if there are bins and data, and all atom types have the same number of values. -/
theorem C88_file_defined {K : Type*} [Field K] [LinearOrder K] [IsStrictOrderedRing K] (n : ℕ) (projections : List (List K)) :
    (displacementFile n projections).isSome ↔ n ≠ 0 ∧ (∃ p ∈ projections, p ≠ []) ∧ ∀ p ∈ projections, ∀ q ∈ projections, p.length = q.length := by
  unfold displacementFile
  rw [Option.isSome_map]
  unfold atomicDisplacements
  cases projections with
  | nil => simp
  | cons p ps =>
    simp only []
    split
    · rename_i h
      rw [List.flatten_eq_nil_iff] at h
      simp only [Option.isSome_none, Bool.false_eq_true, false_iff, not_and]
      rintro - ⟨q, hq, hne⟩
      exact absurd (h q hq) hne
    · rename_i x xs h
      split_ifs with hc
      · simp only [Option.isSome_none, Bool.false_eq_true, false_iff, not_and]
        rintro hn - hall
        rcases hc with hc | ⟨q, hq, hne⟩
        · exact hn hc
        · exact hne (hall q (by simp [hq]) p (by simp))
      · push Not at hc
        simp only [Option.isSome_some, true_iff]
        have hall : ∀ q ∈ p :: ps, q.length = p.length := by
          intro q hq
          rcases List.mem_cons.1 hq with rfl | hq
          · rfl
          · exact hc.2 q hq
        refine ⟨hc.1, ?_, fun a ha b hb => (hall a ha).trans (hall b hb).symm⟩
        have : x ∈ (p :: ps).flatten := by rw [h]; simp
        obtain ⟨l, hl, hx⟩ := List.mem_flatten.1 this
        exact ⟨l, hl, List.ne_nil_of_mem hx⟩

example : (fitdataCurves (K := ℚ) (some [[1, 2], [3]]) [[0, 1, 2, 3], [1, 4, 5, 6]]).isSome := by
  rw [C69_groups_defined]
  decide

end Verif
