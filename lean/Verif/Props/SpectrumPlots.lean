import Verif.Model.SpectrumPlots
import Verif.Props.Forces
import Verif.Props.PlotLabels

/-! # C128: the plots of the spectra, C110: the plots of the trajectory and the velocity -/

set_option autoImplicit false

namespace Verif

section full

variable {A D C : Type}

/-- Renormalized force constants are only there together with force constants of the structure. -/
theorem plotState_inv (produce : D → SMat → A) (renorm : ForceState A D → A) (n : ℤ) (h : List (PlotOp A D)) (s : PlotState A D)
    (hs : PlotState.run produce renorm n h = some s) (hr : s.renormalized.isSome) : s.forces.fc.isSome := by
  induction h using List.reverseRecOn generalizing s with
  | nil =>
    simp only [PlotState.run, List.foldlM_nil, Option.pure_def, Option.some.injEq] at hs
    subst hs; simp at hr
  | append_singleton h op ih =>
    unfold PlotState.run at hs ih
    rw [List.foldlM_append] at hs
    simp only [Option.bind_eq_bind, Option.bind_eq_some_iff, List.foldlM_cons, List.foldlM_nil, Option.pure_def] at hs
    obtain ⟨s0, h0, s1, h1, h2⟩ := hs
    simp only [Option.some.injEq] at h2
    subst h2
    cases op with
    | force op =>
      simp only [PlotState.step, Option.some.injEq] at h1
      subst h1
      have := ih s0 h0 hr
      cases op with
      | setFC x => rfl
      | setFS x => exact this
      | phonon fc =>
        obtain ⟨x, hx⟩ := Option.isSome_iff_exists.1 this
        cases fc with
        | none =>
          simp only [ForceState.step, fs_phononFor_fc produce s0.forces x hx]
          exact this
        | some y =>
          simp only [ForceState.step, C90_given produce s0.forces y]
          exact this
    | renormalize =>
      simp only [PlotState.step, Option.map_eq_some_iff] at h1
      obtain ⟨r, hr', rfl⟩ := h1
      simp only
      cases hfc : s0.forces.fc with
      | some x =>
        rw [fs_phononFor_fc produce s0.forces x hfc] at hr'
        simp only [Option.some.injEq] at hr'
        rw [← hr']; simp [hfc]
      | none =>
        cases hfs : s0.forces.fs with
        | none => rw [fs_phononFor_none produce _ hfc hfs] at hr'; simp at hr'
        | some x =>
          by_cases hm : x.Matches s0.forces.natoms
          · rw [fs_phononFor_fs produce _ x hfc hfs hm] at hr'
            simp only [Option.some.injEq] at hr'
            rw [← hr']; rfl
          · rw [fs_phononFor_fs_bad produce _ x hfc hfs hm] at hr'; simp at hr'
    | clear =>
      simp only [PlotState.step, Option.some.injEq] at h1
      subst h1; simp at hr

/-- **C128**: after any history, the legend of the plot of the full spectrum names every curve correctly: the spectrum, then the harmonic density of states if forces are known, then the renormalized one
if it was calculated. -/
theorem C128_full (produce : D → SMat → A) (renorm : ForceState A D → A) (n : ℤ) (h : List (PlotOp A D)) (s : PlotState A D)
    (hs : PlotState.run produce renorm n h = some s) (spectrum : C) (dos : Option A → C) (legend : List (LegendEntry C)) (hl : s.plotFull spectrum dos = some legend) :
    (∀ c, ("Power spectrum (MD)", c) ∈ legend ↔ c = spectrum) ∧
    (∀ c, ("DoS (Harmonic)", c) ∈ legend ↔ s.forces.available = some true ∧ c = dos none) ∧
    (∀ c, ("DoS (Renormalized)", c) ∈ legend ↔ ∃ a, s.renormalized = some a ∧ c = dos (some a)) ∧
    legend.length = 1 + (if s.forces.available = some true then 1 else 0) + (if s.renormalized.isSome then 1 else 0) := by
  have hinv := plotState_inv produce renorm n h s hs
  unfold PlotState.plotFull at hl
  rw [Option.map_eq_some_iff] at hl
  obtain ⟨b, hb, rfl⟩ := hl
  rw [hb]
  cases hr : s.renormalized with
  | none => cases b <;> simp [plotFullLegend, plotFullHandles]
  | some a =>
    have : b = true := by
      obtain ⟨x, hx⟩ := Option.isSome_iff_exists.1 (hinv (by simp [hr]))
      simp only [ForceState.available, hx, Option.some.injEq] at hb
      exact hb.symm
    subst this
    simp [plotFullLegend, plotFullHandles]

/-- A history with all three curves: force sets, renormalization. -/
example : (PlotState.run (A := ℕ) (D := ℕ) (fun d _ => d) (fun _ => 7) 2 [.force (.setFS ⟨2, 5, 1⟩), .renormalize]).bind (fun s => s.plotFull (C := Option (Option ℕ)) none some) =
    some [("Power spectrum (MD)", none), ("DoS (Harmonic)", some none), ("DoS (Renormalized)", some (some 7))] := by
  decide +kernel

end full

/-- **C128**: `plot_power_spectrum_phonon` draws one figure for each mode; the figure of mode `i` (counted from 0) is titled with `i + 1` and shows at each frequency the spectrum of that mode. -/
theorem C128_phonon {K : Type} (range : List K) (spectra : List (List K)) (nModes : ℕ) (hrow : ∀ row ∈ spectra, row.length = nModes) (hlen : range.length = spectra.length) :
    (plotPhononFigures range spectra nModes).length = nModes ∧
    ∀ i < nModes, ∃ points, (plotPhononFigures range spectra nModes)[i]? = some (i, i + 1, points) ∧ points.length = range.length ∧
      ∀ (k : ℕ) f row, range[k]? = some f → spectra[k]? = some row → ∃ y, row[i]? = some y ∧ points[k]? = some (f, some y) := by
  refine ⟨by simp [plotPhononFigures], fun i hi => ⟨_, by rw [plotPhononFigures, List.getElem?_map, List.getElem?_range hi]; rfl, by simp [hlen], ?_⟩⟩
  intro k f row hf hrow'
  have hl : i < row.length := by rw [hrow row (List.mem_of_getElem? hrow')]; exact hi
  refine ⟨row[i], List.getElem?_eq_getElem hl, ?_⟩
  rw [List.getElem?_zip_eq_some]
  refine ⟨hf, ?_⟩
  rw [List.getElem?_map, hrow', Option.map_some, List.getElem?_eq_getElem hl]

example : plotPhononFigures [1, 2] [[10, 20], [30, 40]] 2 = [(0, 1, [(1, some 10), (2, some 30)]), (1, 2, [(1, some 20), (2, some 40)])] := by decide +kernel

/-- **C110**: `plot_trajectory` and `plot_velocity` show the same selection of atoms and coordinates as `plot_vc` does of the projection: the chosen components in the order of the steps, atom 0 and coordinate
0 if nothing is chosen. -/
theorem C110_trajectory {K : Type*} [Field K] (trajectory : List (List (List K))) (dt : K) (atoms coordinates : Option (List ℕ)) (ha : atoms ≠ some []) (hc : coordinates ≠ some [])
    (curves : List ((ℕ × ℕ) × List (K × K))) (h : plotTrajectoryCurves trajectory dt atoms coordinates = some curves ∨ plotVelocityCurves trajectory dt atoms coordinates = some curves) :
    curves.map Prod.fst = (atoms.getD [0]).flatMap (fun a => (coordinates.getD [0]).map fun c => (a, c)) ∧
      ∀ a c pts, ((a, c), pts) ∈ curves → ∀ (t : ℕ) frame, trajectory[t]? = some frame → ∃ row y, frame[a]? = some row ∧ row[c]? = some y ∧ (pts[t]?).map Prod.snd = some y := by
  have e1 : atoms.getD [0] ≠ [] := by cases atoms <;> simp_all
  have e2 : coordinates.getD [0] ≠ [] := by cases coordinates <;> simp_all
  have hT : plotTrajectoryCurves trajectory dt atoms coordinates = plotVcCurves trajectory dt (atoms.getD [0]) (coordinates.getD [0]) := by
    unfold plotTrajectoryCurves plotVcCurves
    rw [if_neg e1, if_neg e2]
  have hV : plotVelocityCurves trajectory dt atoms coordinates = plotVcCurves trajectory dt (atoms.getD [0]) (coordinates.getD [0]) := by
    unfold plotVelocityCurves plotVcCurves
    rw [if_neg e1, if_neg e2]
    have h1 : (if atoms.getD [] = [] then [0] else atoms.getD []) = atoms.getD [0] := by
      cases atoms with
      | none => rfl
      | some l => simp only [Option.getD_some] at e1 ⊢; rw [if_neg e1]
    have h2 : (if coordinates.getD [] = [] then [0] else coordinates.getD []) = coordinates.getD [0] := by
      cases coordinates with
      | none => rfl
      | some l => simp only [Option.getD_some] at e2 ⊢; rw [if_neg e2]
    simp only [h1, h2]
  rw [hT, hV, or_self] at h
  exact C110_curves trajectory dt _ _ e2 e1 curves h

example : plotTrajectoryCurves (K := ℚ) [[[1, 2, 3]], [[4, 5, 6]]] 1 none (some [2]) = some [((0, 2), [(0, 3), (2, 6)])] ∧
    plotVelocityCurves (K := ℚ) [[[1, 2, 3]], [[4, 5, 6]]] 1 none (some [2]) = some [((0, 2), [(0, 3), (2, 6)])] := by decide +kernel

/-- C110, violated: given an empty selection, the plot of the trajectory is empty and that of the velocity shows atom 0. -/
theorem C110_empty_violated {K : Type*} [Field K] (data : List (List (List K))) (dt : K) (coordinates : Option (List ℕ)) :
    plotTrajectoryCurves data dt (some []) coordinates = some [] ∧ plotVelocityCurves data dt (some []) coordinates = plotVelocityCurves data dt (some [0]) coordinates := by
  constructor
  · simp [plotTrajectoryCurves]
  · simp [plotVelocityCurves, plotVcCurves]

end Verif
