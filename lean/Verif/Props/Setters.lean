import Verif.Props.Structure
import Verif.Props.Dynamics

/-! # `set_time` and `set_cell`: when they take effect (C144, C08) -/

set_option autoImplicit false
set_option linter.unusedSectionVars false

namespace Verif

section time
variable {K F M : Type*} [Field K] [LinearOrder K] [IsStrictOrderedRing K] [FloorRing K] [AddCommGroup F] [Module K F]

/-- C144: after `set_time(t)` on an object whose time step has not been asked for, the time step is the average of the new times, rounded to 8 decimals. -/
theorem C144_set_time (s : Dyn K F M) (t : List K) (hlen : 2 ≤ t.length) (hfresh : s.timeStep = none) :
    (s.setTime t).getTimeStep.map Prod.fst = some (aroundDec 8 ((t.getD (t.length - 1) 0 - t.getD 0 0) / ((t.length - 1 : ℕ) : K))) :=
  C16_average (s.setTime t) t rfl hlen hfresh

/-- C144, violated part: once a time step different from zero has been returned, no later `set_time` has an effect on it. For all objects and times. -/
theorem C144_set_time_violated (s s' : Dyn K F M) (x : K) (h : s.getTimeStep = some (x, s')) (hx : x ≠ 0) (t : List K) :
    (s'.setTime t).getTimeStep.map Prod.fst = some x := by
  have hts : s'.timeStep = some x ∧ aroundDec 8 x = x := by
    unfold Dyn.getTimeStep at h
    split at h
    · simp only [Option.some.injEq, Prod.mk.injEq] at h
      obtain ⟨rfl, rfl⟩ := h
      exact ⟨rfl, aroundDec_idem _ _⟩
    · simp only [Option.map_eq_some_iff, Prod.mk.injEq] at h
      obtain ⟨_, _, rfl, rfl⟩ := h
      exact ⟨rfl, aroundDec_idem _ _⟩
  simp [Dyn.getTimeStep, Dyn.setTime, hts.1, Option.filter, hx, hts.2]

end time

section cell
variable {K : Type*} {d : ℕ} [Field K] [LinearOrder K] [IsStrictOrderedRing K] [FloorRing K]

/-- C08, `set_cell`, what holds: a structure built from scaled positions, whose Cartesian positions have not been asked for, gives the Cartesian positions in the new cell; one built from Cartesian
positions, whose scaled positions have not been asked for, gives the scaled positions in the new cell, and keeps its Cartesian positions. -/
theorem C08_set_cell_partial (s : Structure K d) (c : Matrix (Fin d) (Fin d) K) (hdet : c.det ≠ 0) :
    (∀ sp, s.positions = none → s.scaled = some sp → ((s.setCell c).getPositions none).map Prod.fst = some (rowsMul sp c)) ∧
    (∀ p, s.positions = some p → ((s.setCell c).getPositions none).map Prod.fst = some p) ∧
    (∀ p, s.positions = some p → s.scaled = none → ((s.setCell c).getScaledPositions none).map Prod.fst = some (rowsMul p c⁻¹)) := by
  refine ⟨fun sp h1 h2 => ?_, fun p h1 => ?_, fun p h1 h2 => ?_⟩
  · simp [Structure.getPositions, Structure.setCell, h1, h2, superOr_none_positions]
  · simp [Structure.getPositions, Structure.setCell, h1, superOr_none_positions]
  · simp [Structure.getScaledPositions, Structure.getPositions, Structure.setCell, h1, h2, superOr_none_positions, npInv, hdet]

example : ((({ cell := 1, scaled := some [fun _ => 1], masses := [1] } : Structure ℚ 3).setCell (Matrix.diagonal fun _ => 2)).getPositions none).map Prod.fst
    = some (rowsMul [fun _ => 1] (Matrix.diagonal fun _ => 2)) :=
  (C08_set_cell_partial _ _ (by simp [Matrix.det_diagonal])).1 _ rfl rfl

end cell

end Verif
