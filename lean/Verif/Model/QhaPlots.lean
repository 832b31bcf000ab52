import Verif.Model.QhaScript

/-! # scripts/qha_quasiparticle.py: the plots of shifts and linewidths

A plot is the list of its curves, a curve the list of its points. Titles of the axes and matplotlib are left out. -/

set_option autoImplicit false
set_option linter.unusedSectionVars false

namespace Verif
namespace QhaObj

variable {Q : Type} {nt nv nq nb : ℕ} (tools : QhaTools ℝ)

/-- `[method(x) for x in chk_list]` (scripts/qha_quasiparticle.py:343, 345, 369, 371), where the method may fill caches or raise. -/
def mapCalls {A S : Type} (f : ℝ → S → Option A × S) : List ℝ → S → Option (List A) × S
  | [], s => (some [], s)
  | x :: xs, s =>
    match f x s with
    | (none, s) => (none, s)
    | (some a, s) =>
      match mapCalls f xs s with
      | (none, s) => (none, s)
      | (some as, s) => (some (a :: as), s)

/-- The branches drawn: all of them, or the index given, counted from the end if negative (scripts/qha_quasiparticle.py:350-356, 377-384, 440-444, 828-832); `none`: IndexError. -/
def branchesOf (nb : ℕ) : Option ℤ → Option (List (Fin nb))
  | none => some (List.finRange nb)
  | some i =>
    let j := if i < 0 then i + nb else i
    if h : 0 ≤ j ∧ j < nb then some [⟨j.toNat, by omega⟩] else none

/-- `qpoint_to_index(qpoint)` (scripts/qha_quasiparticle.py:323-331) in the first temperature file; `none`: `exit()`. -/
def qIndex (close : Q → Q → Bool) (q : Q) (s : QhaObj Q nt nv nq nb) : Option (Fin nq) :=
  match qpointToIndex close (List.ofFn fun i => (s.data.filesT 0 i).1) q with
  | none => none
  | some i => if h : i < nq then some ⟨i, h⟩ else none

/-- The curves of one plot: lines and dots, for each branch drawn. -/
structure ShiftPlot where
  lines : List (List (ℝ × ℝ))
  dots : List (List (ℝ × ℝ))

/-- The curves of the calculated shifts (`chk_shift_matrix[:, qindex].T` against `chk_list`, scripts/qha_quasiparticle.py:351, 355, 378, 383) and the dots of the shift matrix (lines 352, 356, 379, 384). An empty `chk_list` makes an array of one dimension,
and the index raises. -/
def shiftCurves {n : ℕ} (xs : Fin n → ℝ) (m : Fin nb → Fin nq → Fin n → ℝ) (chk : List ℝ) (arrays : List (Fin nq → Fin nb → ℝ)) (k : Fin nq) (branch : Option ℤ) : Option ShiftPlot :=
  if chk = [] then none
  else (branchesOf nb branch).map fun bs => ⟨bs.map fun b => chk.zip (arrays.map fun a => a k b), bs.map fun b => List.ofFn fun i => (xs i, m b k i)⟩

/-- `plot_fitted_shifts_temperature(qpoint, branch, interpolated)` (scripts/qha_quasiparticle.py:333-357); `none`: `exit()` or an exception. -/
noncomputable def plotFittedT (close : Q → Q → Bool) (q : Q) (branch : Option ℤ) (interpolated : Bool) (s : QhaObj Q nt nv nq nb) : Option ShiftPlot × QhaObj Q nt nv nq nb :=
  match s.qIndex close q with
  | none => (none, s)
  | some k =>
    let (m, s) := s.getShiftMatrixT
    let chk := arange (s.data.temperatures 0) (s.data.temperatures (Fin.last nt)) 10
    match mapCalls (fun t s => if interpolated then s.getInterpolatedT tools t else s.getFittedT tools (some t)) chk s with
    | (none, s) => (none, s)
    | (some arrays, s) => (shiftCurves s.data.temperatures m chk arrays k branch, s)

/-- `plot_fitted_shifts_volumes(qpoint, branch, interpolate)` (scripts/qha_quasiparticle.py:359-385). -/
noncomputable def plotFittedV (close : Q → Q → Bool) (q : Q) (branch : Option ℤ) (interpolate : Bool) (s : QhaObj Q nt nv nq nb) : Option ShiftPlot × QhaObj Q nt nv nq nb :=
  match s.qIndex close q with
  | none => (none, s)
  | some k =>
    match s.getShiftMatrixV tools with
    | (none, s) => (none, s)
    | (some m, s) =>
      let chk := arange (s.data.volumes 0) (s.data.volumes (Fin.last nv)) (1 / 10)
      match mapCalls (fun v s => if interpolate then s.getInterpolatedV tools v else s.getFittedV tools v) chk s with
      | (none, s) => (none, s)
      | (some arrays, s) => (shiftCurves s.data.volumes m chk arrays k branch, s)

/-- `plot_linewidth_volume`, `plot_linewidth_temperature`, `plot_shift_volume`, `plot_shift_temperature` (scripts/qha_quasiparticle.py:386-476): the entry `linewidths` or `frequency_shifts` of row `qindex` of each file against the volumes or temperatures;
`entry i k` is that entry of row `k` of file `i`. The linewidths are always drawn for all branches. -/
def plotFileEntries {n : ℕ} (close : Q → Q → Bool) (q : Q) (branch : Option ℤ) (xs : Fin n → ℝ) (entry : Fin n → Fin nq → Fin nb → ℝ) (s : QhaObj Q nt nv nq nb) : Option (List (List (ℝ × ℝ))) :=
  (s.qIndex close q).bind fun k => (branchesOf nb branch).map fun bs => bs.map fun b => List.ofFn fun i => (xs i, entry i k b)

/-- `get_shift_temperature(qpoint)` (scripts/qha_quasiparticle.py:446-455): branch and temperature. -/
def getShiftTemperature (close : Q → Q → Bool) (q : Q) (entry : Fin (nt + 1) → Fin nq → Fin nb → ℝ) (s : QhaObj Q nt nv nq nb) : Option (Fin nb → Fin (nt + 1) → ℝ) :=
  (s.qIndex close q).map fun k b i => entry i k b

end QhaObj

/-- `plot_total_shift_constant_pressure(qpoint, branch)` (scripts/qha_quasiparticle.py:816-833): the curves, and the temperature (or None) named in the title, to which the shifts are said to be relative. -/
noncomputable def plotTotalShift {Q : Type} {nt nv nq nb : ℕ} (tools : QhaTools ℝ) (close : Q → Q → Bool) (temperatures volumes : List ℝ) (q : Q) (branch : Option ℤ) (s : QhaObj Q nt nv nq nb) :
    Option (List (List (ℝ × ℝ)) × Option ℝ) :=
  (qhaShiftConstantPressure tools close temperatures volumes q s).1.bind fun r => (QhaObj.branchesOf nb branch).map fun bs => (bs.map fun b => temperatures.zip (r b), s.data.refTemperature)

end Verif
