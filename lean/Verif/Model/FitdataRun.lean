import Verif.Model.CurveFile
import Verif.Model.Fitdata

/-! # A run of the script fitdata (scripts/fitdata:56-121) -/

set_option autoImplicit false

namespace Verif

section
variable {K : Type} [Field K] [LinearOrder K] [IsStrictOrderedRing K] [FloorRing K]

/-- `loess(x, y, f)` (scripts/fitdata:38-55): the smoothed curve; `none` as for `loessAt`. -/
noncomputable def smoothCurve (x y : List K) (f : K) : Option (List K) := x.mapM (loessAt x y f)

/-- `np.array(data).T` (scripts/fitdata:109, 111) for curves of `n` points: one row for each point. -/
def curveMatrix (n : ℕ) (curves : List (List K)) : List (List K) := (List.range n).map fun i => curves.map fun c => c.getD i 0

/-- The curves that are analysed (scripts/fitdata:76-111): the frequencies and, for every group of columns, its mean, smoothed with `-sm` (`smooth` is the factor `-f`). -/
noncomputable def fitdataData (groups : Option (List (List ℤ))) (smooth : Option K) (text : List Char) : Option (List K × List (List K)) :=
  (fitdataRead groups text).bind fun p =>
    match smooth with
    | none => some p
    | some f => (p.2.mapM fun y => smoothCurve p.1 y f).map fun c => (p.1, c)

/-- The run (scripts/fitdata:56-121): the results of the fits of all the curves and, with `-s`, the text of the file written. `fit x y` is the outcome of the fit of one curve (fitting/__init__.py:53-150,
called without harmonic frequencies and without degeneracy; an unsuccessful fit is also an outcome), `none` an exception. With no curve at all `original.shape[1]` fails. -/
noncomputable def fitdataRun {R : Type} (fit : List K → List K → Option R) (groups : Option (List (List ℤ))) (smooth : Option K) (save : Bool) (text : List Char) : Option (List R × Option (List Char)) :=
  (fitdataData groups smooth text).bind fun p =>
    if p.2 = [] then none
    else (p.2.mapM (fit p.1)).bind fun r =>
      if save then (curveText p.1 (curveMatrix p.1.length p.2)).map fun t => (r, some t) else some (r, none)

end

end Verif
