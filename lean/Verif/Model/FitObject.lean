import Verif.Model.Fitting

/-! # Fit objects as they are used (dynaphopy/analysis/fitting/fitting_functions.py, whole classes)

The four classes have the same constructor and the same three methods; they differ in `_function` and in what `get_fitting` reports.
SciPy is a parameter (`FitLib`): deterministic, `curve_fit` may return, raise RuntimeError (not converged) or raise another error
(unusable data). Real arithmetic. -/

set_option autoImplicit false

namespace Verif

open Real

/-- The classes Lorentzian, Lorentzian_asymmetric, Damped_harmonic, Gaussian_function (fitting_functions.py:15, 97, 197, 285). -/
inductive FitKind | lorentzian | asymmetric | damped | gaussian
  deriving DecidableEq

/-- The parameters `a, b, c, d` of `_function`, and `s` of the asymmetric Lorentzian (fitting_functions.py:32-40, 123-132); the
other classes have no `s` and here ignore it. -/
structure FitParams where
  a : ℝ
  b : ℝ
  c : ℝ
  d : ℝ
  s : ℝ

/-- `_function` (fitting_functions.py:32-40, 123-132, 214-222, 302-310). -/
noncomputable def FitKind.function : FitKind → FitParams → ℝ → ℝ
  | .lorentzian, p, x => Verif.lorentzian x p.a p.b p.c p.d
  | .asymmetric, p, x => lorentzianAsym x p.a p.b p.c p.d p.s
  | .damped, p, x => dampedHarmonic x p.a p.b p.c p.d
  | .gaussian, p, x => gaussianFn x p.a p.b p.c p.d

/-- What a call of `curve_fit` does. -/
inductive CurveFit | done (p : FitParams) (variances : List (Option ℝ)) | notConverged | failed

/-- The exceptions of a fit object: RuntimeError of curve_fit, or another one. -/
inductive FitError | runtime | other
  deriving DecidableEq

/-- SciPy: `curve_fit(function, x, y[, p0])` with the parameters and the diagonal of the covariance matrix (`none`: inf, the
covariance could not be estimated), `quad(f, lo, hi)[0]` and the argument found by `minimize_scalar(f, bounds, 'bounded')`. -/
structure FitLib where
  curveFit : FitKind → List ℝ → List ℝ → Option FitParams → CurveFit
  quad : (ℝ → ℝ) → ℝ → ℝ → ℝ
  argmin : (ℝ → ℝ) → ℝ → ℝ → ℝ

/-- A fit object (fitting_functions.py:16-30, 98-112, 198-212, 286-300). `calls` counts the calls of `curve_fit`; the program has no
such counter. -/
structure FitObject where
  kind : FitKind
  range : List ℝ
  spectrum : List ℝ
  guessPos : Option ℝ
  guessHeight : Option ℝ
  cached : Option (FitParams × List (Option ℝ))
  calls : ℕ

/-- The constructor (fitting_functions.py:16-30, 98-112, 198-212, 286-300). -/
def FitObject.new (kind : FitKind) (range spectrum : List ℝ) (guessPos guessHeight : Option ℝ) : FitObject :=
  { kind := kind, range := range, spectrum := spectrum, guessPos := guessPos, guessHeight := guessHeight, cached := none, calls := 0 }

/-- `p0` (fitting_functions.py:45-53, 137-145, 227-235, 315-323): without one of the guesses it is not given at all. -/
noncomputable def FitObject.start (o : FitObject) : Option FitParams :=
  match o.guessPos, o.guessHeight with
  | some pos, some height => some { a := pos, b := 0.1, c := height, d := 0, s := 0 }
  | _, _ => none

/-- `get_fitting_parameters` (fitting_functions.py:42-57, 134-149, 224-239, 312-327). -/
noncomputable def FitObject.parameters (lib : FitLib) (o : FitObject) : Except FitError (FitParams × List (Option ℝ)) × FitObject :=
  match o.cached with
  | some r => (.ok r, o)
  | none =>
    match lib.curveFit o.kind o.range o.spectrum o.start with
    | .done p v => (.ok (p, v), { o with cached := some (p, v), calls := o.calls + 1 })
    | .notConverged => (.error .runtime, { o with calls := o.calls + 1 })
    | .failed => (.error .other, { o with calls := o.calls + 1 })

/-- `get_standard_errors_from_covariance` (fitting_functions.py:9-11). -/
noncomputable def standardErrors (variances : List (Option ℝ)) : List (Option ℝ) := variances.map (Option.map Real.sqrt)

/-- `np.average(standard_errors[:2])` (fitting_functions.py:73, 172, 262, 349); `none`: inf. -/
noncomputable def averageError (errors : List (Option ℝ)) : Option ℝ :=
  ((errors.take 2).mapM id).map fun l => l.sum / (l.length : ℝ)

/-- The dictionary of a successful `get_fitting` (fitting_functions.py:81-88, 180-187, 269-275, 356-362); `globalError = none`: inf. -/
structure FitReport where
  maximum : ℝ
  width : ℝ
  position : ℝ
  globalError : Option ℝ
  area : ℝ
  baseLine : ℝ
  asymmetry : Option ℝ

/-- `global_error` (fitting_functions.py:73, 172, 262, 349) for an error and an area that do not give nan: a positive number
divided by 0 is inf. -/
noncomputable def globalError (err : Option ℝ) (area : ℝ) : Option ℝ :=
  if area = 0 then none else err.map fun e => e / √area

/-- What `get_fitting` computes from the parameters (fitting_functions.py:66-79, 159-178, 250-267, 338-354). The asymmetric
Lorentzian looks for the peak between the ends of the range; the other three areas but the Lorentzian's are integrals from 0 to the
end of the range. An empty range is taken to have the ends 0 (the program has raised an error in curve_fit by then). -/
noncomputable def FitObject.report (lib : FitLib) (o : FitObject) (p : FitParams) (err : Option ℝ) : FitReport :=
  let f := o.kind.function p
  let area := lib.quad f 0 (o.range.getLastD 0)
  match o.kind with
  | .lorentzian => { maximum := p.c / (p.b * π), width := 2 * p.b, position := p.a, globalError := globalError err p.c,
                     area := p.c, baseLine := p.d, asymmetry := none }
  | .asymmetric =>
    let peak := lib.argmin (fun x => -f x) (o.range.headD 0) (o.range.getLastD 0)
    { maximum := - -f peak, width := 2 * asymWidth peak p.a p.b p.s, position := peak, globalError := globalError err area,
      area := area, baseLine := p.d, asymmetry := some p.s }
  | .damped => { maximum := f p.a, width := |p.b|, position := p.a, globalError := globalError err area,
                 area := area, baseLine := p.d, asymmetry := none }
  | .gaussian => { maximum := f p.a, width := |p.b|, position := p.a, globalError := globalError err area,
                   area := area, baseLine := p.d, asymmetry := none }

/-- `get_fitting` (fitting_functions.py:59-91, 152-191, 241-279, 329-365): RuntimeError of `curve_fit` and a global error of nan give
`all_good` False (`none`); other exceptions are passed on. -/
noncomputable def FitObject.fitting (lib : FitLib) (o : FitObject) : Except FitError (Option FitReport) × FitObject :=
  match o.parameters lib with
  | (.error .runtime, o') => (.ok none, o')
  | (.error .other, o') => (.error .other, o')
  | (.ok (p, v), o') =>
    let err := averageError (standardErrors v)
    let r := o'.report lib p err
    (.ok (if errorIsNan err r.area then none else some r), o')

/-- `get_curve` (fitting_functions.py:93-94, 193-194, 281-282, 367-368). -/
noncomputable def FitObject.curve (lib : FitLib) (o : FitObject) (xs : List ℝ) : Except FitError (List ℝ) × FitObject :=
  match o.parameters lib with
  | (.ok (p, _), o') => (.ok (xs.map (o'.kind.function p)), o')
  | (.error e, o') => (.error e, o')

/-- The calls a user makes. -/
inductive FitCall | parameters | fitting | curve (xs : List ℝ)

/-- Their answers. -/
inductive FitAnswer
  | parameters (r : Except FitError (FitParams × List (Option ℝ)))
  | fitting (r : Except FitError (Option FitReport))
  | curve (r : Except FitError (List ℝ))

/-- One call (fitting_functions.py:42, 59, 93). -/
noncomputable def FitObject.call (lib : FitLib) (o : FitObject) : FitCall → FitAnswer × FitObject
  | .parameters => let r := o.parameters lib; (.parameters r.1, r.2)
  | .fitting => let r := o.fitting lib; (.fitting r.1, r.2)
  | .curve xs => let r := o.curve lib xs; (.curve r.1, r.2)

/-- A history of calls on one object (fitting_functions.py:15-94). -/
noncomputable def FitObject.calls_ (lib : FitLib) : FitObject → List FitCall → List FitAnswer × FitObject
  | o, [] => ([], o)
  | o, c :: cs =>
    let r := o.call lib c
    let rest := FitObject.calls_ lib r.2 cs
    (r.1 :: rest.1, rest.2)

/-- What `phonon_fitting_analysis` makes of one branch (fitting/__init__.py:60-72): the guesses are the height and the frequency of the
highest point of the spectrum; `kinds` is the table `fitting_functions` (fitting_functions.py:371-375), KeyError for other numbers. -/
def fitKindOfNumber : ℕ → Option FitKind
  | 0 => some .lorentzian
  | 1 => some .asymmetric
  | 2 => some .damped
  | _ => none

/-- Index and value of `np.argmax`, `np.max` (fitting/__init__.py:60-61): the first of the largest entries. -/
noncomputable def highest : List ℝ → Option (ℕ × ℝ)
  | [] => none
  | y :: ys =>
    match highest ys with
    | none => some (0, y)
    | some (k, m) => if y < m then some (k + 1, m) else some (0, y)

/-- The fit object of one branch (fitting/__init__.py:60-67); `none`: an exception (KeyError, empty spectrum, spectrum longer
than the range). -/
noncomputable def branchFit (number : ℕ) (range spectrum : List ℝ) : Option FitObject :=
  (highest spectrum).bind fun km => (range[km.1]?).bind fun pos => (fitKindOfNumber number).map fun kind =>
    FitObject.new kind range spectrum (some pos) (some km.2)

end Verif
