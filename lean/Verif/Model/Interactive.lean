import Verif.Model.Quasi
import Mathlib.Data.List.SplitOn

/-! # The text menus (dynaphopy/interface/interactive_ui.py:24-367)

The program reads characters: a menu reads one key (`getch`), a prompt reads a line (`getstr`, at most 60 characters). A
session is the state after a sequence of characters. What the program shows on the screen or plots is appended to a list.
The `Quasiparticle` object is `Quasi` (Model/Quasi), with wave vectors as lists of numbers of any length.
Simplifications: editing keys (backspace) inside a prompt are not interpreted; the layout of the screens is left out;
a failure inside a numerical routine or plot is not modelled; the integers typed at the prompts are not negative. -/

set_option autoImplicit false

namespace Verif

/-- The prompts (`get_param` calls: interactive_ui.py:142, 232, 322, 327, 332, 360, 367). -/
inductive Prompt
  | wave | direction | mem | bins | scale | resolution | limits
  deriving DecidableEq

/-- Where the program is waiting for a character (interactive_ui.py:51-372); `waitHarmonic`, `waitMain` are the `getch` calls
that show a result until a key is pressed (lines 129, 226); `crashed`: an uncaught exception. -/
inductive Menu
  | main | harmonic | waitHarmonic | spectra | dispersion | waitMain | prefs | algorithm | nac | fitting
  | ask (p : Prompt) (typed : List Char)
  | done | crashed
  deriving DecidableEq

/-- What is shown: the arguments of the plot and print calls that depend on the calculation. -/
inductive Shown (K V : Type)
  | frequencies (f : List K)
  | eigenvectors (e : V) (q : List K) (scale : ℕ)
  | bands (b : V)
  | dos (nac : Bool)
  | full (range : List K) (ps : V)
  | wave (range : List K) (ps : V)
  | phonon (range : List K) (ps : V)
  | renormalized (com : List (ComEntry K V (List K)))
  | thermal (harmonicTop : Option K) (com : List (ComEntry K V (List K))) (renormalizedTop : Option K)
  | peaks (ps : V) (range : List K) (harmonic : List K) (q : List K) (fitFn : ℕ)
  | boltzmann (bins : ℕ)
  | displacements (direction : List K) (bins : ℕ)

/-- Reading numbers from text: `float(Fraction(s))`, `float(s)`, `int(s)`; `none`: ValueError (interactive_ui.py:141, 231,
322, 327, 332, 360, 366). -/
structure NumCodec (K : Type) where
  frac : List Char → Option K
  num : List Char → Option K
  int : List Char → Option ℕ

/-- The running program (interactive_ui.py:41): menu, calculation object, the two preferences that are not in `QSettings`
(dynaphopy/parameters.py), and what has been shown. -/
structure Session (K V : Type) where
  menu : Menu := .main
  obj : Quasi K V (List K)
  bins : ℕ := 50
  scale : ℕ := 10
  shown : List (Shown K V) := []

/-- `set_reduced_q_vector` for vectors of any length (dynaphopy/__init__.py:157-162): nothing is cleared when the number of
components changes. -/
def Quasi.setQAny {K V : Type} [DecidableEq K] (o : Quasi K V (List K)) (q : List K) : Quasi K V (List K) :=
  if q.length = o.s.q.length then o.setQ q else { o with s := { o.s with q := q } }

/-- `int(chr(int(screen.getch())))`; `none`: ValueError (interactive_ui.py:277, 311, 352). -/
def keyDigit (c : Char) : Option ℕ := if c.isDigit then some (c.toNat - 48) else none

section
variable {K V : Type} [Field K] [LinearOrder K] [IsStrictOrderedRing K] [FloorRing K]

/-- Back to the main menu (interactive_ui.py:51-76): the screen shows the first and last frequency, so an empty range is an
IndexError. -/
def Session.toMain (st : Session K V) : Session K V :=
  if st.obj.s.freq.range = [] then { st with menu := .crashed } else { st with menu := .main }

/-- Showing something and waiting in menu `m`. -/
def Session.display (st : Session K V) (m : Menu) (obj : Quasi K V (List K)) (x : Shown K V) : Session K V :=
  { st with menu := m, obj := obj, shown := st.shown ++ [x] }

/-- `plot_renormalized_phonon_dispersion_bands`, `plot_linewidths_and_shifts_bands`, `plot_frequencies_vs_linewidths`
(interactive_ui.py:203-214; dynaphopy/__init__.py:248, 309, 383): all plotted from the commensurate-point data. -/
def Session.showRenormalized (env : QEnv K V (List K)) (st : Session K V) : Session K V :=
  let r := st.obj.getCom env
  st.display .dispersion r.1 (.renormalized r.2)

/-- A key in the main menu (interactive_ui.py:94-241). -/
def Session.mainKey (env : QEnv K V (List K)) (st : Session K V) (c : Char) : Session K V :=
  if c = '0' then { st with menu := .done }
  else if c = '1' then { st with menu := .harmonic }
  else if c = '2' then { st with menu := .ask .wave [] }
  else if c = '3' then
    let top := st.obj.s.freq.range.getLast?
    let r := st.obj.getCom env
    (st.display .main r.1 (.thermal top r.2 r.1.s.freq.range.getLast?)).toMain
  else if c = '4' then (st.display .main st.obj (.boltzmann st.bins)).toMain
  else if c = '5' then { st with menu := .spectra }
  else if c = '6' then { st with menu := .dispersion }
  else if c = '7' then
    let r := st.obj.getPhonon env
    let f := r.1.getFrq env
    st.display .waitMain f.1 (.peaks r.2 f.1.s.freq.range f.2 f.1.s.q f.1.s.fitFn)
  else if c = '8' then { st with menu := .ask .direction [] }
  else if c = '9' then { st with menu := .prefs }
  else st.toMain

/-- A key in the menu of option 1 (interactive_ui.py:98-138). -/
def Session.harmonicKey (env : QEnv K V (List K)) (st : Session K V) (c : Char) : Session K V :=
  if c = '0' then st.toMain
  else if c = '1' then
    let r := st.obj.getFrq env
    st.display .waitHarmonic r.1 (.frequencies r.2)
  else if c = '2' then
    let r := st.obj.getEig env
    st.display .harmonic r.1 (.eigenvectors r.2 st.obj.s.q st.scale)
  else if c = '3' then
    let r := st.obj.getBands env
    st.display .harmonic r.1 (.bands r.2)
  else if c = '4' then st.display .harmonic st.obj (.dos st.obj.s.nac)
  else st

/-- A key in the menu of option 5 (interactive_ui.py:158-184). -/
def Session.spectraKey (env : QEnv K V (List K)) (st : Session K V) (c : Char) : Session K V :=
  if c = '0' then st.toMain
  else if c = '1' then
    let r := st.obj.getFull env (-1)
    st.display .spectra r.1 (.full st.obj.s.freq.range r.2)
  else if c = '2' then
    let r := st.obj.getWave env
    st.display .spectra r.1 (.wave st.obj.s.freq.range r.2)
  else if c = '3' then
    let r := st.obj.getPhonon env
    st.display .spectra r.1 (.phonon st.obj.s.freq.range r.2)
  else st

/-- A key in the menu of option 6 (interactive_ui.py:187-214). -/
def Session.dispersionKey (env : QEnv K V (List K)) (st : Session K V) (c : Char) : Session K V :=
  if c = '0' then st.toMain
  else if c = '1' ∨ c = '2' ∨ c = '3' ∨ c = '4' then st.showRenormalized env
  else st

/-- A key in the preferences menu (interactive_ui.py:240-369). -/
def Session.prefsKey (st : Session K V) (c : Char) : Session K V :=
  if c = '0' then st.toMain
  else if c = '1' then { st with menu := .algorithm }
  else if c = '2' then { st with menu := .nac }
  else if c = '3' then { st with menu := .ask .mem [] }
  else if c = '4' then { st with menu := .ask .bins [] }
  else if c = '5' then { st with menu := .ask .scale [] }
  else if c = '6' then { st with menu := .fitting }
  else if c = '7' then { st with menu := .ask .resolution [] }
  else if c = '8' then { st with menu := .ask .limits [] }
  else st

/-- A key in the list of algorithms (interactive_ui.py:259-283): the list is shown again until a digit below 6 is typed. -/
def Session.algorithmKey (st : Session K V) (c : Char) : Session K V :=
  let x := (keyDigit c).getD 9
  if 6 ≤ x then st
  else match st.obj.setAlg x with
    | some o => { st with menu := .prefs, obj := o }
    | none => { st with menu := .crashed }

/-- A key in the menu of the non analytical corrections (interactive_ui.py:286-315): repeated while the digit is above 2, a
ValueError for another key; the setting is changed only if there is a `BORN` file. -/
def Session.nacKey (born : Bool) (st : Session K V) (c : Char) : Session K V :=
  match keyDigit c with
  | none => { st with menu := .crashed }
  | some x =>
    if 2 < x then st
    else if born then { st with menu := .prefs, obj := st.obj.setNAC ((x : ℤ) - 2 ≠ 0) }
    else { st with menu := .prefs }

/-- A key in the list of fitting functions (interactive_ui.py:336-357). -/
def Session.fittingKey (st : Session K V) (c : Char) : Session K V :=
  let x := (keyDigit c).getD 9
  if 3 ≤ x then st
  else match st.obj.setFit x with
    | some o => { st with menu := .prefs, obj := o }
    | none => { st with menu := .crashed }

/-- `[float(Fraction(s)) for s in line.split(',')]` (interactive_ui.py:141, 231, 366). -/
def NumCodec.vector (cd : NumCodec K) (line : List Char) : Option (List K) := (line.splitOn ',').mapM cd.frac

/-- What is done with the line typed at a prompt (interactive_ui.py:141-143, 231-235, 322-333, 360-369); `none`: an
uncaught exception (not a number, fewer than two limits, resolution 0). -/
def Session.answer (cd : NumCodec K) (st : Session K V) (p : Prompt) (line : List Char) : Option (Session K V) :=
  match p with
  | .wave => (cd.vector line).map fun q => ({ st with obj := st.obj.setQAny q } : Session K V).toMain
  | .direction => (cd.vector line).map fun d => (st.display .main st.obj (.displacements d st.bins)).toMain
  | .mem => (cd.int line).map fun n =>
      { st with menu := .prefs, obj := { st.obj with s := { st.obj.s with memCoef := n } } }
  | .bins => (cd.int line).map fun n => { st with menu := .prefs, bins := n }
  | .scale => (cd.int line).map fun n => { st with menu := .prefs, scale := n }
  | .resolution =>
    (cd.num line).bind fun r =>
      if r = 0 then none else (st.obj.setResolution r).map fun o => { st with menu := .prefs, obj := o.fullClear }
  | .limits =>
    (cd.vector line).bind fun v =>
      match v with
      | a :: b :: _ => some { st with menu := .prefs, obj := st.obj.setLimits a b }
      | _ => none

/-- One character typed (interactive_ui.py:30-38, 51-372). -/
def Session.step (env : QEnv K V (List K)) (cd : NumCodec K) (born : Bool) (st : Session K V) (c : Char) : Session K V :=
  match st.menu with
  | .main => st.mainKey env c
  | .harmonic => st.harmonicKey env c
  | .waitHarmonic => { st with menu := .harmonic }
  | .spectra => st.spectraKey env c
  | .dispersion => st.dispersionKey env c
  | .waitMain => st.toMain
  | .prefs => st.prefsKey c
  | .algorithm => st.algorithmKey c
  | .nac => st.nacKey born c
  | .fitting => st.fittingKey c
  | .ask p typed =>
    if c = '\n' then (st.answer cd p typed).getD { st with menu := .crashed }
    else if typed.length < 60 then { st with menu := .ask p (typed ++ [c]) }
    else st
  | .done => st
  | .crashed => st

/-- `interactive_interface(calculation, ...)` (interactive_ui.py:41-372): the state after some characters. -/
def Session.run (env : QEnv K V (List K)) (cd : NumCodec K) (born : Bool) (st : Session K V) (keys : List Char) :
    Session K V := keys.foldl (Session.step env cd born) st

end

end Verif
