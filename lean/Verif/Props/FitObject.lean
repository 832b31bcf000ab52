import Verif.Model.FitObject
import Verif.Props.Fitting
import Mathlib.Probability.Distributions.Gaussian.Real

/-! # C100 (answers of a fit object) and C101 (meaning of the reported width) -/

set_option autoImplicit false
set_option linter.unusedSectionVars false

namespace Verif

open Real MeasureTheory

/-! ## C100 -/

/-- The answer to a call on a new object with the same data. -/
noncomputable def freshAnswer (lib : FitLib) (o : FitObject) (c : FitCall) : FitAnswer :=
  ((FitObject.new o.kind o.range o.spectrum o.guessPos o.guessHeight).call lib c).1

/-- The cache holds nothing or what curve_fit returns for the data of the object. -/
def FitObject.Sound (lib : FitLib) (o : FitObject) : Prop :=
  ∀ p v, o.cached = some (p, v) → lib.curveFit o.kind o.range o.spectrum o.start = .done p v

theorem FitObject.parameters_spec (lib : FitLib) (o : FitObject) (h : o.Sound lib) :
    (o.parameters lib).1 = ((FitObject.new o.kind o.range o.spectrum o.guessPos o.guessHeight).parameters lib).1 ∧
    (o.parameters lib).2.Sound lib ∧
    (o.parameters lib).2.kind = o.kind ∧ (o.parameters lib).2.range = o.range ∧ (o.parameters lib).2.spectrum = o.spectrum ∧
    (o.parameters lib).2.guessPos = o.guessPos ∧ (o.parameters lib).2.guessHeight = o.guessHeight := by
  have hs : (FitObject.new o.kind o.range o.spectrum o.guessPos o.guessHeight).start = o.start := rfl
  unfold FitObject.parameters
  rcases hc : o.cached with _ | ⟨p, v⟩
  · simp only [FitObject.new] at hs ⊢
    rw [hs]
    cases hf : lib.curveFit o.kind o.range o.spectrum o.start with
    | done p v =>
      refine ⟨rfl, ?_, rfl, rfl, rfl, rfl, rfl⟩
      intro p' v' e
      simp only [Option.some.injEq, Prod.mk.injEq] at e
      rw [← e.1, ← e.2]; exact hf
    | notConverged => exact ⟨rfl, fun p' v' e => by simp at e, rfl, rfl, rfl, rfl, rfl⟩
    | failed => exact ⟨rfl, fun p' v' e => by simp at e, rfl, rfl, rfl, rfl, rfl⟩
  · have := h p v hc
    simp only [FitObject.new] at hs ⊢
    rw [hs, this]
    exact ⟨rfl, h, trivial, trivial, trivial, trivial, trivial⟩

theorem FitObject.report_congr (lib : FitLib) (o o' : FitObject) (hk : o.kind = o'.kind) (hr : o.range = o'.range) (p : FitParams) (err : Option ℝ) :
    o.report lib p err = o'.report lib p err := by
  unfold FitObject.report; rw [hk, hr]

theorem FitObject.call_spec (lib : FitLib) (o : FitObject) (h : o.Sound lib) (c : FitCall) :
    (o.call lib c).1 = freshAnswer lib o c ∧ (o.call lib c).2 = (o.parameters lib).2 := by
  obtain ⟨h1, h2, hk, hr, -, -, -⟩ := o.parameters_spec lib h
  set n := FitObject.new o.kind o.range o.spectrum o.guessPos o.guessHeight with hn
  have hns : n.Sound lib := by intro p v e; simp [hn, FitObject.new] at e
  obtain ⟨-, -, nk, nr, -, -, -⟩ := n.parameters_spec lib hns
  have nk' : (n.parameters lib).2.kind = o.kind := nk
  have nr' : (n.parameters lib).2.range = o.range := nr
  unfold freshAnswer
  rw [← hn]
  rcases e : o.parameters lib with ⟨r, o'⟩
  rcases e' : n.parameters lib with ⟨r', n'⟩
  rw [e, e'] at h1
  rw [e] at hk hr
  rw [e'] at nk' nr'
  dsimp only at h1 hk hr nk' nr'
  subst h1
  cases c with
  | parameters => simp only [FitObject.call, e, e']; exact ⟨trivial, trivial⟩
  | fitting =>
    simp only [FitObject.call, FitObject.fitting, e, e']
    rcases r with (_ | _) | ⟨p, v⟩
    · exact ⟨rfl, rfl⟩
    · exact ⟨rfl, rfl⟩
    · dsimp only
      rw [o'.report_congr lib n' (hk.trans nk'.symm) (hr.trans nr'.symm)]
      exact ⟨rfl, rfl⟩
  | curve xs =>
    simp only [FitObject.call, FitObject.curve, e, e']
    rcases r with _ | ⟨p, v⟩
    · exact ⟨rfl, rfl⟩
    · dsimp only
      rw [hk, nk']
      exact ⟨rfl, rfl⟩

theorem FitObject.calls_spec (lib : FitLib) (cs : List FitCall) : ∀ (o : FitObject), o.Sound lib →
    (o.calls_ lib cs).1 = cs.map (freshAnswer lib o) := by
  induction cs with
  | nil => intro o _; rfl
  | cons c cs ih =>
    intro o h
    obtain ⟨h1, h2⟩ := o.call_spec lib h c
    obtain ⟨-, hs, hk, hr, hp, hg, hh⟩ := o.parameters_spec lib h
    simp only [FitObject.calls_, List.map_cons]
    rw [h1, h2, ih _ hs]
    congr 1
    apply List.map_congr_left
    intro c' _
    unfold freshAnswer
    rw [hk, hr, hp, hg, hh]

/-- C100: whatever calls are made on a fit object and in whatever order, each of them is answered as on a new object with the same data. -/
theorem C100_history (lib : FitLib) (kind : FitKind) (range spectrum : List ℝ) (pos height : Option ℝ) (cs : List FitCall) :
    ((FitObject.new kind range spectrum pos height).calls_ lib cs).1 =
      cs.map fun c => ((FitObject.new kind range spectrum pos height).call lib c).1 := by
  rw [FitObject.calls_spec lib cs _ (by intro p v e; simp [FitObject.new] at e)]
  rfl

/-- C100: the optimiser is started at most once per object if it converges, and not at all without a call. -/
theorem C100_once (lib : FitLib) (kind : FitKind) (range spectrum : List ℝ) (pos height : Option ℝ) (cs : List FitCall)
    (p : FitParams) (v : List (Option ℝ))
    (hf : lib.curveFit kind range spectrum (FitObject.new kind range spectrum pos height).start = .done p v) :
    ((FitObject.new kind range spectrum pos height).calls_ lib cs).2.calls = if cs = [] then 0 else 1 := by
  have key : ∀ (cs : List FitCall) (o : FitObject), o.cached.isSome → o.Sound lib → (o.calls_ lib cs).2.calls = o.calls := by
    intro cs
    induction cs with
    | nil => intros; rfl
    | cons c cs ih =>
      intro o hc hs
      obtain ⟨-, h2⟩ := o.call_spec lib hs c
      obtain ⟨r, hr⟩ := Option.isSome_iff_exists.1 hc
      have hp : (o.parameters lib).2 = o := by unfold FitObject.parameters; rw [hr]
      simp only [FitObject.calls_]
      rw [h2, hp, ih o hc hs]
  cases cs with
  | nil => rfl
  | cons c cs =>
    set o := FitObject.new kind range spectrum pos height with ho
    have hs : o.Sound lib := by intro p v e; simp [ho, FitObject.new] at e
    obtain ⟨-, h2⟩ := o.call_spec lib hs c
    obtain ⟨-, hs', -⟩ := o.parameters_spec lib hs
    have hp : (o.parameters lib).2 = { o with cached := some (p, v), calls := o.calls + 1 } := by
      unfold FitObject.parameters
      have : o.cached = none := rfl
      rw [this]
      have hk : o.kind = kind := rfl
      have hr : o.range = range := rfl
      have hy : o.spectrum = spectrum := rfl
      rw [← hk, ← hr, ← hy] at hf
      dsimp only
      rw [hf]
    simp only [FitObject.calls_, List.cons_ne_nil, if_false]
    rw [h2, key cs _ (by rw [hp]; rfl) hs', hp]
    rfl

/-- C100: a fit that does not converge (or fails otherwise) is tried again by every call. -/
theorem C100_retry (lib : FitLib) (kind : FitKind) (range spectrum : List ℝ) (pos height : Option ℝ) (cs : List FitCall)
    (hf : lib.curveFit kind range spectrum (FitObject.new kind range spectrum pos height).start = .notConverged ∨ lib.curveFit kind range spectrum (FitObject.new kind range spectrum pos height).start = .failed) :
    ((FitObject.new kind range spectrum pos height).calls_ lib cs).2.calls = cs.length := by
  set o₀ := FitObject.new kind range spectrum pos height with ho
  have key : ∀ (cs : List FitCall) (o : FitObject) (n : ℕ), o = { o₀ with calls := n } → (o.calls_ lib cs).2.calls = n + cs.length := by
    intro cs
    induction cs with
    | nil => rintro o n rfl; rfl
    | cons c cs ih =>
      rintro o n rfl
      have hs : ({ o₀ with calls := n } : FitObject).Sound lib := by intro p v e; simp [ho, FitObject.new] at e
      obtain ⟨-, h2⟩ := ({ o₀ with calls := n } : FitObject).call_spec lib hs c
      have hp : (({ o₀ with calls := n } : FitObject).parameters lib).2 = { o₀ with calls := n + 1 } := by
        unfold FitObject.parameters
        rw [show ({ o₀ with calls := n } : FitObject).cached = none from rfl]
        change (match lib.curveFit kind range spectrum o₀.start with
          | .done p v => (Except.ok (p, v), ({ o₀ with cached := some (p, v), calls := n + 1 } : FitObject))
          | .notConverged => (.error FitError.runtime, { o₀ with calls := n + 1 })
          | .failed => (.error FitError.other, { o₀ with calls := n + 1 })).2 = _
        rcases hf with hf | hf <;> rw [hf] <;> rfl
      simp only [FitObject.calls_, List.length_cons]
      rw [h2, hp, ih _ (n + 1) rfl]
      omega
  have := key cs o₀ 0 rfl
  simpa using this

/-- C100: a fit that does not converge is reported as such by every `get_fitting`, and `get_curve` raises RuntimeError every time. -/
theorem C100_failure (lib : FitLib) (kind : FitKind) (range spectrum : List ℝ) (pos height : Option ℝ)
    (hf : lib.curveFit kind range spectrum (FitObject.new kind range spectrum pos height).start = .notConverged) (cs : List FitCall) :
    ∀ (i : ℕ) (a : FitAnswer), ((FitObject.new kind range spectrum pos height).calls_ lib cs).1[i]? = some a →
      (cs[i]? = some FitCall.fitting → a = FitAnswer.fitting (.ok none)) ∧
      (∀ xs, cs[i]? = some (FitCall.curve xs) → a = FitAnswer.curve (.error .runtime)) := by
  intro i a h
  rw [C100_history, List.getElem?_map] at h
  have hp : ((FitObject.new kind range spectrum pos height).parameters lib).1 = .error .runtime := by
    unfold FitObject.parameters
    simp only [FitObject.new] at hf ⊢
    rw [hf]
  rcases e : (FitObject.new kind range spectrum pos height).parameters lib with ⟨r, o'⟩
  rw [e] at hp
  dsimp only at hp
  subst hp
  constructor
  · intro hc
    rw [hc] at h
    simp only [Option.map_some, FitObject.call, FitObject.fitting, e, Option.some.injEq] at h
    exact h.symm
  · intro xs hc
    rw [hc] at h
    simp only [Option.map_some, FitObject.call, FitObject.curve, e, Option.some.injEq] at h
    exact h.symm

/-- C100: without both guesses the optimiser starts from its own default, with both from the position and the height given. -/
theorem C100_start (kind : FitKind) (range spectrum : List ℝ) (pos height : Option ℝ) :
    ((pos = none ∨ height = none) → (FitObject.new kind range spectrum pos height).start = none) ∧
    (∀ x y, pos = some x → height = some y → ∃ p, (FitObject.new kind range spectrum pos height).start = some p ∧ p.a = x ∧ p.c = y ∧ p.d = 0 ∧ p.s = 0) := by
  constructor
  · rintro (h | h) <;> subst h <;> [rfl; (cases pos <;> rfl)]
  · rintro x y rfl rfl; exact ⟨_, rfl, rfl, rfl, rfl, rfl⟩

theorem FitObject.report_of_fitting (lib : FitLib) (o : FitObject) (r : FitReport) (o' : FitObject) (h : o.fitting lib = (.ok (some r), o')) :
    ∃ p v, (o.parameters lib) = (.ok (p, v), o') ∧ r = o'.report lib p (averageError (standardErrors v)) ∧
      errorIsNan (averageError (standardErrors v)) r.area = false := by
  unfold FitObject.fitting at h
  rcases e : o.parameters lib with ⟨(_ | _) | ⟨p, v⟩, o''⟩
  · rw [e] at h; simp at h
  · rw [e] at h; simp at h
  · rw [e] at h
    simp only [Prod.mk.injEq, Except.ok.injEq] at h
    obtain ⟨h1, h2⟩ := h
    subst h2
    by_cases hn : errorIsNan (averageError (standardErrors v)) (o''.report lib p (averageError (standardErrors v))).area = true
    · rw [if_pos hn] at h1; simp at h1
    · rw [if_neg hn, Option.some.injEq] at h1
      exact ⟨p, v, rfl, h1.symm, by rw [← h1]; simpa using hn⟩

theorem FitObject.curve_of_parameters (lib : FitLib) (o o' : FitObject) (p : FitParams) (v : List (Option ℝ))
    (e : (o.parameters lib) = (.ok (p, v), o')) (xs : List ℝ) : (o'.curve lib xs).1 = .ok (xs.map (o'.kind.function p)) := by
  have : o'.cached = some (p, v) := by
    unfold FitObject.parameters at e
    split at e
    · rename_i r hr
      simp only [Prod.mk.injEq, Except.ok.injEq] at e
      rw [← e.2, ← e.1]; exact hr
    · split at e
      · simp only [Prod.mk.injEq, Except.ok.injEq] at e
        rw [← e.2, ← e.1.1, ← e.1.2]
      · simp at e
      · simp at e
  unfold FitObject.curve FitObject.parameters
  rw [this]

theorem FitObject.parameters_kind (lib : FitLib) (o : FitObject) : (o.parameters lib).2.kind = o.kind := by
  unfold FitObject.parameters
  split
  · rfl
  · split <;> rfl

/-- C100: the curve that is drawn is the one reported. For a Lorentzian it is determined by position, width, area and base line of the
report: `get_curve` gives, at every frequency, the Lorentzian of that area and that full width, above the base line. -/
theorem C100_lorentzian_curve (lib : FitLib) (o o' : FitObject) (hk : o.kind = .lorentzian) (r : FitReport)
    (h : o.fitting lib = (.ok (some r), o')) (hw : r.width ≠ 0) (xs : List ℝ) :
    (o'.curve lib xs).1 = .ok (xs.map fun x => r.area / π * ((r.width / 2) / ((x - r.position) ^ 2 + (r.width / 2) ^ 2)) + r.baseLine) := by
  obtain ⟨p, v, e, hr, -⟩ := o.report_of_fitting lib r o' h
  have hk' : o'.kind = .lorentzian := by have := o.parameters_kind lib; rw [e] at this; exact this.trans hk
  rw [o.curve_of_parameters lib o' p v e]
  congr 1
  apply List.map_congr_left
  intro x _
  simp only [FitObject.report, hk'] at hr
  subst hr
  dsimp only at hw ⊢
  rw [hk']
  simp only [FitKind.function, lorentzian]
  have hb : p.b ≠ 0 := by intro h; apply hw; rw [h, mul_zero]
  have h0 : (x - p.a) ^ 2 + p.b ^ 2 ≠ 0 := by positivity
  have hpi := pi_pos.ne'
  have h2 : 2 * p.b / 2 = p.b := by ring
  have h3 : 1 + ((x - p.a) / p.b) ^ 2 ≠ 0 := by positivity
  rw [h2]
  field_simp
  ring

/-- C100: the damped oscillator that is drawn is determined by position, width, maximum and base line of the report. -/
theorem C100_damped_curve (lib : FitLib) (o o' : FitObject) (hk : o.kind = .damped) (r : FitReport)
    (h : o.fitting lib = (.ok (some r), o')) (hw : r.width ≠ 0) (hp : r.position ≠ 0) (xs : List ℝ) :
    (o'.curve lib xs).1 = .ok (xs.map fun x => (r.maximum - r.baseLine) * (r.position * r.width) ^ 2 /
      ((r.position ^ 2 - x ^ 2) ^ 2 + (r.width * x) ^ 2) + r.baseLine) := by
  obtain ⟨p, v, e, hr, -⟩ := o.report_of_fitting lib r o' h
  have hk' : o'.kind = .damped := by have := o.parameters_kind lib; rw [e] at this; exact this.trans hk
  rw [o.curve_of_parameters lib o' p v e]
  congr 1
  apply List.map_congr_left
  intro x _
  simp only [FitObject.report, hk'] at hr
  subst hr
  dsimp only at hw hp ⊢
  rw [hk']
  simp only [FitKind.function, dampedHarmonic]
  have hb : p.b ≠ 0 := by intro h; apply hw; rw [h, abs_zero]
  have h2 : (|p.b| * x) ^ 2 = (p.b * x) ^ 2 := by rw [mul_pow, sq_abs, mul_pow]
  have h3 : (p.a * |p.b|) ^ 2 = (p.b * p.a) ^ 2 := by rw [mul_pow, sq_abs, mul_pow, mul_comm]
  rw [h2, h3, sub_self, add_sub_cancel_right]
  have h4 : ((0 : ℝ) ^ 2 + (p.b * p.a) ^ 2) ≠ 0 := by have := mul_ne_zero hb hp; positivity
  simp only [ne_eq, OfNat.ofNat_ne_zero, not_false_eq_true, zero_pow, zero_add] at h4 ⊢
  rw [div_mul_cancel₀ _ h4]

/-- C100: the Gaussian that is drawn is determined by position, width, maximum and base line of the report. -/
theorem C100_gaussian_curve (lib : FitLib) (o o' : FitObject) (hk : o.kind = .gaussian) (r : FitReport)
    (h : o.fitting lib = (.ok (some r), o')) (xs : List ℝ) :
    (o'.curve lib xs).1 = .ok (xs.map fun x => (r.maximum - r.baseLine) * exp (-(x - r.position) ^ 2 / (2 * r.width ^ 2)) + r.baseLine) := by
  obtain ⟨p, v, e, hr, -⟩ := o.report_of_fitting lib r o' h
  have hk' : o'.kind = .gaussian := by have := o.parameters_kind lib; rw [e] at this; exact this.trans hk
  rw [o.curve_of_parameters lib o' p v e]
  congr 1
  apply List.map_congr_left
  intro x _
  simp only [FitObject.report, hk'] at hr
  subst hr
  dsimp only
  rw [hk']
  simp [FitKind.function, gaussianFn, sq_abs]

/-- C100: the reported maximum is the value of the drawn curve at the reported position; for the Lorentzian it is the height above the base line. -/
theorem C100_maximum (lib : FitLib) (o o' : FitObject) (r : FitReport) (h : o.fitting lib = (.ok (some r), o')) :
    (o'.curve lib [r.position]).1 = .ok [if o.kind = .lorentzian then r.maximum + r.baseLine else r.maximum] := by
  obtain ⟨p, v, e, hr, -⟩ := o.report_of_fitting lib r o' h
  have hk' : o'.kind = o.kind := by have := o.parameters_kind lib; rw [e] at this; exact this
  rw [o.curve_of_parameters lib o' p v e, ← hk']
  simp only [FitObject.report] at hr
  cases hk : o'.kind <;> rw [hk] at hr <;> subst hr <;> simp [FitKind.function]
  unfold lorentzian
  simp [mul_comm]

/-- C100, violated: the reported maximum of a Lorentzian with a base line is not the height of the curve at its peak, as it is for the other functions. -/
theorem C100_maximum_violated (lib : FitLib) (o o' : FitObject) (hk : o.kind = .lorentzian) (r : FitReport)
    (h : o.fitting lib = (.ok (some r), o')) (hb : r.baseLine ≠ 0) : (o'.curve lib [r.position]).1 ≠ .ok [r.maximum] := by
  rw [C100_maximum lib o o' r h, if_pos hk]
  simpa using hb

/-- C100: an accepted fit has a non-negative area, so no accepted fit has a negative one. -/
theorem C100_area (lib : FitLib) (o o' : FitObject) (r : FitReport) (h : o.fitting lib = (.ok (some r), o')) : 0 ≤ r.area := by
  obtain ⟨p, v, -, -, hn⟩ := o.report_of_fitting lib r o' h
  simp only [errorIsNan, Bool.or_eq_false_iff, decide_eq_false_iff_not, not_lt] at hn
  exact hn.1

/-- C100: the reported global error is the mean of the standard errors of position and half width, divided by the square root of the
reported area; it is finite exactly if both variances are and the area is not 0. -/
theorem C100_error (lib : FitLib) (o o' : FitObject) (r : FitReport) (h : o.fitting lib = (.ok (some r), o')) (p : FitParams) (v0 v1 : Option ℝ)
    (vs : List (Option ℝ)) (hp : (o.parameters lib).1 = .ok (p, v0 :: v1 :: vs)) :
    (r.globalError = none ↔ v0 = none ∨ v1 = none ∨ r.area = 0) ∧
    ∀ x y, v0 = some x → v1 = some y → r.area ≠ 0 → r.globalError = some ((√x + √y) / 2 / √r.area) := by
  obtain ⟨p', v', e, hr, -⟩ := o.report_of_fitting lib r o' h
  rw [e] at hp
  simp only [Except.ok.injEq, Prod.mk.injEq] at hp
  obtain ⟨rfl, rfl⟩ := hp
  have hg : r.globalError = globalError (averageError (standardErrors (v0 :: v1 :: vs))) r.area := by
    simp only [FitObject.report] at hr
    cases hk : o'.kind <;> rw [hk] at hr <;> rw [hr]
  rw [hg]
  have hav : averageError (standardErrors (v0 :: v1 :: vs)) = v0.bind fun x => v1.map fun y => (√x + √y) / 2 := by
    cases v0 <;> cases v1 <;> simp [averageError, standardErrors]
  rw [hav]
  unfold globalError
  constructor
  · cases v0 <;> cases v1 <;> simp
  · rintro x y rfl rfl ha
    simp [ha]

/-- C100: a fit may be reported as unsuccessful although its curve is drawn without complaint (negative area). -/
theorem C100_drawn (lib : FitLib) (o : FitObject) (hk : o.kind = .lorentzian) (hc : o.cached = none) (p : FitParams) (v : List (Option ℝ))
    (hf : lib.curveFit o.kind o.range o.spectrum o.start = .done p v) (hneg : p.c < 0) (xs : List ℝ) :
    (o.fitting lib).1 = .ok none ∧ (o.curve lib xs).1 = .ok (xs.map fun x => lorentzian x p.a p.b p.c p.d) := by
  have e : o.parameters lib = (.ok (p, v), { o with cached := some (p, v), calls := o.calls + 1 }) := by
    unfold FitObject.parameters
    rw [hc]
    dsimp only
    rw [hf]
  constructor
  · simp only [FitObject.fitting, e, FitObject.report, hk]
    simp [errorIsNan, hneg]
  · simp only [FitObject.curve, e, hk]
    rfl

theorem highest_spec : ∀ (l : List ℝ) (k : ℕ) (m : ℝ), highest l = some (k, m) → l[k]? = some m ∧ (∀ y ∈ l, y ≤ m) ∧ ∀ i < k, ∀ y, l[i]? = some y → y < m := by
  intro l
  induction l with
  | nil => intro k m h; simp [highest] at h
  | cons a l ih =>
    intro k m h
    unfold highest at h
    rcases e : highest l with _ | ⟨k', m'⟩
    · rw [e] at h
      simp only [Option.some.injEq, Prod.mk.injEq] at h
      obtain ⟨rfl, rfl⟩ := h
      have hl : l = [] := by
        cases l with
        | nil => rfl
        | cons b l' =>
          exfalso
          unfold highest at e
          split at e
          · simp at e
          · split at e <;> simp at e
      subst hl
      simp
    · rw [e] at h
      obtain ⟨h1, h2, h3⟩ := ih k' m' e
      by_cases hlt : a < m'
      · simp only [hlt, if_true, Option.some.injEq, Prod.mk.injEq] at h
        obtain ⟨rfl, rfl⟩ := h
        refine ⟨by simpa using h1, ?_, ?_⟩
        · intro y hy
          rcases List.mem_cons.1 hy with rfl | hy
          · exact hlt.le
          · exact h2 y hy
        · intro i hi y hy
          cases i with
          | zero => simp only [List.getElem?_cons_zero, Option.some.injEq] at hy; rw [← hy]; exact hlt
          | succ i => simp only [List.getElem?_cons_succ] at hy; exact h3 i (by omega) y hy
      · simp only [hlt, if_false, Option.some.injEq, Prod.mk.injEq] at h
        obtain ⟨rfl, rfl⟩ := h
        refine ⟨by simp, ?_, by simp⟩
        intro y hy
        rcases List.mem_cons.1 hy with rfl | hy
        · exact le_refl _
        · exact (h2 y hy).trans (not_lt.1 hlt)

/-- C100: the analysis of a branch starts the optimiser at the frequency and the height of the first highest point of its spectrum. -/
theorem C100_guess (number : ℕ) (range spectrum : List ℝ) (o : FitObject) (h : branchFit number range spectrum = some o) :
    ∃ (p : FitParams) (k : ℕ), o.start = some p ∧ spectrum[k]? = some p.c ∧ range[k]? = some p.a ∧ (∀ y ∈ spectrum, y ≤ p.c) ∧
      (∀ i < k, ∀ y, spectrum[i]? = some y → y < p.c) ∧ o.range = range ∧ o.spectrum = spectrum ∧
      ((number = 0 ∧ o.kind = .lorentzian) ∨ (number = 1 ∧ o.kind = .asymmetric) ∨ (number = 2 ∧ o.kind = .damped)) := by
  unfold branchFit at h
  obtain ⟨⟨k, m⟩, h1, h⟩ := Option.bind_eq_some_iff.1 h
  obtain ⟨pos, h2, h⟩ := Option.bind_eq_some_iff.1 h
  obtain ⟨kind, h3, h⟩ := Option.map_eq_some_iff.1 h
  obtain ⟨g1, g2, g3⟩ := highest_spec spectrum k m h1
  subst h
  refine ⟨_, k, rfl, g1, h2, g2, g3, rfl, rfl, ?_⟩
  unfold fitKindOfNumber at h3
  split at h3
  · left; simp only [Option.some.injEq] at h3; subst h3; exact ⟨rfl, rfl⟩
  · right; left; simp only [Option.some.injEq] at h3; subst h3; exact ⟨rfl, rfl⟩
  · right; right; simp only [Option.some.injEq] at h3; subst h3; exact ⟨rfl, rfl⟩
  · simp at h3

/-! ## C101 -/

/-- `w` is the full width at half maximum of the peak at `pos`: on the domain `D` the curve is at least half its height above the base line
exactly in an interval of length `w` around `pos`. -/
def IsFWHM (D : Set ℝ) (f : ℝ → ℝ) (base pos w : ℝ) : Prop :=
  ∃ l r, l ∈ D ∧ r ∈ D ∧ l < pos ∧ pos < r ∧ w = r - l ∧ ∀ x ∈ D, ((f pos - base) / 2 ≤ f x - base ↔ l ≤ x ∧ x ≤ r)

theorem IsFWHM.unique (D : Set ℝ) (f : ℝ → ℝ) (base pos w w' : ℝ) (h : IsFWHM D f base pos w) (h' : IsFWHM D f base pos w') : w = w' := by
  obtain ⟨l, r, hl, hr, h1, h2, h3, h4⟩ := h
  obtain ⟨l', r', hl', hr', h1', h2', h3', h4'⟩ := h'
  have a1 := (h4' l hl).1 ((h4 l hl).2 ⟨le_refl _, (h1.trans h2).le⟩)
  have a2 := (h4' r hr).1 ((h4 r hr).2 ⟨(h1.trans h2).le, le_refl _⟩)
  have a3 := (h4 l' hl').1 ((h4' l' hl').2 ⟨le_refl _, (h1'.trans h2').le⟩)
  have a4 := (h4 r' hr').1 ((h4' r' hr').2 ⟨(h1'.trans h2').le, le_refl _⟩)
  have e1 : l = l' := le_antisymm a3.1 a1.1
  have e2 : r = r' := le_antisymm a2.2 a4.2
  rw [h3, h3', e1, e2]

/-- C101: the width of an accepted Lorentzian (positive width and height) is the full width at half maximum of the curve that is drawn. -/
theorem C101_lorentzian (lib : FitLib) (o o' : FitObject) (hk : o.kind = .lorentzian) (r : FitReport)
    (h : o.fitting lib = (.ok (some r), o')) (hw : 0 < r.width) (hm : 0 < r.maximum) (F : ℝ → ℝ) (hF : ∀ x, (o'.curve lib [x]).1 = .ok [F x]) :
    IsFWHM Set.univ F r.baseLine r.position r.width := by
  have hF' : ∀ x, F x = r.area / π * ((r.width / 2) / ((x - r.position) ^ 2 + (r.width / 2) ^ 2)) + r.baseLine := by
    intro x
    have := hF x
    rw [C100_lorentzian_curve lib o o' hk r h hw.ne'] at this
    simpa using this.symm
  have hA : 0 < r.area := by
    obtain ⟨p, v, e, hr, -⟩ := o.report_of_fitting lib r o' h
    have hk' : o'.kind = .lorentzian := by have := o.parameters_kind lib; rw [e] at this; exact this.trans hk
    simp only [FitObject.report, hk'] at hr
    subst hr
    dsimp only at hw hm ⊢
    have hb : 0 < p.b * π := mul_pos (by linarith) pi_pos
    exact (div_pos_iff_of_pos_right hb).1 hm
  refine ⟨r.position - r.width / 2, r.position + r.width / 2, trivial, trivial, by linarith, by linarith, by ring, ?_⟩
  intro x _
  rw [hF', hF', add_sub_cancel_right, add_sub_cancel_right, sub_self]
  set w := r.width / 2 with hwd
  have hw' : 0 < w := by rw [hwd]; linarith
  have hd : 0 < (x - r.position) ^ 2 + w ^ 2 := by positivity
  have hpi := pi_pos
  have e1 : r.area / π * (w / (0 ^ 2 + w ^ 2)) / 2 = (r.area / π * w) * (1 / (2 * w ^ 2)) := by field_simp; ring
  have e2 : r.area / π * (w / ((x - r.position) ^ 2 + w ^ 2)) = (r.area / π * w) * (1 / ((x - r.position) ^ 2 + w ^ 2)) := by ring
  rw [e1, e2, mul_le_mul_iff_right₀ (by positivity), one_div_le_one_div (by positivity) hd]
  have e3 : (x - r.position) ^ 2 + w ^ 2 ≤ 2 * w ^ 2 ↔ (x - r.position) ^ 2 ≤ w ^ 2 := by constructor <;> intro <;> linarith
  rw [e3, sq_le_sq, abs_of_pos hw', abs_le]
  constructor
  · rintro ⟨h1, h2⟩; constructor <;> linarith
  · rintro ⟨h1, h2⟩; constructor <;> linarith

/-- C101, exact width of the damped oscillator. -/
theorem damped_fwhm (F : ℝ → ℝ) (a b m d : ℝ) (ha : 0 < a) (hb : 0 < b) (hm : d < m) (hab : 5 * b ^ 2 ≤ 2 * a ^ 2)
    (hF : ∀ x, F x = (m - d) * (a * b) ^ 2 / ((a ^ 2 - x ^ 2) ^ 2 + (b * x) ^ 2) + d) :
    ∃ w, IsFWHM (Set.Ici 0) F d a w ∧ b < w ∧ w ^ 2 ≤ b ^ 2 * (1 + 2 * (b / a) ^ 2) := by
  have ha2 : 0 < a ^ 2 := by positivity
  have hb2 : 0 < b ^ 2 := by positivity
  set A := a ^ 2 - b ^ 2 / 2 with hA
  set S := √(a ^ 2 * b ^ 2 + b ^ 4 / 4) with hS
  have hS2 : S ^ 2 = a ^ 2 * b ^ 2 + b ^ 4 / 4 := by rw [hS]; exact sq_sqrt (by positivity)
  have hS0 : 0 < S := by rw [hS]; positivity
  have hprod : (A - S) * (A + S) = a ^ 2 * (a ^ 2 - 2 * b ^ 2) := by
    have : (A - S) * (A + S) = A ^ 2 - S ^ 2 := by ring
    rw [this, hS2, hA]; ring
  have hApos : 0 < A + S := by rw [hA]; nlinarith
  have hAmpos : 0 < A - S := by
    have : 0 < (A - S) * (A + S) := by rw [hprod]; exact mul_pos ha2 (by nlinarith)
    exact (pos_iff_pos_of_mul_pos this).2 hApos
  set l := √(A - S) with hl
  set r := √(A + S) with hr
  have hl2 : l ^ 2 = A - S := sq_sqrt hAmpos.le
  have hr2 : r ^ 2 = A + S := sq_sqrt hApos.le
  have hl0 : 0 < l := sqrt_pos.2 hAmpos
  have hr0 : 0 < r := sqrt_pos.2 hApos
  have hSb : b ^ 2 / 2 < S := by
    apply lt_of_pow_lt_pow_left₀ 2 hS0.le
    rw [hS2]
    have : 0 < a ^ 2 * b ^ 2 := by positivity
    nlinarith
  have hla : l < a := by
    apply lt_of_pow_lt_pow_left₀ 2 ha.le
    rw [hl2, hA]; linarith
  have har : a < r := by
    apply lt_of_pow_lt_pow_left₀ 2 hr0.le
    rw [hr2, hA]; linarith
  have hlr : (l * r) ^ 2 = a ^ 2 * (a ^ 2 - 2 * b ^ 2) := by rw [mul_pow, hl2, hr2, hprod]
  have hw2 : (r - l) ^ 2 = 2 * a ^ 2 - b ^ 2 - 2 * (l * r) := by
    have : (r - l) ^ 2 = r ^ 2 + l ^ 2 - 2 * (l * r) := by ring
    rw [this, hl2, hr2, hA]; ring
  refine ⟨r - l, ⟨l, r, hl0.le, hr0.le, hla, har, rfl, ?_⟩, ?_, ?_⟩
  · intro x hx
    have hx0 : (0 : ℝ) ≤ x := hx
    rw [hF, hF, add_sub_cancel_right, add_sub_cancel_right, sub_self]
    have hden : 0 < (a ^ 2 - x ^ 2) ^ 2 + (b * x) ^ 2 := by
      rcases hx0.eq_or_lt with rfl | hx1
      · simp only [ne_eq, OfNat.ofNat_ne_zero, not_false_eq_true, zero_pow, sub_zero, mul_zero, add_zero]; positivity
      · positivity
    have hmd : 0 < m - d := by linarith
    have e1 : (m - d) * (a * b) ^ 2 / (0 ^ 2 + (b * a) ^ 2) / 2 = ((m - d) * (a * b) ^ 2) * (1 / (2 * (a * b) ^ 2)) := by field_simp; ring
    have e2 : (m - d) * (a * b) ^ 2 / ((a ^ 2 - x ^ 2) ^ 2 + (b * x) ^ 2) = ((m - d) * (a * b) ^ 2) * (1 / ((a ^ 2 - x ^ 2) ^ 2 + (b * x) ^ 2)) := by ring
    rw [e1, e2, mul_le_mul_iff_right₀ (by positivity), one_div_le_one_div (by positivity) hden]
    have e3 : (a ^ 2 - x ^ 2) ^ 2 + (b * x) ^ 2 ≤ 2 * (a * b) ^ 2 ↔ (x ^ 2 - A) ^ 2 ≤ S ^ 2 := by
      have : (x ^ 2 - A) ^ 2 - S ^ 2 = ((a ^ 2 - x ^ 2) ^ 2 + (b * x) ^ 2) - 2 * (a * b) ^ 2 := by rw [hS2, hA]; ring
      constructor <;> intro h <;> linarith
    rw [e3, sq_le_sq, abs_of_pos hS0, abs_le]
    have hxl : l ≤ x ↔ A - S ≤ x ^ 2 := by rw [← hl2]; exact (pow_le_pow_iff_left₀ hl0.le hx0 (by norm_num)).symm
    have hxr : x ≤ r ↔ x ^ 2 ≤ A + S := by rw [← hr2]; exact (pow_le_pow_iff_left₀ hx0 hr0.le (by norm_num)).symm
    rw [hxl, hxr]
    constructor
    · rintro ⟨h1, h2⟩; constructor <;> linarith
    · rintro ⟨h1, h2⟩; constructor <;> linarith
  · apply lt_of_pow_lt_pow_left₀ 2 (by linarith)
    rw [hw2]
    have : l * r < a ^ 2 - b ^ 2 := by
      apply lt_of_pow_lt_pow_left₀ 2 (by linarith)
      rw [hlr]
      have h4 : 0 < b ^ 4 := by positivity
      have : (a ^ 2 - b ^ 2) ^ 2 = a ^ 2 * (a ^ 2 - 2 * b ^ 2) + b ^ 4 := by ring
      linarith
    linarith
  · rw [hw2]
    have hq : a ^ 2 * (b / a) ^ 2 = b ^ 2 := by rw [div_pow]; field_simp
    set t := (b / a) ^ 2 with ht
    have ht0 : 0 < t := by rw [ht]; positivity
    have ht1 : 5 * t ≤ 2 := by
      have : a ^ 2 * (5 * t) ≤ a ^ 2 * 2 := by linarith
      exact le_of_mul_le_mul_left this ha2
    have : a ^ 2 * (1 - t - t ^ 2) ≤ l * r := by
      have h1 : (a ^ 2 * (1 - t - t ^ 2)) ^ 2 ≤ (l * r) ^ 2 := by
        rw [hlr, ← hq]
        have : a ^ 2 * (a ^ 2 - 2 * (a ^ 2 * t)) = (a ^ 2) ^ 2 * (1 - 2 * t) := by ring
        rw [this, mul_pow]
        apply mul_le_mul_of_nonneg_left _ (by positivity)
        have : (1 - 2 * t) - (1 - t - t ^ 2) ^ 2 = t ^ 2 * (1 - 2 * t - t ^ 2) := by ring
        have h3 : 0 ≤ 1 - 2 * t - t ^ 2 := by nlinarith
        have h4 : 0 ≤ t ^ 2 * (1 - 2 * t - t ^ 2) := mul_nonneg (by positivity) h3
        linarith
      exact le_of_sq_le_sq h1 (by positivity)
    have e5 : b ^ 2 * (1 + 2 * t) = a ^ 2 * t * (1 + 2 * t) := by rw [hq]
    have e6 : 2 * a ^ 2 - b ^ 2 = 2 * a ^ 2 - a ^ 2 * t := by rw [hq]
    rw [e5, e6]
    have e7 : a ^ 2 * t * (1 + 2 * t) = 2 * a ^ 2 - a ^ 2 * t - 2 * (a ^ 2 * (1 - t - t ^ 2)) := by ring
    linarith

/-- C101: the width reported for a damped oscillator (a peak above the base line, not wider than 0.63 times its position) is below the full
width at half maximum of the curve that is drawn, by a factor of at most the square root of `1 + 2 (width/position)^2`. -/
theorem C101_damped_partial (lib : FitLib) (o o' : FitObject) (hk : o.kind = .damped) (r : FitReport)
    (h : o.fitting lib = (.ok (some r), o')) (hw : r.width ≠ 0) (hp : 0 < r.position) (hm : r.baseLine < r.maximum)
    (hab : 5 * r.width ^ 2 ≤ 2 * r.position ^ 2) (F : ℝ → ℝ) (hF : ∀ x, (o'.curve lib [x]).1 = .ok [F x]) :
    ∃ w, IsFWHM (Set.Ici 0) F r.baseLine r.position w ∧ r.width < w ∧ w ^ 2 ≤ r.width ^ 2 * (1 + 2 * (r.width / r.position) ^ 2) := by
  have hw0 : 0 < r.width := by
    obtain ⟨p, v, e, hr, -⟩ := o.report_of_fitting lib r o' h
    have hk' : o'.kind = .damped := by have := o.parameters_kind lib; rw [e] at this; exact this.trans hk
    simp only [FitObject.report, hk'] at hr
    subst hr
    dsimp only at hw ⊢
    exact lt_of_le_of_ne (abs_nonneg _) (Ne.symm hw)
  apply damped_fwhm F _ _ _ _ hp hw0 hm hab
  intro x
  have := hF x
  rw [C100_damped_curve lib o o' hk r h hw hp.ne'] at this
  simpa using this.symm

/-- C101, violated: so it never is the full width at half maximum. -/
theorem C101_damped_violated (lib : FitLib) (o o' : FitObject) (hk : o.kind = .damped) (r : FitReport)
    (h : o.fitting lib = (.ok (some r), o')) (hw : r.width ≠ 0) (hp : 0 < r.position) (hm : r.baseLine < r.maximum)
    (hab : 5 * r.width ^ 2 ≤ 2 * r.position ^ 2) (F : ℝ → ℝ) (hF : ∀ x, (o'.curve lib [x]).1 = .ok [F x]) :
    ¬ IsFWHM (Set.Ici 0) F r.baseLine r.position r.width := by
  intro hn
  obtain ⟨w, h1, h2, -⟩ := C101_damped_partial lib o o' hk r h hw hp hm hab F hF
  rw [hn.unique _ _ _ _ _ _ h1] at h2
  exact lt_irrefl _ h2

/-- C101: the width reported for a Gaussian (displacement distributions) is the standard deviation of the drawn curve above its base line. -/
theorem C101_gaussian (lib : FitLib) (o o' : FitObject) (hk : o.kind = .gaussian) (r : FitReport)
    (h : o.fitting lib = (.ok (some r), o')) (hw : r.width ≠ 0) (hm : r.baseLine < r.maximum) (F : ℝ → ℝ) (hF : ∀ x, (o'.curve lib [x]).1 = .ok [F x]) :
    0 < ∫ x, (F x - r.baseLine) ∧
    (∫ x, x * (F x - r.baseLine)) / (∫ x, (F x - r.baseLine)) = r.position ∧
    (∫ x, (x - r.position) ^ 2 * (F x - r.baseLine)) / (∫ x, (F x - r.baseLine)) = r.width ^ 2 := by
  have hw0 : 0 < r.width := by
    obtain ⟨p, v, e, hr, -⟩ := o.report_of_fitting lib r o' h
    have hk' : o'.kind = .gaussian := by have := o.parameters_kind lib; rw [e] at this; exact this.trans hk
    simp only [FitObject.report, hk'] at hr
    subst hr
    dsimp only at hw ⊢
    exact lt_of_le_of_ne (abs_nonneg _) (Ne.symm hw)
  have hm' : 0 < r.maximum - r.baseLine := by linarith
  have hF' : ∀ x, F x - r.baseLine = (r.maximum - r.baseLine) * exp (-(x - r.position) ^ 2 / (2 * r.width ^ 2)) := by
    intro x
    have := hF x
    rw [C100_gaussian_curve lib o o' hk r h] at this
    simp only [List.map_cons, List.map_nil, Except.ok.injEq, List.cons.injEq, and_true] at this
    rw [← this, add_sub_cancel_right]
  obtain ⟨v, hv⟩ : ∃ v : NNReal, (v : ℝ) = r.width ^ 2 := ⟨⟨r.width ^ 2, by positivity⟩, rfl⟩
  have hv0 : v ≠ 0 := by
    rintro rfl
    rw [NNReal.coe_zero] at hv
    exact (pow_ne_zero 2 hw) hv.symm
  obtain ⟨K, hK, hFK⟩ : ∃ K : ℝ, 0 < K ∧ ∀ x, F x - r.baseLine = K * ProbabilityTheory.gaussianPDFReal r.position v x := by
    have hs : 0 < √(2 * π * v) := by rw [hv]; have := pi_pos; positivity
    refine ⟨(r.maximum - r.baseLine) * √(2 * π * v), by positivity, ?_⟩
    intro x
    rw [hF', ProbabilityTheory.gaussianPDFReal_def, hv]
    rw [hv] at hs
    field_simp
  have i0 : ∫ x, (F x - r.baseLine) = K := by
    simp_rw [hFK]
    rw [integral_const_mul, ProbabilityTheory.integral_gaussianPDFReal_eq_one _ hv0, mul_one]
  have i1 : ∫ x, x * (F x - r.baseLine) = K * r.position := by
    have := ProbabilityTheory.integral_id_gaussianReal (μ := r.position) (v := v)
    rw [ProbabilityTheory.integral_gaussianReal_eq_integral_smul hv0] at this
    rw [← this, ← integral_const_mul]
    congr 1; funext x; rw [hFK, smul_eq_mul]; ring
  have i2 : ∫ x, (x - r.position) ^ 2 * (F x - r.baseLine) = K * r.width ^ 2 := by
    have := ProbabilityTheory.variance_fun_id_gaussianReal (μ := r.position) (v := v)
    rw [ProbabilityTheory.variance_eq_integral measurable_id'.aemeasurable] at this
    simp only [ProbabilityTheory.integral_id_gaussianReal] at this
    rw [ProbabilityTheory.integral_gaussianReal_eq_integral_smul hv0, hv] at this
    rw [← this, ← integral_const_mul]
    congr 1; funext x; rw [hFK, smul_eq_mul]; ring
  rw [i0, i1, i2]
  refine ⟨hK, ?_, ?_⟩ <;> field_simp

/-- C101: for an asymmetric Lorentzian fitted without asymmetry the width is the full width at half maximum, if minimize_scalar finds the highest point. -/
theorem C101_asymmetric_partial (lib : FitLib) (o o' : FitObject) (hk : o.kind = .asymmetric) (r : FitReport)
    (h : o.fitting lib = (.ok (some r), o')) (hs : r.asymmetry = some 0) (hw : 0 < r.width) (hm : r.baseLine < r.maximum)
    (F : ℝ → ℝ) (hF : ∀ x, (o'.curve lib [x]).1 = .ok [F x]) (hmax : ∀ x, F x ≤ F r.position) :
    IsFWHM Set.univ F r.baseLine r.position r.width := by
  obtain ⟨p, v, e, hr, -⟩ := o.report_of_fitting lib r o' h
  have hk' : o'.kind = .asymmetric := by have := o.parameters_kind lib; rw [e] at this; exact this.trans hk
  have hF' : ∀ x, F x = lorentzianAsym x p.a p.b p.c p.d p.s := by
    intro x
    have := hF x
    rw [o.curve_of_parameters lib o' p v e, hk'] at this
    simpa [FitKind.function] using this.symm
  simp only [FitObject.report, hk'] at hr
  have hps : p.s = 0 := by rw [hr] at hs; simpa using hs
  have hpb : r.width = 2 * p.b := by rw [hr]; dsimp only; rw [hps, (C45_symmetric _ p.a p.b p.c p.d).2]
  have hpd : r.baseLine = p.d := by rw [hr]
  have hb : 0 < p.b := by linarith
  have hmF : r.maximum = F r.position := by rw [hF', hr]; simp [FitKind.function]
  have hL : ∀ x, F x = p.c / (p.b * π) * (1 / (1 + ((x - p.a) / p.b) ^ 2)) + p.d := by
    intro x
    rw [hF', hps, (C45_symmetric _ p.a p.b p.c p.d).1, lorentzian_eq _ _ _ _ _ hb]
  have hpi := pi_pos
  have hc : 0 < p.c / (p.b * π) := by
    rw [hmF, hpd, hL] at hm
    have h1 : 0 < p.c / (p.b * π) * (1 / (1 + ((r.position - p.a) / p.b) ^ 2)) := by linarith
    exact (pos_iff_pos_of_mul_pos h1).2 (by positivity)
  have hpos : r.position = p.a := by
    have := hmax p.a
    rw [hL, hL] at this
    have h1 : p.c / (p.b * π) * (1 / (1 + ((p.a - p.a) / p.b) ^ 2)) ≤ p.c / (p.b * π) * (1 / (1 + ((r.position - p.a) / p.b) ^ 2)) := by linarith
    rw [mul_le_mul_iff_right₀ hc, one_div_le_one_div (by positivity) (by positivity)] at h1
    rw [sub_self, zero_div] at h1
    have h2 : ((r.position - p.a) / p.b) ^ 2 ≤ 0 := by linarith
    have h3 : (r.position - p.a) / p.b = 0 := by
      have := le_antisymm h2 (sq_nonneg _)
      exact pow_eq_zero_iff (by norm_num) |>.1 this
    rcases div_eq_zero_iff.1 h3 with h4 | h4
    · linarith
    · exact absurd h4 hb.ne'
  refine ⟨p.a - p.b, p.a + p.b, trivial, trivial, by linarith, by linarith, by rw [hpb]; ring, ?_⟩
  intro x _
  rw [hpd, hpos, hL, hL, add_sub_cancel_right, add_sub_cancel_right]
  have e1 : p.c / (p.b * π) * (1 / (1 + ((p.a - p.a) / p.b) ^ 2)) / 2 = p.c / (p.b * π) * (1 / 2) := by simp; ring
  rw [e1, mul_le_mul_iff_right₀ hc, one_div_le_one_div (by norm_num) (by positivity)]
  have e3 : 1 + ((x - p.a) / p.b) ^ 2 ≤ 2 ↔ ((x - p.a) / p.b) ^ 2 ≤ 1 := by constructor <;> intro <;> linarith
  rw [e3, div_pow, div_le_one (by positivity), sq_le_sq, abs_of_pos hb, abs_le]
  constructor
  · rintro ⟨h1, h2⟩; constructor <;> linarith
  · rintro ⟨h1, h2⟩; constructor <;> linarith

/-! A library whose optimiser returns position 5, width parameter 1/5, c = 3, base line 1/100: the hypotheses are met. -/

/-- A library for the examples: constant answers. -/
noncomputable def exampleLib : FitLib :=
  { curveFit := fun _ _ _ _ => .done { a := 5, b := 1 / 5, c := 3, d := 1 / 100, s := 0 } [some 1, some 4]
    quad := fun _ _ _ => 1
    argmin := fun _ _ _ => 5 }

theorem exampleLib_fit (kind : FitKind) : ∃ r o', (FitObject.new kind [1, 5, 9] [0, 2, 0] (some 5) (some 2)).fitting exampleLib = (.ok (some r), o') ∧
    0 < r.width ∧ r.position = 5 ∧ r.baseLine = 1 / 100 ∧ r.baseLine < r.maximum ∧ 5 * r.width ^ 2 ≤ 2 * r.position ^ 2 := by
  have hav : averageError (standardErrors [some 1, some 4]) = some (3 / 2) := by
    have : √(4 : ℝ) = 2 := by rw [show (4 : ℝ) = 2 ^ 2 by norm_num]; exact sqrt_sq (by norm_num)
    simp [averageError, standardErrors, this]; norm_num
  have hpi := pi_pos
  have hcall : ∀ k, ((FitObject.new k [1, 5, 9] [0, 2, 0] (some 5) (some 2)).fitting exampleLib).1 =
      .ok (some ((FitObject.new k [1, 5, 9] [0, 2, 0] (some 5) (some 2)).report exampleLib { a := 5, b := 1 / 5, c := 3, d := 1 / 100, s := 0 } (some (3 / 2)))) := by
    intro k
    have e : (FitObject.new k [1, 5, 9] [0, 2, 0] (some 5) (some 2)).parameters exampleLib =
        (.ok ({ a := 5, b := 1 / 5, c := 3, d := 1 / 100, s := 0 }, [some 1, some 4]),
          { FitObject.new k [1, 5, 9] [0, 2, 0] (some 5) (some 2) with
            cached := some ({ a := 5, b := 1 / 5, c := 3, d := 1 / 100, s := 0 }, [some 1, some 4]), calls := 1 }) := rfl
    have hn : errorIsNan (some (3 / 2)) ((FitObject.new k [1, 5, 9] [0, 2, 0] (some 5) (some 2)).report exampleLib
        { a := 5, b := 1 / 5, c := 3, d := 1 / 100, s := 0 } (some (3 / 2))).area = false := by
      cases k <;> norm_num [errorIsNan, FitObject.report, FitObject.new, exampleLib]
    unfold FitObject.fitting
    rw [e]
    dsimp only
    rw [hav, FitObject.report_congr exampleLib { FitObject.new k [1, 5, 9] [0, 2, 0] (some 5) (some 2) with
            cached := some ({ a := 5, b := 1 / 5, c := 3, d := 1 / 100, s := 0 }, [some 1, some 4]), calls := 1 }
            (FitObject.new k [1, 5, 9] [0, 2, 0] (some 5) (some 2)) rfl rfl, hn]
    rfl
  refine ⟨_, _, Prod.ext (hcall kind) rfl, ?_⟩
  cases kind
  all_goals
    refine ⟨?_, rfl, rfl, ?_, ?_⟩
    all_goals norm_num [FitObject.report, FitObject.new, exampleLib, FitKind.function, dampedHarmonic, gaussianFn, lorentzianAsym, lorentzian, asymWidth]
    all_goals first
      | positivity
      | (rw [lt_div_iff₀ (by positivity)]; linarith [pi_lt_four])

/-- The hypotheses of C100_failure and C100_drawn are met. -/
example : ∃ lib : FitLib, lib.curveFit .damped [1, 2] [0, 1] (FitObject.new .damped [1, 2] [0, 1] none none).start = .notConverged :=
  ⟨{ exampleLib with curveFit := fun _ _ _ _ => .notConverged }, rfl⟩

example : ∃ lib : FitLib, ∃ p v, lib.curveFit .lorentzian [1, 2] [0, -1] (FitObject.new .lorentzian [1, 2] [0, -1] none none).start = .done p v ∧ p.c < 0 :=
  ⟨{ exampleLib with curveFit := fun _ _ _ _ => .done { a := 5, b := 1, c := -3, d := 0, s := 0 } [] }, _, _, rfl, by norm_num⟩

example : branchFit 2 [1, 5, 9] [0, 2, 1] = some (FitObject.new .damped [1, 5, 9] [0, 2, 1] (some 5) (some 2)) := by
  have : highest [0, 2, 1] = some (1, 2) := by norm_num [highest]
  simp [branchFit, this, fitKindOfNumber]

end Verif
