import Verif.Model.Parameters
import Mathlib.Data.List.Induction

/-! # C62, C35, C81: parameters -/

set_option autoImplicit false
set_option linter.unusedSectionVars false

namespace Verif

section
variable {V : Type*}

/-! ## C62 -/

theorem getterAttr_injective : Function.Injective getterAttr := by
  intro p q h
  cases p <;> cases q <;> first | rfl | (exfalso; revert h; decide +kernel)

theorem setterAttr_eq_getterAttr (p q : ParamName) (hp : p ≠ .save_renormalized_frequencies) : setterAttr p = getterAttr q ↔ p = q := by
  have : setterAttr p = getterAttr p := by cases p <;> first | rfl | exact absurd rfl hp
  rw [this]
  exact getterAttr_injective.eq_iff

theorem setterAttr_save (q : ParamName) : getterAttr q ≠ setterAttr .save_renormalized_frequencies := by
  cases q <;> decide +kernel

/-- Assigning a property: the getter of the same property returns the value, the getter of any other what it returned before. -/
theorem getParam_setParam (s : Attrs V) (p q : ParamName) (v : V) (hp : p ≠ .save_renormalized_frequencies) :
    getParam (setParam s p v) q = if p = q then some v else getParam s q := by
  unfold getParam setParam setAttr
  rw [Function.update_apply]
  have := setterAttr_eq_getterAttr p q hp
  by_cases h : p = q
  · rw [if_pos (this.2 h).symm, if_pos h]
  · rw [if_neg fun e => h (this.1 e.symm), if_neg h]

/-- The last value that a history of assignments gives to `p`. -/
def lastAssigned (p : ParamName) (history : List (ParamName × V)) : Option V := ((history.filter fun a => a.1 = p).getLast?).map (·.2)

/-- **C62**, for every property but `save_renormalized_frequencies`: after any history of assignments (to any properties), reading the property gives the last value assigned to it, and what it was before
if there is none. -/
theorem C62_set_partial (s : Attrs V) (history : List (ParamName × V)) (p : ParamName) (hp : p ≠ .save_renormalized_frequencies) :
    getParam (history.foldl (fun s a => setParam s a.1 a.2) s) p = (lastAssigned p history).or (getParam s p) := by
  induction history using List.reverseRecOn with
  | nil => simp [lastAssigned]
  | append_singleton t a ih =>
    rw [List.foldl_append, List.foldl_cons, List.foldl_nil]
    unfold lastAssigned
    rw [List.filter_append]
    by_cases ha : a.1 = p
    · rw [getParam_setParam _ _ _ _ (by rw [ha]; exact hp), if_pos ha]
      simp [ha]
    · have : getParam (setParam (t.foldl (fun s a => setParam s a.1 a.2) s) a.1 a.2) p = getParam (t.foldl (fun s a => setParam s a.1 a.2) s) p := by
        by_cases h : a.1 = .save_renormalized_frequencies
        · unfold getParam setParam setAttr
          rw [h, Function.update_apply, if_neg (setterAttr_save p)]
        · rw [getParam_setParam _ _ _ _ h, if_neg ha]
      rw [this, ih]
      simp [ha, lastAssigned]

/-- C62 is violated for `save_renormalized_frequencies`: no history of assignments changes it. -/
theorem C62_save_violated (s : Attrs V) (history : List (ParamName × V)) :
    getParam (history.foldl (fun s a => setParam s a.1 a.2) s) .save_renormalized_frequencies = getParam s .save_renormalized_frequencies := by
  induction history using List.reverseRecOn with
  | nil => rfl
  | append_singleton t a ih =>
    rw [List.foldl_append, List.foldl_cons, List.foldl_nil, ← ih]
    by_cases h : a.1 = .save_renormalized_frequencies
    · unfold getParam setParam setAttr
      rw [h, Function.update_apply, if_neg (setterAttr_save _)]
    · rw [getParam_setParam _ _ _ _ h, if_neg h]

/-- All properties exist from the start and have their default values. -/
theorem C62_default (defaults : ParamName → V) (p : ParamName) : getParam (paramInit defaults) p = some (defaults p) := by
  unfold getParam paramInit
  have : allParams.find? (fun q => getterAttr q = getterAttr p) = some p := by cases p <;> decide +kernel
  rw [this]; rfl

/-- Loading a dictionary: each property takes the value of the dictionary if there is one, and is unchanged otherwise; keys that are not attributes are ignored. -/
theorem C62_dict (s : Attrs V) (d : String → Option V) (p : ParamName) (hs : getParam s p ≠ none) :
    getParam (getDataFromDict s d) p = (d (getterAttr p)).or (getParam s p) ∧ ∀ a, s a = none → getDataFromDict s d a = none := by
  constructor
  · unfold getParam getDataFromDict at *
    cases h1 : s (getterAttr p) with
    | none => exact absurd h1 hs
    | some x => cases d (getterAttr p) <;> rfl
  · intro a ha
    unfold getDataFromDict
    rw [ha]

/-! ## C81 -/

theorem getParam_setAttr_degenerate (s : Attrs V) (v : V) (p : ParamName) : getParam (setAttr s "degenerate" v) p = getParam s p := by
  unfold getParam setAttr
  rw [Function.update_apply, if_neg (by cases p <;> decide +kernel)]

theorem getParam_setParam_save (s : Attrs V) (v : V) (p : ParamName) : getParam (setParam s .save_renormalized_frequencies v) p = getParam s p := by
  unfold getParam setParam setAttr
  rw [Function.update_apply, if_neg (setterAttr_save p)]

/-- **C81**, the part that holds: the options `--silent`, `--MD_commensurate`, `--nac` and `--symprec` set their parameters, and the parameters without option are those of the input file. -/
theorem C81_options_partial (s : Attrs V) (input : String → Option V) (a : CmdArgs V) :
    getParam (scriptParameters s input a) .silent = some a.silent ∧ getParam (scriptParameters s input a) .use_MD_cell_commensurate = some a.mdCommensurate ∧
    getParam (scriptParameters s input a) .use_NAC = some a.nac ∧ getParam (scriptParameters s input a) .symprec = some a.symprec ∧
    (∀ p, p ∉ [ParamName.silent, .use_MD_cell_commensurate, .use_NAC, .symprec] → getParam (scriptParameters s input a) p = getParam (getDataFromDict s input) p) := by
  have key : ∀ p, getParam (scriptParameters s input a) p =
      if ParamName.symprec = p then some a.symprec else if ParamName.use_NAC = p then some a.nac else if ParamName.use_MD_cell_commensurate = p then some a.mdCommensurate else
        if ParamName.silent = p then some a.silent else getParam (getDataFromDict s input) p := by
    intro p
    unfold scriptParameters
    rw [getParam_setParam _ _ _ _ (by decide), getParam_setParam _ _ _ _ (by decide), getParam_setParam_save, getParam_setParam _ _ _ _ (by decide), getParam_setAttr_degenerate,
      getParam_setParam _ _ _ _ (by decide)]
  refine ⟨by rw [key]; rfl, by rw [key]; rfl, by rw [key]; rfl, by rw [key]; rfl, fun p hp => ?_⟩
  simp only [List.mem_cons, List.not_mem_nil, or_false, not_or] at hp
  rw [key, if_neg (Ne.symm hp.2.2.2), if_neg (Ne.symm hp.2.2.1), if_neg (Ne.symm hp.2.1), if_neg (Ne.symm hp.1)]

/-- C81 is violated: no parameter depends on the options `--fcsymm` and `--save_renormalized_frequencies`. -/
theorem C81_ignored_violated (s : Attrs V) (input : String → Option V) (a : CmdArgs V) (x y : V) (p : ParamName) :
    getParam (scriptParameters s input { a with fcsymm := x, saveRenormalizedFrequencies := y }) p = getParam (scriptParameters s input a) p := by
  by_cases hp : p ∈ [ParamName.silent, .use_MD_cell_commensurate, .use_NAC, .symprec]
  · simp only [List.mem_cons, List.not_mem_nil, or_false] at hp
    obtain ⟨h1, h2, h3, h4, -⟩ := C81_options_partial s input a
    obtain ⟨k1, k2, k3, k4, -⟩ := C81_options_partial s input { a with fcsymm := x, saveRenormalizedFrequencies := y }
    rcases hp with rfl | rfl | rfl | rfl
    · rw [h1, k1]
    · rw [h2, k2]
    · rw [h3, k3]
    · rw [h4, k4]
  · rw [(C81_options_partial s input a).2.2.2.2 p hp, (C81_options_partial s input _).2.2.2.2 p hp]

/-! ## C35 -/

/-- The invariant of the singleton: at most one object, and all calculations use it. -/
def Shared (h : ProcessState V) : Prop :=
  (h.inst = none ∧ h.objects = [] ∧ h.calcs = []) ∨ (h.inst = some 0 ∧ h.objects.length = 1 ∧ ∀ a ∈ h.calcs, a = 0)

theorem shared_run (defaults : ParamName → V) (h : ProcessState V) (hs : Shared h) (op : CalcOp V) : Shared (op.run defaults h) := by
  cases op with
  | create =>
    unfold CalcOp.run newCalculation newParameters
    rcases hs with ⟨h1, h2, h3⟩ | ⟨h1, h2, h3⟩
    · right; simp [h1, h2, h3]
    · right
      simp only [h1, List.mem_append, List.mem_singleton]
      exact ⟨trivial, h2, fun a ha => ha.elim (h3 a) id⟩
  | set i p v =>
    show Shared (calcSet h i p v)
    unfold calcSet
    cases hc : h.calcs[i]? with
    | none => exact hs
    | some a =>
      rcases hs with ⟨h1, h2, h3⟩ | ⟨h1, h2, h3⟩
      · left; simp [h1, h2, h3]
      · right; exact ⟨h1, by rw [List.length_modify]; exact h2, h3⟩

/-- C35 is violated: in every process, whatever it did before, all calculations have the same parameters; so an assignment in one calculation is an assignment in all others. -/
theorem C35_process_shared_violated (defaults : ParamName → V) (ops : List (CalcOp V)) (i j : ℕ) (p : ParamName) :
    let h := ops.foldl (CalcOp.run defaults) processStart
    i < h.calcs.length → j < h.calcs.length → calcParam h i p = calcParam h j p := by
  intro h hi hj
  have hs : Shared h := by
    have : ∀ (ops : List (CalcOp V)) (h0 : ProcessState V), Shared h0 → Shared (ops.foldl (CalcOp.run defaults) h0) := by
      intro ops
      induction ops with
      | nil => intro h0 hh; exact hh
      | cons o t ih => intro h0 hh; exact ih _ (shared_run defaults h0 hh o)
    exact this ops _ (Or.inl ⟨rfl, rfl, rfl⟩)
  have hz : ∀ k < h.calcs.length, h.calcs[k]? = some 0 := by
    intro k hk
    rcases hs with ⟨_, _, h3⟩ | ⟨_, _, h3⟩
    · rw [h3] at hk; simp at hk
    · rw [List.getElem?_eq_getElem hk, h3 _ (List.getElem_mem hk)]
  unfold calcParam
  rw [hz i hi, hz j hj]

/-- A new calculation does not start from the default parameters, but from those another calculation left. -/
theorem C35_process_default_violated (defaults : ParamName → V) (ops : List (CalcOp V)) (p : ParamName) :
    let h := ops.foldl (CalcOp.run defaults) processStart
    0 < h.calcs.length → calcParam (newCalculation defaults h) h.calcs.length p = calcParam h 0 p := by
  intro h h0
  have := C35_process_shared_violated defaults (ops ++ [.create]) h.calcs.length 0 p
  simp only [List.foldl_append, List.foldl_cons, List.foldl_nil, CalcOp.run] at this
  have hl : (newCalculation defaults h).calcs.length = h.calcs.length + 1 := by
    unfold newCalculation newParameters
    cases h.inst <;> simp
  rw [show List.foldl (CalcOp.run defaults) processStart ops = h from rfl] at this
  rw [this (by rw [hl]; omega) (by rw [hl]; omega)]
  have hs : Shared h := by
    have : ∀ (ops : List (CalcOp V)) (h0 : ProcessState V), Shared h0 → Shared (ops.foldl (CalcOp.run defaults) h0) := by
      intro ops
      induction ops with
      | nil => intro h0 hh; exact hh
      | cons o t ih => intro h0 hh; exact ih _ (shared_run defaults h0 hh o)
    exact this ops _ (Or.inl ⟨rfl, rfl, rfl⟩)
  rcases hs with ⟨_, _, h3⟩ | ⟨h1, _, _⟩
  · rw [h3] at h0; simp at h0
  · unfold calcParam newCalculation newParameters
    simp only [h1]
    rw [List.getElem?_append_left h0]

/-- C35 is violated, in terms of an assignment: after any history, a value assigned through one calculation is what every calculation of the process reads. -/
theorem C35_process_assign_violated (defaults : ParamName → V) (ops : List (CalcOp V)) (i j : ℕ) (p : ParamName) (v : V) (hp : p ≠ .save_renormalized_frequencies) :
    let h := ops.foldl (CalcOp.run defaults) processStart
    i < h.calcs.length → j < h.calcs.length → calcParam (calcSet h i p v) j p = some v := by
  intro h hi hj
  have hs : Shared h := by
    have : ∀ (ops : List (CalcOp V)) (h0 : ProcessState V), Shared h0 → Shared (ops.foldl (CalcOp.run defaults) h0) := by
      intro ops
      induction ops with
      | nil => intro h0 hh; exact hh
      | cons o t ih => intro h0 hh; exact ih _ (shared_run defaults h0 hh o)
    exact this ops _ (Or.inl ⟨rfl, rfl, rfl⟩)
  rcases hs with ⟨_, _, h3⟩ | ⟨_, h2, h3⟩
  · rw [h3] at hi; simp at hi
  · have hz : ∀ k < h.calcs.length, h.calcs[k]? = some 0 := by
      intro k hk
      rw [List.getElem?_eq_getElem hk, h3 _ (List.getElem_mem hk)]
    obtain ⟨s, hso⟩ := List.length_eq_one_iff.1 h2
    unfold calcSet
    rw [hz i hi]
    simp only [calcParam, hz j hj, hso]
    have := C62_set_partial s [(p, v)] p hp
    simp only [List.foldl_cons, List.foldl_nil] at this
    simpa [lastAssigned] using this


/-- Two calculations; the resolution is changed in the first; the second sees the change. -/
example : calcParam (calcSet (newCalculation (fun _ => 0) (newCalculation (fun _ => 0) processStart)) 0 .spectrum_resolution 7) 1 .spectrum_resolution = some (7 : ℕ) := by
  decide +kernel

/-- What holds of C35: with a single calculation in the process, its parameters are the last values it assigned, or the defaults. -/
theorem C35_process_single_partial (defaults : ParamName → V) (history : List (ParamName × V)) (p : ParamName) (hp : p ≠ .save_renormalized_frequencies) :
    calcParam (history.foldl (fun h a => calcSet h 0 a.1 a.2) (newCalculation defaults processStart)) 0 p = some ((lastAssigned p history).getD (defaults p)) := by
  have key : ∀ (history : List (ParamName × V)) (s : Attrs V),
      history.foldl (fun h a => calcSet h 0 a.1 a.2) { inst := some 0, objects := [s], calcs := [0] } = { inst := some 0, objects := [history.foldl (fun s a => setParam s a.1 a.2) s], calcs := [0] } := by
    intro history
    induction history with
    | nil => intro s; rfl
    | cons a t ih =>
      intro s
      rw [List.foldl_cons, List.foldl_cons, ← ih]
      rfl
  have h0 : newCalculation defaults (processStart : ProcessState V) = { inst := some 0, objects := [paramInit defaults], calcs := [0] } := rfl
  rw [h0, key]
  show getParam (history.foldl (fun s a => setParam s a.1 a.2) (paramInit defaults)) p = _
  rw [C62_set_partial _ _ _ hp, C62_default]
  cases lastAssigned p history <;> rfl

end

end Verif
