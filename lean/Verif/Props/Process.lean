import Verif.Model.Process
import Verif.Props.Quasi

/-! # C35: settings of two calculations in one process -/

set_option autoImplicit false
set_option linter.unusedSectionVars false

namespace Verif

/-- C35, violated: a second calculation in the same process does not start from the default settings but from those the
first one left. -/
theorem C35_defaults_violated : ∃ (dflt : QSettings ℚ ℤ), dflt.freq.Valid ∧ ∃ p : Proc ℚ (List ℚ) ℤ,
    p = ((({} : Proc ℚ (List ℚ) ℤ).new dflt).call 0 (·.setQ 7)).new dflt ∧
    (p.settings 1).map (·.q) = some 7 ∧ dflt.q ≠ 7 :=
  ⟨demoSettings, demo_valid, _, rfl, by decide +kernel, by decide +kernel⟩

/-- C35, violated: a setter called on one object changes the settings of the other one, whose caches are not cleared: its
eigenvectors are still those of the old wave vector, not those a new object with the same settings gives. -/
theorem C35_shared_violated : ∃ (env : QEnv ℚ (List ℚ) ℤ) (dflt : QSettings ℚ ℤ), dflt.freq.Valid ∧
    ∃ p : Proc ℚ (List ℚ) ℤ,
    p = (((({} : Proc ℚ (List ℚ) ℤ).new dflt).new dflt).call 1 (fun o => (o.getEig env).1)).call 0 (·.setQ 7) ∧
    (p.settings 1).map (·.q) = some 7 ∧
    p.result 1 (fun o => (o.getEig env).2) ≠ p.result 1 (fun o => ((Quasi.fresh o.s : Quasi ℚ (List ℚ) ℤ).getEig env).2) :=
  ⟨demoEnv, demoSettings, demo_valid, _, rfl, by decide +kernel, by decide +kernel⟩

variable {K V Q : Type*}

theorem call_single (s : QSettings K Q) (o : Quasi K V Q) (hs : o.s = s) (f : Quasi K V Q → Quasi K V Q) :
    (⟨some s, [o]⟩ : Proc K V Q).call 0 f = ⟨some (f o).s, [f o]⟩ := by
  subst hs; rfl

/-- C35 (part): a process that makes only one object works as if the settings belonged to that object: after any sequence
of method calls the settings and the caches are those of the object alone. Missing, and false: several objects. -/
theorem C35_single_partial (dflt : QSettings K Q) (l : List (Quasi K V Q → Quasi K V Q)) :
    l.foldl (fun p f => p.call 0 f) (({} : Proc K V Q).new dflt) =
      ⟨some (l.foldl (fun o f => f o) (Quasi.fresh dflt)).s, [l.foldl (fun o f => f o) (Quasi.fresh dflt)]⟩ := by
  have key : ∀ (l : List (Quasi K V Q → Quasi K V Q)) (o : Quasi K V Q),
      l.foldl (fun p f => p.call 0 f) (⟨some o.s, [o]⟩ : Proc K V Q) =
        ⟨some (l.foldl (fun o f => f o) o).s, [l.foldl (fun o f => f o) o]⟩ := by
    intro l
    induction l with
    | nil => intro o; rfl
    | cons f l ih => intro o; rw [List.foldl_cons, List.foldl_cons, call_single _ _ rfl]; exact ih (f o)
  exact key l (Quasi.fresh dflt)

/-- C35, what happens instead: in any process all objects always work with the same settings. -/
theorem C35_all_share (p : Proc K V Q) (i j : ℕ) (s t : QSettings K Q) (hi : p.settings i = some s) (hj : p.settings j = some t) :
    s = t := by
  unfold Proc.settings Proc.result at hi hj
  cases hp : p.instances <;> cases h1 : p.objs[i]? <;> cases h2 : p.objs[j]? <;> simp_all

/-! ## C73: changes of the trajectory or the force constants -/

/-- C73, violated: cropping the trajectory (`crop_trajectory`, dynaphopy/__init__.py:48-56) or setting quasi-harmonic force
constants (lines 1446-1448) changes the numerical kernels (`env` becomes `env'`) but clears no cache: results computed before are
returned afterwards, for every pair of environments that differ. -/
theorem C73_crop_violated [Field K] [LinearOrder K] [IsStrictOrderedRing K] [FloorRing K] [DecidableEq Q]
    (env env' : QEnv K V Q) (s : QSettings K Q)
    (h : env.proj s.q s.projAtom ≠ env'.proj s.q s.projAtom) :
    let o := ((Quasi.fresh s : Quasi K V Q).getVc env).1
    (o.getVc env').2 ≠ ((Quasi.fresh o.s : Quasi K V Q).getVc env').2 := h

theorem C73_qha_violated [Field K] [LinearOrder K] [IsStrictOrderedRing K] [FloorRing K] [DecidableEq Q]
    (env env' : QEnv K V Q) (hd : 0 < env.dosLimit) (s : QSettings K Q) (hs : s.freq.Valid)
    (hd' : env'.dosLimit = env.dosLimit) (h : specCom env s ≠ specCom env' s) :
    let o := ((Quasi.fresh s : Quasi K V Q).getCom env).1
    (o.getCom env').2 ≠ ((Quasi.fresh s : Quasi K V Q).getCom env').2 := by
  intro o
  have g := (QInv.fresh (V := V) env s hs).getCom hd
  have g' := (QInv.fresh (V := V) env' s hs).getCom (by rw [hd']; exact hd)
  have hc : o.com = some (specCom env s) := by
    have : o.com = some ((Quasi.fresh s : Quasi K V Q).getCom env).2 := by
      show ((Quasi.fresh s : Quasi K V Q).getCom env).1.com = _
      unfold Quasi.getCom
      simp [Quasi.fresh]
    rw [this, g.2.2.1]; rfl
  have : (o.getCom env').2 = specCom env s := by unfold Quasi.getCom; rw [hc]
  rw [this, g'.2.2.1]
  exact h

/-- The hypotheses of both are met: other projections, another fit. -/
example : demoEnv.proj demoSettings.q demoSettings.projAtom ≠
    ({ demoEnv with proj := fun q p => [7, q, p] } : QEnv ℚ (List ℚ) ℤ).proj demoSettings.q demoSettings.projAtom := by
  decide +kernel
example : specCom demoEnv demoSettings ≠
    specCom ({ demoEnv with fit := fun _ _ _ _ _ _ => ([9, 9, 9], [9, 9, 9]) } : QEnv ℚ (List ℚ) ℤ) demoSettings := by
  intro h
  have := congrArg (fun l => l.map (·.freqs)) h
  revert this
  decide +kernel

end Verif
