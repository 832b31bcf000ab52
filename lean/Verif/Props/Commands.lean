import Verif.Model.Commands
import Verif.Props.Quasi

/-! # C102: results of the command line program -/

set_option autoImplicit false
set_option linter.unusedSectionVars false

namespace Verif

variable {K V Q : Type*} [Field K] [LinearOrder K] [IsStrictOrderedRing K] [FloorRing K] [DecidableEq Q]

/-! ## Specification -/

/-- Resolution and frequencies that the options ask for, before `-r`: with `--resolution` a grid from the first to the last frequency of the
input file. -/
def askedFreq (a : CliOptions K Q) (f : FreqSettings K) : FreqSettings K :=
  match a.resolution, f.range.head?, f.range.getLast? with
  | some r, some x, some y => { resolution := r, range := arange x (y + r) r }
  | _, _, _ => f

/-- With `-r`: a grid between the limits. -/
def askedLimits (a : CliOptions K Q) (f : FreqSettings K) : FreqSettings K :=
  match a.limits with
  | some (x, y) => { f with range := arange x (y + f.resolution) f.resolution }
  | none => f

/-- The settings that the options ask for: each option replaces the value of the input file. -/
def asked (a : CliOptions K Q) (s : QSettings K Q) (f : FreqSettings K) : QSettings K Q :=
  { q := a.q.getD s.q, alg := a.algorithm.getD s.alg, memCoef := a.mem.getD s.memCoef, freq := f, fitFn := a.fit,
    projAtom := a.project.getD s.projAtom, sym := s.sym && !a.noSymmetry, nac := a.nac, bandRanges := s.bandRanges }

/-- The options are ones the program accepts. -/
def CliOptions.Ok (a : CliOptions K Q) (types : ℕ) : Prop :=
  a.fit < 3 ∧ (∀ t, a.project = some t → 0 ≤ t ∧ t < types) ∧ (∀ n, a.algorithm = some n → n < 6)

/-- The numbers make sense: a positive resolution, ordered limits. -/
def CliOptions.Sane (a : CliOptions K Q) : Prop :=
  (∀ r, a.resolution = some r → 0 < r) ∧ (∀ x y, a.limits = some (x, y) → x ≤ y)

/-- The result of each call as a function of the settings; `b`: the force constants of the quasiparticles are known already, so that the plot
of the full power spectrum shows the renormalized density of states. -/
def taskValue (env : QEnv K V Q) (s : QSettings K Q) (b : Bool) : CliTask → CliResult K V Q
  | .saveVcHdf5 => .vcHdf5 (env.proj s.q s.projAtom) s.q
  | .saveVq => .vq (env.phon (env.proj s.q s.projAtom) (env.eig s.q))
  | .saveVc n => .vc (env.proj s.q s.projAtom) n
  | .saveForceConstants | .saveQuasiparticles | .saveMesh => .renormalized (specCom env s)
  | .saveBands => .bands (specCom env s) (s.bandRanges.getD env.seekPath) s.nac
  | .saveFull => .curve s.freq.range (specFull env s)
  | .saveWave | .plotWave => .curve s.freq.range (env.sumCols (specWave env s s.q))
  | .savePhonon | .plotPhonon => .curve s.freq.range (specPhonon env s s.q)
  | .plotFull => .fullPlot s.freq.range (specFull env s) (if b then some (specCom env s) else none)
  | .scan => .scan (env.phon (env.proj s.q s.projAtom) (env.eig s.q)) s.freq.range
  | .peaks => .peaks (specPhonon env s s.q) s.freq.range (env.frq s.q) s.q s.fitFn s.sym
  | .thermal ref => .thermal (if ref then (autoRange env s).freq.range.getLast? else s.freq.range.getLast?) (specCom env s)
      (autoRange env s).freq.range none
  | .thermalFull ref => .thermal (if ref then (autoRange env s).freq.range.getLast? else s.freq.range.getLast?) (specCom env s)
      (autoRange env s).freq.range (some (specFull env (autoRange env s)))
  | .partials => .partials s.freq.range (env.partials (specData env s))

/-- The calls that need the commensurate-point data. -/
def CliTask.usesCom : CliTask → Bool
  | .saveForceConstants | .saveBands | .saveQuasiparticles | .saveMesh | .thermal _ | .thermalFull _ => true
  | _ => false

/-! ## The options that set parameters -/

theorem setResolution_eq (f : FreqSettings K) (hf : f.Valid) (r : K) (hr : 0 < r) (a : CliOptions K Q) (ha : a.resolution = some r) :
    ∃ c, f.setResolution r = some (askedFreq a f, c) ∧ (askedFreq a f).Valid := by
  obtain ⟨s', c, x, y, e1, hx, hy, hg, hres, -⟩ := C39_resolution f hf r hr
  refine ⟨c, ?_, ?_⟩
  · rw [e1]
    unfold FreqSettings.setResolution at e1
    rw [hx, hy] at e1
    simp only [Option.some.injEq] at e1
    have hxy : x ≤ y := by
      obtain ⟨n, -, h1, h2⟩ := hg
      obtain ⟨hne, hp⟩ := hf.2
      obtain ⟨b, t, hbt⟩ := List.exists_cons_of_ne_nil hne
      rw [hbt] at hx hy hp
      simp only [List.head?_cons, Option.some.injEq] at hx
      subst hx
      have : y ∈ b :: t := List.mem_of_getLast? hy
      rcases List.mem_cons.1 this with h | h
      · exact h.ge
      · exact ((List.pairwise_cons.1 hp).1 y h).le
    have hinc := (isGrid_arange x y r hr hxy).increasing hr
    have h1 := (({ f with resolution := r } : FreqSettings K).setRange_range hf.2 _ hinc).1
    rw [e1] at h1
    have h2 : s' = askedFreq a f := by
      unfold askedFreq
      rw [ha, hx, hy]
      exact h1
    rw [h2]
  · have : askedFreq a f = s' := by
      unfold FreqSettings.setResolution at e1
      rw [hx, hy] at e1
      simp only [Option.some.injEq] at e1
      have hxy : x ≤ y := by
        obtain ⟨hne, hp⟩ := hf.2
        obtain ⟨b, t, hbt⟩ := List.exists_cons_of_ne_nil hne
        rw [hbt] at hx hy hp
        simp only [List.head?_cons, Option.some.injEq] at hx
        subst hx
        have : y ∈ b :: t := List.mem_of_getLast? hy
        rcases List.mem_cons.1 this with h | h
        · exact h.ge
        · exact ((List.pairwise_cons.1 hp).1 y h).le
      have hinc := (isGrid_arange x y r hr hxy).increasing hr
      have h1 := (({ f with resolution := r } : FreqSettings K).setRange_range hf.2 _ hinc).1
      rw [e1] at h1
      unfold askedFreq
      rw [ha, hx, hy]
      exact h1.symm
    rw [this]
    exact ⟨by rw [hres]; exact hr, hg.increasing hr⟩

theorem askedFreq_none (a : CliOptions K Q) (f : FreqSettings K) (h : a.resolution = none) : askedFreq a f = f := by
  unfold askedFreq; rw [h]

theorem askedFreq_valid (a : CliOptions K Q) (f : FreqSettings K) (hf : f.Valid) (hr : ∀ r, a.resolution = some r → 0 < r) : (askedFreq a f).Valid := by
  rcases h : a.resolution with _ | r
  · rw [askedFreq_none a f h]; exact hf
  · obtain ⟨c, -, h2⟩ := setResolution_eq f hf r (hr r h) a h; exact h2

/-- C102: the options take effect. The program ends before any result exactly if the fitting function, the atom type or the algorithm does not
exist; otherwise the calculation starts with the settings asked for, each option in place of the value of the input file, and nothing calculated yet. -/
theorem C102_options (types : ℕ) (a : CliOptions K Q) (s : QSettings K Q) (hs : s.freq.Valid) (hr : ∀ r, a.resolution = some r → 0 < r) :
    (cliSetup types a s : Option (Quasi K V Q)) = none ∧ ¬ a.Ok types ∨
    (cliSetup types a s : Option (Quasi K V Q)) = some (Quasi.fresh (asked a s (askedFreq a s.freq))) ∧ a.Ok types := by
  by_cases hok : a.Ok types
  · right
    refine ⟨?_, hok⟩
    obtain ⟨h1, h2, h3⟩ := hok
    unfold cliSetup
    have e1 : (Quasi.fresh { s with nac := a.nac } : Quasi K V Q).setFit a.fit = some (Quasi.fresh { s with nac := a.nac, fitFn := a.fit }) := by
      unfold Quasi.setFit
      rw [if_pos h1]
      by_cases h : a.fit ≠ (Quasi.fresh { s with nac := a.nac } : Quasi K V Q).s.fitFn
      · rw [if_pos h]; rfl
      · rw [if_neg h]; rw [not_not] at h
        have : a.fit = s.fitFn := h
        rw [this]
    rw [e1, Option.bind_some]
    have e2 : cliProject types a (Quasi.fresh { s with nac := a.nac, fitFn := a.fit } : Quasi K V Q) =
        some (Quasi.fresh { s with nac := a.nac, fitFn := a.fit, projAtom := a.project.getD s.projAtom }) := by
      unfold cliProject
      cases hp : a.project with
      | none => rfl
      | some t =>
        dsimp only
        rw [if_pos (h2 t hp)]
        unfold Quasi.setProj Quasi.fresh
        rw [Int.toNat_of_nonneg (h2 t hp).1]
        rfl
    rw [e2, Option.bind_some]
    have e3 : (if a.noSymmetry = true then
        { (Quasi.fresh { s with nac := a.nac, fitFn := a.fit, projAtom := a.project.getD s.projAtom } : Quasi K V Q) with
          s := { (Quasi.fresh { s with nac := a.nac, fitFn := a.fit, projAtom := a.project.getD s.projAtom } : Quasi K V Q).s with sym := false } }
        else (Quasi.fresh { s with nac := a.nac, fitFn := a.fit, projAtom := a.project.getD s.projAtom } : Quasi K V Q)) =
        Quasi.fresh { s with nac := a.nac, fitFn := a.fit, projAtom := a.project.getD s.projAtom, sym := s.sym && !a.noSymmetry } := by
      cases a.noSymmetry <;> simp [Quasi.fresh]
    rw [e3]
    have e4 : cliResolution a (Quasi.fresh { s with nac := a.nac, fitFn := a.fit, projAtom := a.project.getD s.projAtom, sym := s.sym && !a.noSymmetry } : Quasi K V Q) =
        some (Quasi.fresh { s with nac := a.nac, fitFn := a.fit, projAtom := a.project.getD s.projAtom, sym := s.sym && !a.noSymmetry, freq := askedFreq a s.freq }) := by
      unfold cliResolution
      cases hp : a.resolution with
      | none => rw [askedFreq_none a s.freq hp]
      | some r =>
        obtain ⟨c, e, -⟩ := setResolution_eq s.freq hs r (hr r hp) a hp
        dsimp only
        unfold Quasi.setResolution
        have : (Quasi.fresh { s with nac := a.nac, fitFn := a.fit, projAtom := a.project.getD s.projAtom, sym := s.sym && !a.noSymmetry } : Quasi K V Q).s.freq = s.freq := rfl
        rw [this, e]
        cases c <;> rfl
    rw [e4, Option.bind_some]
    have e5 : cliWaveVector a (Quasi.fresh { s with nac := a.nac, fitFn := a.fit, projAtom := a.project.getD s.projAtom, sym := s.sym && !a.noSymmetry, freq := askedFreq a s.freq } : Quasi K V Q) =
        Quasi.fresh { s with nac := a.nac, fitFn := a.fit, projAtom := a.project.getD s.projAtom, sym := s.sym && !a.noSymmetry, freq := askedFreq a s.freq, q := a.q.getD s.q } := by
      unfold cliWaveVector
      cases a.q with
      | none => rfl
      | some q => dsimp only; unfold Quasi.setQ; split <;> rfl
    rw [e5]
    have e6 : cliAlgorithm a (Quasi.fresh { s with nac := a.nac, fitFn := a.fit, projAtom := a.project.getD s.projAtom, sym := s.sym && !a.noSymmetry, freq := askedFreq a s.freq, q := a.q.getD s.q } : Quasi K V Q) =
        some (Quasi.fresh { s with nac := a.nac, fitFn := a.fit, projAtom := a.project.getD s.projAtom, sym := s.sym && !a.noSymmetry, freq := askedFreq a s.freq, q := a.q.getD s.q, alg := a.algorithm.getD s.alg }) := by
      unfold cliAlgorithm
      cases hp : a.algorithm with
      | none => rfl
      | some n =>
        dsimp only
        unfold Quasi.setAlg
        rw [if_pos (h3 n hp)]
        split
        · rfl
        · rename_i h; rw [not_not] at h
          have : n = s.alg := h
          rw [this]; rfl
    rw [e6, Option.map_some]
    cases hm : a.mem with
    | none => unfold asked; rw [hm]; rfl
    | some n => unfold asked; rw [hm]; rfl
  · left
    refine ⟨?_, hok⟩
    rcases e : (cliSetup types a s : Option (Quasi K V Q)) with _ | o
    · rfl
    · exfalso
      apply hok
      unfold cliSetup at e
      obtain ⟨o1, e1, e⟩ := Option.bind_eq_some_iff.1 e
      obtain ⟨o2, e2, e⟩ := Option.bind_eq_some_iff.1 e
      obtain ⟨o3, e3, e⟩ := Option.bind_eq_some_iff.1 e
      obtain ⟨o4, e4, e⟩ := Option.map_eq_some_iff.1 e
      refine ⟨?_, ?_, ?_⟩
      · unfold Quasi.setFit at e1
        by_contra hn
        rw [if_neg hn] at e1
        exact absurd e1 (by simp)
      · intro t ht
        unfold cliProject at e2
        rw [ht] at e2
        by_contra hn
        simp only [if_neg hn] at e2
        exact absurd e2 (by simp)
      · intro n hn
        unfold cliAlgorithm at e4
        rw [hn] at e4
        dsimp only at e4
        unfold Quasi.setAlg at e4
        by_contra hh
        rw [if_neg hh] at e4
        exact absurd e4 (by simp)

/-! ## The calls -/

section partialsKept
variable (env : QEnv K V Q) (o : Quasi K V Q)

theorem setQ_partials (q : Q) : (o.setQ q).psPartials = o.psPartials := by unfold Quasi.setQ Quasi.fullClear; split <;> rfl
theorem getVc_partials : (o.getVc env).1.psPartials = o.psPartials := by unfold Quasi.getVc; split <;> rfl
theorem getEig_partials : (o.getEig env).1.psPartials = o.psPartials := by unfold Quasi.getEig; split <;> rfl
theorem getFrq_partials : (o.getFrq env).1.psPartials = o.psPartials := by unfold Quasi.getFrq; split <;> rfl
theorem getVq_partials : (o.getVq env).1.psPartials = o.psPartials := by
  unfold Quasi.getVq; split
  · rfl
  · simp only [getEig_partials, getVc_partials]
theorem getFull_partials (c : ℤ) : (o.getFull env c).1.psPartials = o.psPartials := by unfold Quasi.getFull; split <;> rfl
theorem phonon_fold_partials (l : List Q) : ∀ r : Quasi K V Q × List V, (l.foldl (Quasi.phononStep env) r).1.psPartials = r.1.psPartials := by
  induction l with
  | nil => intro r; rfl
  | cons q l ih =>
    intro r
    rw [List.foldl_cons, ih]
    simp only [Quasi.phononStep, getVq_partials, setQ_partials]
theorem wave_fold_partials (l : List Q) : ∀ r : Quasi K V Q × List V, (l.foldl (Quasi.waveStep env) r).1.psPartials = r.1.psPartials := by
  induction l with
  | nil => intro r; rfl
  | cons q l ih =>
    intro r
    rw [List.foldl_cons, ih]
    simp only [Quasi.waveStep, getVc_partials, setQ_partials]
theorem getPhonon_partials : (o.getPhonon env).1.psPartials = o.psPartials := by
  unfold Quasi.getPhonon; split
  · rfl
  · split
    · simp only [setQ_partials, phonon_fold_partials]
    · simp only [getVq_partials]
theorem getWave_partials : (o.getWave env).1.psPartials = o.psPartials := by
  unfold Quasi.getWave; split
  · rfl
  · split
    · simp only [setQ_partials, wave_fold_partials, getVc_partials]
    · simp only [getVc_partials]
theorem setLimits_partials (a b : K) : (o.setLimits a b).psPartials = o.psPartials := by
  unfold Quasi.setLimits Quasi.withFreq Quasi.powerSpectraClear Quasi.forceConstantsClear Quasi.bandsClear; split <;> rfl
theorem com_fold_partials (l : List Q) : ∀ r : Quasi K V Q × List (ComEntry K V Q), (l.foldl (Quasi.comStep env) r).1.psPartials = r.1.psPartials := by
  induction l with
  | nil => intro r; rfl
  | cons q l ih =>
    intro r
    rw [List.foldl_cons, ih]
    unfold Quasi.comStep
    dsimp only
    split <;> simp only [getEig_partials, getFrq_partials, getPhonon_partials, setQ_partials]
theorem getCom_partials : (o.getCom env).1.psPartials = o.psPartials := by
  unfold Quasi.getCom; split
  · rfl
  · simp only [setQ_partials, com_fold_partials, setLimits_partials]

end partialsKept

/-- Equal settings, up to the path of the bands that has been filled in. -/
def SameSettings (env : QEnv K V Q) (s s' : QSettings K Q) : Prop := s' = s ∨ s' = { s with bandRanges := some (s.bandRanges.getD env.seekPath) }

theorem SameSettings.value {env : QEnv K V Q} {s s' : QSettings K Q} (h : SameSettings env s s') (b : Bool) (t : CliTask) : taskValue env s' b t = taskValue env s b t := by
  rcases h with rfl | rfl
  · rfl
  · cases t <;> rfl

theorem autoRange_idem (env : QEnv K V Q) (s : QSettings K Q) : autoRange env (autoRange env s) = autoRange env s := rfl

theorem SameSettings.auto {env : QEnv K V Q} {s s' : QSettings K Q} (h : SameSettings env s s') : SameSettings env (autoRange env s) (autoRange env s') := by
  rcases h with rfl | rfl
  · left; rfl
  · right; rfl

theorem getCom_isSome (env : QEnv K V Q) (o : Quasi K V Q) : (o.getCom env).1.com.isSome = true := by
  unfold Quasi.getCom
  split
  · rename_i c hc; rw [hc]; rfl
  · simp only [Quasi.setQ_com]; rfl

/-- One call on an object in a good state. -/
theorem runTask_spec {env : QEnv K V Q} (hd : 0 < env.dosLimit) {o : Quasi K V Q} (h : QInv env o) (hp : o.psPartials = none) (s : QSettings K Q)
    (hs : SameSettings env s o.s) (b : Bool) (hb : o.com.isSome = b) (t : CliTask) :
    (runTask env o t).2 = taskValue env s b t ∧ (runTask env o t).1.com.isSome = (t.usesCom || b) ∧ QInv env (runTask env o t).1 ∧ (t ≠ .partials → (runTask env o t).1.psPartials = none) ∧
    SameSettings env (if t.usesCom then autoRange env s else s) (runTask env o t).1.s := by
  rw [← hs.value b t]
  have hc := h.getCom hd
  have hcc : (o.getCom env).1.com.isSome = true := getCom_isSome env o
  cases t with
  | saveVcHdf5 =>
    have g := h.getVc
    refine ⟨?_, (congrArg Option.isSome g.com).trans hb, g.inv, fun _ => (getVc_partials env o).trans hp, ?_⟩
    · simp only [runTask, taskValue, g.val, g.s]
    · simp only [runTask, CliTask.usesCom]; rw [g.s]; exact hs
  | saveVq =>
    have g := h.getVq
    refine ⟨?_, (congrArg Option.isSome g.com).trans hb, g.inv, fun _ => (getVq_partials env o).trans hp, ?_⟩
    · simp only [runTask, taskValue, g.val]
    · simp only [runTask, CliTask.usesCom]; rw [g.s]; exact hs
  | saveVc n =>
    have g := h.getVc
    refine ⟨?_, (congrArg Option.isSome g.com).trans hb, g.inv, fun _ => (getVc_partials env o).trans hp, ?_⟩
    · simp only [runTask, taskValue, g.val]
    · simp only [runTask, CliTask.usesCom]; rw [g.s]; exact hs
  | saveForceConstants | saveQuasiparticles | saveMesh =>
    refine ⟨?_, hcc, hc.1, fun _ => (getCom_partials env o).trans hp, ?_⟩
    · simp only [runTask, taskValue, hc.2.2.1]
    · simp only [runTask, CliTask.usesCom]; rw [hc.2.2.2]; exact hs.auto
  | saveBands =>
    have hb : (autoRange env o.s).bandRanges = o.s.bandRanges := rfl
    refine ⟨?_, hcc, ?_, fun _ => (getCom_partials env o).trans hp, ?_⟩
    · simp only [runTask, taskValue, hc.2.2.1, hc.2.2.2]; rfl
    · have i := hc.1
      simp only [runTask]
      exact ⟨i.valid, i.eig, i.frq, i.vc, i.vq, i.phonon, i.wave, i.full, i.bands, i.com⟩
    · simp only [runTask, CliTask.usesCom]
      rw [hc.2.2.2]
      rcases hs with e | e
      · right; rw [e]; rfl
      · right; rw [e]; rfl
  | saveFull =>
    have g := h.getFull
    refine ⟨?_, (congrArg Option.isSome g.com).trans hb, g.inv, fun _ => (getFull_partials env o _).trans hp, ?_⟩
    · simp only [runTask, taskValue, g.val]
    · simp only [runTask, CliTask.usesCom]; rw [g.s]; exact hs
  | saveWave | plotWave =>
    have g := h.getWave
    refine ⟨?_, (congrArg Option.isSome g.com).trans hb, g.inv, fun _ => (getWave_partials env o).trans hp, ?_⟩
    · simp only [runTask, taskValue, g.val]
    · simp only [runTask, CliTask.usesCom]; rw [g.s]; exact hs
  | savePhonon | plotPhonon =>
    have g := h.getPhonon
    refine ⟨?_, (congrArg Option.isSome g.com).trans hb, g.inv, fun _ => (getPhonon_partials env o).trans hp, ?_⟩
    · simp only [runTask, taskValue, g.val]
    · simp only [runTask, CliTask.usesCom]; rw [g.s]; exact hs
  | plotFull =>
    have g := h.getFull
    refine ⟨?_, (congrArg Option.isSome g.com).trans hb, g.inv, fun _ => (getFull_partials env o _).trans hp, ?_⟩
    · simp only [runTask, taskValue, g.val, g.com]
      rcases hoc : o.com with _ | c
      · rw [hoc] at hb; rw [← hb]; rfl
      · rw [hoc] at hb; rw [← hb, (h.com c hoc).2]; rfl
    · simp only [runTask, CliTask.usesCom]; rw [g.s]; exact hs
  | scan =>
    have g := h.getVq
    refine ⟨?_, (congrArg Option.isSome g.com).trans hb, g.inv, fun _ => (getVq_partials env o).trans hp, ?_⟩
    · simp only [runTask, taskValue, g.val, g.s]
    · simp only [runTask, CliTask.usesCom]; rw [g.s]; exact hs
  | peaks =>
    have g := h.getPhonon
    have g2 := g.inv.getFrq
    refine ⟨?_, (congrArg Option.isSome (g2.com.trans g.com)).trans hb, g2.inv, fun _ => ((getFrq_partials env _).trans (getPhonon_partials env o)).trans hp, ?_⟩
    · simp only [runTask, taskValue, g.val, g.s, g2.val, g2.s]
    · simp only [runTask, CliTask.usesCom]; rw [g2.s, g.s]; exact hs
  | thermal ref =>
    refine ⟨?_, hcc, hc.1, fun _ => (getCom_partials env o).trans hp, ?_⟩
    · simp only [runTask, taskValue, hc.2.2.1, hc.2.2.2]
    · simp only [runTask, CliTask.usesCom]; rw [hc.2.2.2]; exact hs.auto
  | thermalFull ref =>
    have g := hc.1.getFull
    refine ⟨?_, (congrArg Option.isSome g.com).trans hcc, g.inv, fun _ => ((getFull_partials env _ _).trans (getCom_partials env o)).trans hp, ?_⟩
    · simp only [runTask, taskValue, hc.2.2.1, hc.2.2.2, g.val]
    · simp only [runTask, CliTask.usesCom]; rw [g.s, hc.2.2.2]; exact hs.auto
  | partials =>
    have e : o.getPartials env = ({ o with psPartials := some (env.partials (o.spectrum env)) }, env.partials (o.spectrum env)) := by
      unfold Quasi.getPartials; rw [hp]
    refine ⟨?_, by rw [← hb]; simp only [runTask, e]; rfl, ?_, fun hn => absurd rfl hn, ?_⟩
    · simp only [runTask, e, taskValue]; rfl
    · simp only [runTask, e]
      exact ⟨h.valid, h.eig, h.frq, h.vc, h.vq, h.phonon, h.wave, h.full, h.bands, h.com⟩
    · simp only [runTask, e, CliTask.usesCom]; exact hs

theorem runTasks_fst (env : QEnv K V Q) (ts : List CliTask) : ∀ o : Quasi K V Q, (runTasks env o ts).2.map Prod.fst = ts := by
  induction ts with
  | nil => intro o; rfl
  | cons t ts ih => intro o; simp only [runTasks, List.map_cons, ih]

/-- Calls one after the other; the partials only as the last one. -/
theorem runTasks_spec {env : QEnv K V Q} (hd : 0 < env.dosLimit) (ts : List CliTask) : ∀ {o : Quasi K V Q}, QInv env o → o.psPartials = none →
    ∀ s, SameSettings env s o.s → ∀ b : Bool, o.com.isSome = b → (∀ i t, ts[i]? = some t → t = .partials → i + 1 = ts.length) →
    (∀ i t r, (runTasks env o ts).2[i]? = some (t, r) → r = taskValue env (if (ts.take i).any CliTask.usesCom then autoRange env s else s) ((ts.take i).any CliTask.usesCom || b) t) ∧
    QInv env (runTasks env o ts).1 ∧
    (CliTask.partials ∉ ts → (runTasks env o ts).1.psPartials = none) ∧
    (runTasks env o ts).1.com.isSome = (ts.any CliTask.usesCom || b) ∧
    SameSettings env (if ts.any CliTask.usesCom then autoRange env s else s) (runTasks env o ts).1.s := by
  induction ts with
  | nil =>
    intro o h hp s hs b hb _
    exact ⟨fun i t r e => by simp [runTasks] at e, h, fun _ => hp, by simpa [runTasks] using hb, by simpa [runTasks] using hs⟩
  | cons t ts ih =>
    intro o h hp s hs b hb hl
    obtain ⟨h1, hb', h2, h3, h4⟩ := runTask_spec hd h hp s hs b hb t
    by_cases ht : t = .partials
    · have : ts = [] := by
        have := hl 0 t (by simp) ht
        simpa using this
      subst this
      subst ht
      refine ⟨?_, h2, fun hn => absurd (by simp) hn, by simpa [runTasks] using hb', ?_⟩
      · intro i t' r e
        cases i with
        | zero =>
          simp only [runTasks, List.getElem?_cons_zero, Option.some.injEq, Prod.mk.injEq] at e
          obtain ⟨rfl, rfl⟩ := e
          simpa using h1
        | succ i => simp [runTasks] at e
      · simpa [runTasks] using h4
    · have hl' : ∀ i t', ts[i]? = some t' → t' = .partials → i + 1 = ts.length := by
        intro i t' e e'
        have := hl (i + 1) t' (by simpa using e) e'
        simpa using this
      obtain ⟨i1, i2, i3, ib, i4⟩ := ih h2 (h3 ht) _ h4 _ hb' hl'
      have key : ∀ b : Bool, (if b = true then autoRange env (if t.usesCom = true then autoRange env s else s) else if t.usesCom = true then autoRange env s else s) =
          if (t.usesCom || b) = true then autoRange env s else s := by
        intro b; cases b <;> cases t.usesCom <;> rfl
      refine ⟨?_, i2, ?_, ?_, ?_⟩
      · intro i t' r e
        cases i with
        | zero =>
          simp only [runTasks, List.getElem?_cons_zero, Option.some.injEq, Prod.mk.injEq] at e
          obtain ⟨rfl, rfl⟩ := e
          simpa using h1
        | succ i =>
          simp only [runTasks, List.getElem?_cons_succ] at e
          rw [i1 i t' r e, key]
          simp only [List.take_succ_cons, List.any_cons]
          congr 1
          cases t.usesCom <;> cases (ts.take i).any CliTask.usesCom <;> rfl
      · intro hn
        exact i3 (fun hm => hn (List.mem_cons_of_mem _ hm))
      · simp only [runTasks, List.any_cons]
        rw [ib]
        cases t.usesCom <;> cases ts.any CliTask.usesCom <;> rfl
      · rw [key] at i4
        exact i4

/-! ## C102 -/

theorem early_usesCom (a : CliOptions K Q) (t : CliTask) (h : t ∈ a.earlyTasks) : t.usesCom = false ∧ t ≠ .partials := by
  unfold CliOptions.earlyTasks at h
  simp only [List.mem_append] at h
  rcases h with (h | h) | h
  · split at h
    · rw [List.mem_singleton.1 h]; exact ⟨rfl, by simp⟩
    · exact absurd h (by simp)
  · split at h
    · rw [List.mem_singleton.1 h]; exact ⟨rfl, by simp⟩
    · exact absurd h (by simp)
  · split at h
    · rw [List.mem_singleton.1 h]; exact ⟨rfl, by simp⟩
    · exact absurd h (by simp)

theorem late_partials (a : CliOptions K Q) : ∀ (i : ℕ) t, a.lateTasks[i]? = some t → t = .partials → i + 1 = a.lateTasks.length := by
  have key : ∃ l, a.lateTasks = l ++ (if a.partials then [.partials] else []) ∧ CliTask.partials ∉ l := by
    refine ⟨_, rfl, ?_⟩
    simp only [List.mem_append, not_or]
    refine ⟨⟨⟨⟨⟨⟨⟨⟨⟨⟨⟨⟨⟨?_, ?_⟩, ?_⟩, ?_⟩, ?_⟩, ?_⟩, ?_⟩, ?_⟩, ?_⟩, ?_⟩, ?_⟩, ?_⟩, ?_⟩, ?_⟩ <;> split <;> simp
  obtain ⟨l, hl, hn⟩ := key
  intro i t hi ht
  subst ht
  rw [hl] at hi ⊢
  by_cases h : i < l.length
  · rw [List.getElem?_append_left h] at hi
    exact absurd (List.mem_of_getElem? hi) hn
  · rw [List.getElem?_append_right (by omega)] at hi
    cases hp : a.partials
    · rw [hp] at hi; simp at hi
    · rw [hp] at hi
      rw [List.length_append]
      have : i - l.length < 1 := by
        by_contra hh
        rw [List.getElem?_eq_none (by simp; omega)] at hi
        exact absurd hi (by simp)
      simp; omega

/-- The settings after the options that are applied before the first result. -/
def earlySettings (a : CliOptions K Q) (s : QSettings K Q) : QSettings K Q := asked a s (askedFreq a s.freq)

/-- The settings with all the options. -/
def lateSettings (a : CliOptions K Q) (s : QSettings K Q) : QSettings K Q := asked a s (askedLimits a (askedFreq a s.freq))

/-- C102: what the program writes. There is one result for each request, in a fixed order. The velocity files belong to the settings asked for (they do
not depend on the frequencies); each further result is the value for the settings asked for, except that after the first result that needs the
quasiparticles the frequencies are those of the automatic range. -/
theorem C102_results (env : QEnv K V Q) (hd : 0 < env.dosLimit) (types : ℕ) (a : CliOptions K Q) (s : QSettings K Q) (hs : s.freq.Valid) (ha : a.Sane)
    (outs : List (CliTask × CliResult K V Q)) (h : cliRun env types a s = some outs) :
    outs.map Prod.fst = a.earlyTasks ++ a.lateTasks ∧
    (∀ (i : ℕ) t r, i < a.earlyTasks.length → outs[i]? = some (t, r) → r = taskValue env (earlySettings a s) false t) ∧
    ∀ (i : ℕ) t r, outs[a.earlyTasks.length + i]? = some (t, r) →
      r = taskValue env (if ∃ t' ∈ a.lateTasks.take i, t'.usesCom then autoRange env (lateSettings a s) else lateSettings a s)
        (decide (∃ t' ∈ a.lateTasks.take i, t'.usesCom)) t := by
  obtain ⟨hc, hok⟩ | ⟨hc, hok⟩ := C102_options (V := V) types a s hs ha.1
  · unfold cliRun at h; rw [hc] at h; exact absurd h (by simp)
  · unfold cliRun at h
    rw [hc, Option.map_some, Option.some.injEq] at h
    have hv : (askedFreq a s.freq).Valid := askedFreq_valid a s.freq hs ha.1
    have hi : QInv env (Quasi.fresh (earlySettings a s)) := QInv.fresh env _ hv
    have hany : ∀ n, (a.earlyTasks.take n).any CliTask.usesCom = false := by
      intro n
      rw [List.any_eq_false]
      intro t ht
      rw [(early_usesCom a t (List.mem_of_mem_take ht)).1]; simp
    have hany' : a.earlyTasks.any CliTask.usesCom = false := by
      have := hany a.earlyTasks.length
      rwa [List.take_length] at this
    obtain ⟨e1, e2, e3, e4, e5⟩ := runTasks_spec hd a.earlyTasks hi rfl (earlySettings a s) (Or.inl rfl) false rfl
      (fun i t hi ht => absurd ht (early_usesCom a t (List.mem_of_getElem? hi)).2)
    rw [hany'] at e4 e5
    have e3 := e3 (fun hm => (early_usesCom a _ hm).2 rfl)
    set o := (runTasks env (Quasi.fresh (earlySettings a s)) a.earlyTasks).1 with ho
    have hcn : o.com = none := by
      rcases hoc : o.com with _ | c
      · rfl
      · rw [hoc] at e4; exact absurd e4 (by simp)
    have hlim : QInv env (match a.limits with | none => o | some (x, y) => o.setLimits x y) ∧
        (match a.limits with | none => o | some (x, y) => o.setLimits x y).psPartials = none ∧
        (match a.limits with | none => o | some (x, y) => o.setLimits x y).com.isSome = false ∧
        SameSettings env (lateSettings a s) (match a.limits with | none => o | some (x, y) => o.setLimits x y).s := by
      have h5 : SameSettings env (earlySettings a s) o.s := e5
      rcases hl : a.limits with _ | ⟨x, y⟩
      · refine ⟨e2, e3, by rw [hcn]; rfl, ?_⟩
        have : lateSettings a s = earlySettings a s := by unfold lateSettings earlySettings askedLimits; rw [hl]
        rw [this]; exact h5
      · obtain ⟨g1, g2, g3⟩ := e2.setLimits x y (ha.2 x y hl)
        refine ⟨g1, (setLimits_partials o x y).trans e3, by dsimp only; rw [g3 hcn]; rfl, ?_⟩
        have : lateSettings a s = { earlySettings a s with freq := { (earlySettings a s).freq with
            range := arange x (y + (earlySettings a s).freq.resolution) (earlySettings a s).freq.resolution } } := by
          unfold lateSettings earlySettings askedLimits asked; rw [hl]
        rw [this]
        dsimp only
        rw [g2]
        rcases h5 with e | e
        · left; rw [e]
        · right; rw [e]
    obtain ⟨l1, l2, l3, l4⟩ := hlim
    obtain ⟨f1, -, -, -, -⟩ := runTasks_spec hd a.lateTasks l1 l2 (lateSettings a s) l4 false l3 (late_partials a)
    have hlen : (runTasks env (Quasi.fresh (earlySettings a s)) a.earlyTasks).2.length = a.earlyTasks.length := by
      rw [← List.length_map (f := Prod.fst), runTasks_fst]
    subst h
    refine ⟨?_, ?_, ?_⟩
    · rw [List.map_append, runTasks_fst, runTasks_fst]
    · intro i t r hi' hr
      rw [List.getElem?_append_left (by rw [← hlen] at hi'; exact hi')] at hr
      have := e1 i t r hr
      rw [hany] at this
      exact this
    · intro i t r hr
      rw [List.getElem?_append_right (by change (runTasks env (Quasi.fresh (earlySettings a s)) a.earlyTasks).2.length ≤ _; omega)] at hr
      have hidx : a.earlyTasks.length + i - (runTasks env (Quasi.fresh (asked a s (askedFreq a s.freq))) a.earlyTasks).2.length = i := by
        change a.earlyTasks.length + i - (runTasks env (Quasi.fresh (earlySettings a s)) a.earlyTasks).2.length = i
        omega
      rw [hidx] at hr
      have := f1 i t r hr
      rw [this]
      have hb : ((a.lateTasks.take i).any CliTask.usesCom || false) = decide (∃ t' ∈ a.lateTasks.take i, t'.usesCom = true) := by
        rw [Bool.or_false, Bool.eq_iff_iff, List.any_eq_true, decide_eq_true_iff]
      rw [hb, Bool.or_false] at *
      by_cases hx : ∃ t' ∈ a.lateTasks.take i, t'.usesCom = true
      · rw [if_pos hx, if_pos (by rw [List.any_eq_true]; exact hx)]
      · rw [if_neg hx, if_neg (by rw [List.any_eq_true]; exact hx)]

/-- Two command lines with the same input, algorithm, fitting and resolution options, whatever they request and whatever the frequency limits. -/
def CliOptions.SameParameters (a a' : CliOptions K Q) : Prop :=
  a'.nac = a.nac ∧ a'.fit = a.fit ∧ a'.project = a.project ∧ a'.noSymmetry = a.noSymmetry ∧ a'.resolution = a.resolution ∧ a'.q = a.q ∧
  a'.algorithm = a.algorithm ∧ a'.mem = a.mem

theorem CliOptions.SameParameters.early {a a' : CliOptions K Q} (h : a.SameParameters a') (s : QSettings K Q) : earlySettings a' s = earlySettings a s := by
  obtain ⟨h1, h2, h3, h4, h5, h6, h7, h8⟩ := h
  unfold earlySettings asked askedFreq
  rw [h1, h2, h3, h4, h5, h6, h7, h8]

theorem askedLimits_auto (env : QEnv K V Q) (a : CliOptions K Q) (s : QSettings K Q) : autoRange env (lateSettings a s) = autoRange env (earlySettings a s) := by
  unfold lateSettings earlySettings askedLimits autoRange asked
  split <;> rfl

/-- Where a result stands in the output. -/
theorem cliRun_mem (env : QEnv K V Q) (hd : 0 < env.dosLimit) (types : ℕ) (a : CliOptions K Q) (s : QSettings K Q) (hs : s.freq.Valid) (ha : a.Sane)
    (outs : List (CliTask × CliResult K V Q)) (h : cliRun env types a s = some outs) (t : CliTask) (r : CliResult K V Q) (hm : (t, r) ∈ outs) :
    (t ∈ a.earlyTasks ∧ r = taskValue env (earlySettings a s) false t) ∨
    ∃ i : ℕ, a.lateTasks[i]? = some t ∧
      r = taskValue env (if ∃ t' ∈ a.lateTasks.take i, t'.usesCom then autoRange env (lateSettings a s) else lateSettings a s)
        (decide (∃ t' ∈ a.lateTasks.take i, t'.usesCom)) t := by
  obtain ⟨h1, h2, h3⟩ := C102_results env hd types a s hs ha outs h
  obtain ⟨n, hn⟩ := List.mem_iff_getElem?.1 hm
  have hf : (a.earlyTasks ++ a.lateTasks)[n]? = some t := by rw [← h1, List.getElem?_map, hn]; rfl
  by_cases hl : n < a.earlyTasks.length
  · left
    rw [List.getElem?_append_left hl] at hf
    exact ⟨List.mem_of_getElem? hf, h2 n t r hl hn⟩
  · right
    rw [List.getElem?_append_right (by omega)] at hf
    refine ⟨n - a.earlyTasks.length, hf, h3 _ t r ?_⟩
    rw [show a.earlyTasks.length + (n - a.earlyTasks.length) = n by omega]
    exact hn

theorem late_not_early (a a' : CliOptions K Q) (t : CliTask) (h : t ∈ a.earlyTasks) : t ∉ a'.lateTasks := by
  have : t = .saveVcHdf5 ∨ t = .saveVq ∨ ∃ n, t = .saveVc n := by
    unfold CliOptions.earlyTasks at h
    simp only [List.mem_append] at h
    rcases h with (h | h) | h
    · split at h
      · left; simpa using h
      · exact absurd h (by simp)
    · split at h
      · right; left; simpa using h
      · exact absurd h (by simp)
    · split at h
      · right; right; exact ⟨_, by simpa using h⟩
      · exact absurd h (by simp)
  unfold CliOptions.lateTasks
  simp only [List.mem_append, not_or]
  rcases this with rfl | rfl | ⟨n, rfl⟩ <;>
    refine ⟨⟨⟨⟨⟨⟨⟨⟨⟨⟨⟨⟨⟨⟨?_, ?_⟩, ?_⟩, ?_⟩, ?_⟩, ?_⟩, ?_⟩, ?_⟩, ?_⟩, ?_⟩, ?_⟩, ?_⟩, ?_⟩, ?_⟩, ?_⟩ <;> split <;> simp

/-- C102: velocity files, force constants, quasiparticle data, mesh and bands do not depend on what else is requested, nor on `-r`. -/
theorem C102_renormalized (env : QEnv K V Q) (hd : 0 < env.dosLimit) (types : ℕ) (a a' : CliOptions K Q) (s : QSettings K Q) (hs : s.freq.Valid)
    (ha : a.Sane) (ha' : a'.Sane) (hp : a.SameParameters a') (outs outs' : List (CliTask × CliResult K V Q))
    (h : cliRun env types a s = some outs) (h' : cliRun env types a' s = some outs') (t : CliTask)
    (ht : t ∈ [.saveVcHdf5, .saveVq, .saveForceConstants, .saveBands, .saveQuasiparticles, .saveMesh] ∨ ∃ n, t = .saveVc n)
    (r r' : CliResult K V Q) (hr : (t, r) ∈ outs) (hr' : (t, r') ∈ outs') : r' = r := by
  have key : ∀ (c : CliOptions K Q) (b : Bool) (p : Prop) [Decidable p],
      taskValue env (if p then autoRange env (lateSettings c s) else lateSettings c s) b t = taskValue env (autoRange env (earlySettings c s)) false t := by
    intro c b p _
    have hx : ∀ b, taskValue env (autoRange env (lateSettings c s)) b t = taskValue env (autoRange env (lateSettings c s)) false t := by
      intro b
      rcases ht with ht | ⟨n, rfl⟩
      · simp only [List.mem_cons, List.not_mem_nil, or_false] at ht
        rcases ht with rfl | rfl | rfl | rfl | rfl | rfl <;> rfl
      · rfl
    have hy : taskValue env (lateSettings c s) b t = taskValue env (autoRange env (lateSettings c s)) b t := by
      rcases ht with ht | ⟨n, rfl⟩
      · simp only [List.mem_cons, List.not_mem_nil, or_false] at ht
        rcases ht with rfl | rfl | rfl | rfl | rfl | rfl <;> rfl
      · rfl
    rw [← askedLimits_auto]
    split
    · exact hx b
    · exact hy.trans (hx b)
  have keyE : ∀ c : CliOptions K Q, taskValue env (earlySettings c s) false t = taskValue env (autoRange env (earlySettings c s)) false t := by
    intro c
    rcases ht with ht | ⟨n, rfl⟩
    · simp only [List.mem_cons, List.not_mem_nil, or_false] at ht
      rcases ht with rfl | rfl | rfl | rfl | rfl | rfl <;> rfl
    · rfl
  have one : ∀ (c : CliOptions K Q) (_ : c.Sane) (o : List (CliTask × CliResult K V Q)) (_ : cliRun env types c s = some o) (x : CliResult K V Q),
      (t, x) ∈ o → x = taskValue env (autoRange env (earlySettings c s)) false t := by
    intro c hc o ho x hx
    rcases cliRun_mem env hd types c s hs hc o ho t x hx with ⟨-, e⟩ | ⟨i, -, e⟩
    · rw [e, keyE]
    · rw [e, key]
  rw [one a ha outs h r hr, one a' ha' outs' h' r' hr', hp.early]

/-- C102, partial: as long as nothing is requested that needs the quasiparticles, a result depends only on the options that set parameters, not on
what else is requested. Missing: with quasiparticles this fails for the spectra (`C102_range_violated`). -/
theorem C102_independent_partial (env : QEnv K V Q) (hd : 0 < env.dosLimit) (types : ℕ) (a a' : CliOptions K Q) (s : QSettings K Q) (hs : s.freq.Valid)
    (ha : a.Sane) (ha' : a'.Sane) (hp : a.SameParameters a') (hl : a'.limits = a.limits)
    (hn : ∀ t ∈ a.lateTasks, t.usesCom = false) (hn' : ∀ t ∈ a'.lateTasks, t.usesCom = false) (outs outs' : List (CliTask × CliResult K V Q))
    (h : cliRun env types a s = some outs) (h' : cliRun env types a' s = some outs') (t : CliTask)
    (r r' : CliResult K V Q) (hr : (t, r) ∈ outs) (hr' : (t, r') ∈ outs') : r' = r := by
  have hlate : lateSettings a' s = lateSettings a s := by
    obtain ⟨h1, h2, h3, h4, h5, h6, h7, h8⟩ := hp
    unfold lateSettings askedLimits asked askedFreq
    rw [h1, h2, h3, h4, h5, h6, h7, h8, hl]
  have no : ∀ (c : CliOptions K Q), (∀ t ∈ c.lateTasks, t.usesCom = false) → ∀ i : ℕ, ¬ ∃ t' ∈ c.lateTasks.take i, t'.usesCom = true := by
    rintro c hc i ⟨t', h1, h2⟩
    rw [hc t' (List.mem_of_mem_take h1)] at h2
    exact absurd h2 (by simp)
  rcases cliRun_mem env hd types a s hs ha outs h t r hr with ⟨e0, e⟩ | ⟨i, e0, e⟩ <;>
    rcases cliRun_mem env hd types a' s hs ha' outs' h' t r' hr' with ⟨f0, f⟩ | ⟨j, f0, f⟩
  · rw [e, f, hp.early]
  · exact absurd (List.mem_of_getElem? f0) (late_not_early a a' t e0)
  · exact absurd (List.mem_of_getElem? e0) (late_not_early a' a t f0)
  · rw [e, f, if_neg (no a hn i), if_neg (no a' hn' j), hlate, decide_eq_false (no a hn i), decide_eq_false (no a' hn' j)]

/-- C102, violated: with `-sfc` (or any other option whose result uses the quasiparticles and comes earlier) the spectra that are saved or drawn do not
have the frequencies asked for with `-r`, but those of the automatic range. -/
theorem C102_range_violated (env : QEnv K V Q) (hd : 0 < env.dosLimit) (types : ℕ) (a : CliOptions K Q) (s : QSettings K Q) (hs : s.freq.Valid)
    (ha : a.Sane) (hsfc : a.saveForceConstants = true) (outs : List (CliTask × CliResult K V Q)) (h : cliRun env types a s = some outs)
    (t : CliTask) (range : List K) (p : V) (hr : (t, CliResult.curve range p) ∈ outs) :
    range = arange 0 (env.dosLimit + (lateSettings a s).freq.resolution) (lateSettings a s).freq.resolution := by
  have hl0 : a.lateTasks[0]? = some .saveForceConstants := by
    unfold CliOptions.lateTasks
    rw [hsfc]
    simp
  rcases cliRun_mem env hd types a s hs ha outs h t _ hr with ⟨e0, e⟩ | ⟨i, e0, e⟩
  · exfalso
    have : t = .saveVcHdf5 ∨ t = .saveVq ∨ ∃ n, t = .saveVc n := by
      unfold CliOptions.earlyTasks at e0
      simp only [List.mem_append] at e0
      rcases e0 with (h | h) | h
      · split at h
        · left; simpa using h
        · exact absurd h (by simp)
      · split at h
        · right; left; simpa using h
        · exact absurd h (by simp)
      · split at h
        · right; right; exact ⟨_, by simpa using h⟩
        · exact absurd h (by simp)
    rcases this with rfl | rfl | ⟨n, rfl⟩ <;> simp [taskValue] at e
  · have hi : i ≠ 0 := by
      rintro rfl
      rw [hl0, Option.some.injEq] at e0
      subst e0
      simp [taskValue] at e
    have hx : ∃ t' ∈ a.lateTasks.take i, t'.usesCom = true := by
      refine ⟨.saveForceConstants, ?_, rfl⟩
      obtain ⟨j, rfl⟩ := Nat.exists_eq_succ_of_ne_zero hi
      exact List.mem_iff_getElem?.2 ⟨0, by rw [List.getElem?_take_of_lt (by omega)]; exact hl0⟩
    rw [if_pos hx] at e
    cases t <;> simp only [taskValue, CliResult.curve.injEq, reduceCtorEq] at e <;> exact e.1

/-- C102: the plot of the full power spectrum shows a renormalized density of states exactly if the command line also asks for the renormalized
force constants or bands, and then it is the one of these settings. -/
theorem C102_plot (env : QEnv K V Q) (hd : 0 < env.dosLimit) (types : ℕ) (a : CliOptions K Q) (s : QSettings K Q) (hs : s.freq.Valid)
    (ha : a.Sane) (outs : List (CliTask × CliResult K V Q)) (h : cliRun env types a s = some outs) (range : List K) (p : V)
    (c : Option (List (ComEntry K V Q))) (hr : (CliTask.plotFull, CliResult.fullPlot range p c) ∈ outs) :
    c = if a.saveForceConstants ∨ a.saveBands then some (specCom env (lateSettings a s)) else none := by
  rcases cliRun_mem env hd types a s hs ha outs h _ _ hr with ⟨e0, e⟩ | ⟨i, e0, e⟩
  · exact absurd rfl (fun (_ : (1 : ℕ) = 1) => by
      unfold CliOptions.earlyTasks at e0
      simp only [List.mem_append] at e0
      rcases e0 with (h | h) | h <;> split at h <;> simp at h)
  · have hx : (∃ t' ∈ a.lateTasks.take i, t'.usesCom = true) ↔ (a.saveForceConstants ∨ a.saveBands) := by
      have key : ∃ l₁ l₂, a.lateTasks = l₁ ++ l₂ ∧ CliTask.plotFull ∉ l₁ ∧ (∀ j : ℕ, l₂[j]? = some .plotFull → j = 0) ∧
          ((∃ t' ∈ l₁, t'.usesCom = true) ↔ (a.saveForceConstants ∨ a.saveBands)) := by
        refine ⟨(if a.saveForceConstants then [.saveForceConstants] else []) ++ (if a.saveBands then [.saveBands] else []) ++
          (if a.saveFull then [.saveFull] else []) ++ (if a.saveWave then [.saveWave] else []) ++ (if a.savePhonon then [.savePhonon] else []),
          (if a.plotFull then [.plotFull] else []) ++ ((if a.plotWave then [.plotWave] else []) ++ (if a.plotPhonon then [.plotPhonon] else []) ++
          (if a.saveQuasiparticles then [.saveQuasiparticles] else []) ++ (if a.saveMesh then [.saveMesh] else []) ++
          (if a.scan then [.scan] else []) ++ (if a.peaks then [.peaks] else []) ++
          (if a.thermal then [.thermal a.thermalReference] else []) ++ (if a.thermalFull then [.thermalFull a.thermalReference] else []) ++
          (if a.partials then [.partials] else [])), ?_, ?_, ?_, ?_⟩
        · unfold CliOptions.lateTasks; simp only [List.append_assoc]
        · simp only [List.mem_append, not_or]
          refine ⟨⟨⟨⟨?_, ?_⟩, ?_⟩, ?_⟩, ?_⟩ <;> split <;> simp
        · intro j hj
          have hno : CliTask.plotFull ∉ ((if a.plotWave then [.plotWave] else []) ++ (if a.plotPhonon then [.plotPhonon] else []) ++
            (if a.saveQuasiparticles then [.saveQuasiparticles] else []) ++ (if a.saveMesh then [.saveMesh] else []) ++
            (if a.scan then [.scan] else []) ++ (if a.peaks then [.peaks] else []) ++
            (if a.thermal then [.thermal a.thermalReference] else []) ++ (if a.thermalFull then [.thermalFull a.thermalReference] else []) ++
            (if a.partials then [.partials] else []) : List CliTask) := by
            simp only [List.mem_append, not_or]
            refine ⟨⟨⟨⟨⟨⟨⟨⟨?_, ?_⟩, ?_⟩, ?_⟩, ?_⟩, ?_⟩, ?_⟩, ?_⟩, ?_⟩ <;> split <;> simp
          cases hpf : a.plotFull
          · rw [hpf] at hj
            exact absurd (List.mem_of_getElem? hj) (by simpa using hno)
          · rw [hpf] at hj
            cases j with
            | zero => rfl
            | succ j =>
              rw [if_pos rfl, List.singleton_append, List.getElem?_cons_succ] at hj
              exact absurd (List.mem_of_getElem? hj) hno
        · cases a.saveForceConstants <;> cases a.saveBands <;> cases a.saveFull <;> cases a.saveWave <;> cases a.savePhonon <;> simp [CliTask.usesCom]
      obtain ⟨l₁, l₂, k1, k2, k3, k4⟩ := key
      rw [k1] at e0
      have hge : l₁.length ≤ i := by
        by_contra hlt
        rw [List.getElem?_append_left (by omega)] at e0
        exact k2 (List.mem_of_getElem? e0)
      rw [List.getElem?_append_right hge] at e0
      have : i = l₁.length := by have := k3 _ e0; omega
      rw [k1, this, List.take_left, k4]
    simp only [taskValue, CliResult.fullPlot.injEq] at e
    rw [e.2.2]
    by_cases hy : a.saveForceConstants ∨ a.saveBands
    · rw [if_pos hy, if_pos (by rw [decide_eq_true_iff]; exact hx.2 hy), if_pos (hx.2 hy)]; rfl
    · rw [if_neg hy, if_neg (by rw [decide_eq_true_iff]; exact fun h => hy (hx.1 h))]

/-- Options with many requests; they meet the hypotheses of `C102_results`. -/
def demoOptions : CliOptions ℚ ℤ :=
  { fit := 2, project := some 0, noSymmetry := true, resolution := some (1 / 4), q := some 3, algorithm := some 1, mem := some 7, saveVq := true,
    limits := some (0, 1), saveForceConstants := true, saveFull := true, plotFull := true, peaks := true, thermal := true, partials := true }

theorem demoOptions_sane : demoOptions.Sane ∧ demoOptions.Ok 2 := by
  refine ⟨⟨?_, ?_⟩, ?_, ?_, ?_⟩
  · intro r h; simp only [demoOptions, Option.some.injEq] at h; subst h; norm_num
  · intro x y h; simp only [demoOptions, Option.some.injEq, Prod.mk.injEq] at h; obtain ⟨rfl, rfl⟩ := h; norm_num
  · decide
  · intro t h; simp only [demoOptions, Option.some.injEq] at h; subst h; decide
  · intro t h; simp only [demoOptions, Option.some.injEq] at h; subst h; decide

/-- The requests of the example, the frequencies of its saved spectrum, and those it would have without `-sfc`. -/
example : ((cliRun demoEnv 2 demoOptions demoSettings).map (·.map Prod.fst)) =
      some [.saveVq, .saveForceConstants, .saveFull, .plotFull, .peaks, .thermal false, .partials] ∧
    ((cliRun demoEnv 2 demoOptions demoSettings).map fun l => l[2]?.map fun x => match x.2 with | .curve r _ => r.getLast? | _ => none) =
      some (some (some (2 : ℚ))) ∧
    ((cliRun demoEnv 2 { demoOptions with saveForceConstants := false } demoSettings).map fun l =>
      l[1]?.map fun x => match x.2 with | .curve r _ => r.getLast? | _ => none) = some (some (some (1 : ℚ))) := by
  decide +kernel

/-- C102, violated: the harmonic density of states of the thermal properties reaches to the upper limit asked for without `--thm_reference`, but to that
of the automatic range with it (`display_thermal_properties` reads the frequencies before or after it calculates the quasiparticles). -/
theorem C102_thermal_violated : ∃ (env : QEnv ℚ (List ℚ) ℤ) (s : QSettings ℚ ℤ) (a : CliOptions ℚ ℤ), s.freq.Valid ∧ a.Sane ∧ 0 < env.dosLimit ∧
    ∃ x y : ℚ, x ≠ y ∧
      ((cliRun env 1 a s).map fun l => l[0]?.map fun r => match r.2 with | .thermal top _ _ _ => top | _ => none) = some (some (some x)) ∧
      ((cliRun env 1 { a with thermalReference := true } s).map fun l => l[0]?.map fun r => match r.2 with | .thermal top _ _ _ => top | _ => none) =
        some (some (some y)) :=
  ⟨demoEnv, demoSettings, { thermal := true }, demo_valid, ⟨fun r h => by simp at h, fun x y h => by simp at h⟩, by decide +kernel, 1, 2,
    by norm_num, by decide +kernel, by decide +kernel⟩

end Verif
