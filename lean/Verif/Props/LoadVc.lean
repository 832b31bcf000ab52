import Verif.Model.LoadVc
import Verif.Props.Quasi
import Verif.Props.Hdf5

/-! # C116: a saved projected velocity gives the spectra of the calculation that wrote it -/

set_option autoImplicit false
set_option linter.unusedSectionVars false

namespace Verif

variable {K W Q : Type*} [Field K] [LinearOrder K] [IsStrictOrderedRing K] [FloorRing K] [DecidableEq Q]

/-- What can be done with a loaded projected velocity: everything but a change of the wave vector and what needs the velocities themselves. -/
def LoadedOp (q : Q) : QOp K Q → Prop
  | .setQ q' => q' = q
  | .getFull => False
  | .getCom => False
  | _ => True

/-- Two sets of routines that differ in what they need the trajectory for. -/
structure SameButProjection (env env' : QEnv K (List W) Q) : Prop where
  eig : env'.eig = env.eig
  frq : env'.frq = env.frq
  phon : env'.phon = env.phon
  spec : env'.spec = env.spec
  flat : env'.flat = env.flat
  sumCols : env'.sumCols = env.sumCols
  dosLimit : env'.dosLimit = env.dosLimit

/-- The routines with the loaded velocity in place of the projection. -/
def withVc (env : QEnv K (List W) Q) (vc : List W) : QEnv K (List W) Q := { env with proj := fun _ _ => vc }

/-- As long as the projected velocity is there nobody asks for a projection. -/
structure Loaded (q : Q) (vc : List W) (o : Quasi K (List W) Q) : Prop where
  q : o.s.q = q
  sym : o.s.sym = false
  vc : o.vc = some vc

theorem Loaded.getVc {q : Q} {vc : List W} {o : Quasi K (List W) Q} (h : Loaded q vc o) (env : QEnv K (List W) Q) : o.getVc env = (o, vc) := by
  unfold Quasi.getVc
  rw [h.vc]

theorem loaded_getEig {q : Q} {vc : List W} {o : Quasi K (List W) Q} (h : Loaded q vc o) (env : QEnv K (List W) Q) : Loaded q vc (o.getEig env).1 := by
  unfold Quasi.getEig
  split
  · exact h
  · exact ⟨h.q, h.sym, h.vc⟩

theorem loaded_getFrq {q : Q} {vc : List W} {o : Quasi K (List W) Q} (h : Loaded q vc o) (env : QEnv K (List W) Q) : Loaded q vc (o.getFrq env).1 := by
  unfold Quasi.getFrq
  split
  · exact h
  · exact ⟨h.q, h.sym, h.vc⟩

/-- Without a projection `getVq` is the same for both sets of routines, and the velocity stays. -/
theorem loaded_getVq {q : Q} {vc : List W} {o : Quasi K (List W) Q} (h : Loaded q vc o) (env : QEnv K (List W) Q) : o.getVq env = o.getVq (withVc env vc) ∧ Loaded q vc (o.getVq env).1 := by
  unfold Quasi.getVq
  cases hv : o.vq with
  | some v => exact ⟨rfl, h⟩
  | none =>
    simp only [h.getVc]
    refine ⟨rfl, ?_⟩
    have := loaded_getEig h env
    exact ⟨this.q, this.sym, this.vc⟩

theorem loaded_getPhonon {q : Q} {vc : List W} {o : Quasi K (List W) Q} (h : Loaded q vc o) (env : QEnv K (List W) Q) :
    o.getPhonon env = o.getPhonon (withVc env vc) ∧ Loaded q vc (o.getPhonon env).1 := by
  unfold Quasi.getPhonon
  cases hv : o.psPhonon with
  | some v => exact ⟨rfl, h⟩
  | none =>
    simp only [h.sym, Bool.false_eq_true, if_false]
    obtain ⟨h1, h2⟩ := loaded_getVq h env
    rw [← h1]
    exact ⟨rfl, ⟨h2.q, h2.sym, h2.vc⟩⟩

theorem loaded_getWave {q : Q} {vc : List W} {o : Quasi K (List W) Q} (h : Loaded q vc o) (env : QEnv K (List W) Q) :
    o.getWave env = o.getWave (withVc env vc) ∧ Loaded q vc (o.getWave env).1 := by
  unfold Quasi.getWave
  cases hv : o.psWave with
  | some v => exact ⟨rfl, h⟩
  | none =>
    simp only [h.getVc, h.sym, Bool.false_eq_true, if_false]
    exact ⟨rfl, ⟨h.q, h.sym, h.vc⟩⟩

theorem loaded_power {q : Q} {vc : List W} {o : Quasi K (List W) Q} (h : Loaded q vc o) : Loaded q vc o.powerSpectraClear := ⟨h.q, h.sym, h.vc⟩

theorem loaded_op {q : Q} {vc : List W} {o : Quasi K (List W) Q} (h : Loaded q vc o) (env : QEnv K (List W) Q) (p : QOp K Q) (hp : LoadedOp q p) :
    o.op env p = o.op (withVc env vc) p ∧ ∀ o', o.op env p = some o' → Loaded q vc o' := by
  cases p
  case setQ q' =>
    change q' = q at hp
    subst hp
    refine ⟨rfl, fun o' e => ?_⟩
    cases e
    have : o.setQ q' = { o with s := { o.s with q := q' } } := by unfold Quasi.setQ; rw [if_neg (by simp [h.q])]
    rw [this]
    exact ⟨rfl, h.sym, h.vc⟩
  case setAlg n =>
    refine ⟨rfl, fun o' e => ?_⟩
    unfold Quasi.op Quasi.setAlg at e
    simp only at e
    split at e
    · split at e <;> cases e
      · exact ⟨h.q, h.sym, h.vc⟩
      · exact h
    · cases e
  case setMem n => exact ⟨rfl, fun o' e => by cases e; exact ⟨h.q, h.sym, h.vc⟩⟩
  case setFit n =>
    refine ⟨rfl, fun o' e => ?_⟩
    unfold Quasi.op Quasi.setFit at e
    simp only at e
    split at e
    · split at e <;> cases e
      · exact ⟨h.q, h.sym, h.vc⟩
      · exact h
    · cases e
  case setLimits a b =>
    refine ⟨rfl, fun o' e => ?_⟩
    cases e
    unfold Quasi.setLimits Quasi.withFreq
    by_cases hf : (o.s.freq.setLimits a b).2
    · simp only [hf, if_true]; exact ⟨h.q, h.sym, h.vc⟩
    · simp only [hf, Bool.false_eq_true, if_false]; exact ⟨h.q, h.sym, h.vc⟩
  case setResolution r =>
    refine ⟨rfl, fun o' e => ?_⟩
    unfold Quasi.op Quasi.setResolution at e
    simp only at e
    obtain ⟨f, -, rfl⟩ := Option.map_eq_some_iff.1 e
    unfold Quasi.withFreq
    by_cases hf : f.2
    · simp only [hf, if_true]; exact ⟨h.q, h.sym, h.vc⟩
    · simp only [hf, Bool.false_eq_true, if_false]; exact ⟨h.q, h.sym, h.vc⟩
  case setNAC b => exact ⟨rfl, fun o' e => by cases e; exact ⟨h.q, h.sym, h.vc⟩⟩
  case setBandRanges l => exact ⟨rfl, fun o' e => by cases e; exact ⟨h.q, h.sym, h.vc⟩⟩
  case getBands =>
    refine ⟨rfl, fun o' e => ?_⟩
    cases e
    unfold Quasi.getBands
    simp only
    split <;> exact ⟨h.q, h.sym, h.vc⟩
  case getEig => exact ⟨rfl, fun o' e => by cases e; exact loaded_getEig h env⟩
  case getFrq => exact ⟨rfl, fun o' e => by cases e; exact loaded_getFrq h env⟩
  case getVc => exact ⟨by unfold Quasi.op; simp only [h.getVc], fun o' e => by unfold Quasi.op at e; simp only [h.getVc] at e; cases e; exact h⟩
  case getVq => exact ⟨by unfold Quasi.op; simp only; rw [(loaded_getVq h env).1], fun o' e => by cases e; exact (loaded_getVq h env).2⟩
  case getPhonon => exact ⟨by unfold Quasi.op; simp only; rw [(loaded_getPhonon h env).1], fun o' e => by cases e; exact (loaded_getPhonon h env).2⟩
  case getWave => exact ⟨by unfold Quasi.op; simp only; rw [(loaded_getWave h env).1], fun o' e => by cases e; exact (loaded_getWave h env).2⟩
  case getFull => exact hp.elim
  case getCom => exact hp.elim

theorem loaded_run {q : Q} {vc : List W} (env : QEnv K (List W) Q) (l : List (QOp K Q)) : ∀ {o o' : Quasi K (List W) Q}, Loaded q vc o → (∀ p ∈ l, LoadedOp q p) →
    l.foldlM (Quasi.op env) o = some o' → l.foldlM (Quasi.op (withVc env vc)) o = some o' ∧ Loaded q vc o' := by
  induction l with
  | nil =>
    intro o o' h _ e
    exact ⟨e, by simp at e; subst e; exact h⟩
  | cons p l ih =>
    intro o o' h hp e
    obtain ⟨h1, h2⟩ := loaded_op h env p (hp p (by simp))
    rw [List.foldlM_cons] at e ⊢
    obtain ⟨o1, e1, e2⟩ := Option.bind_eq_some_iff.1 e
    rw [← h1, e1]
    exact ih (h2 o1 e1) (fun x hx => hp x (by simp [hx])) e2

/-- **C116**: whatever is done with a calculation made from a projected velocity (any settings, any calls in any order that keep the wave vector), its results are those of the projected velocity, the wave vector of the file and
the current settings; nothing of a trajectory is used (`env.proj` and `env.vel` may be anything). -/
theorem C116_results (env : QEnv K (List W) Q) (hd : 0 < env.dosLimit) (s₀ : QSettings K Q) (h₀ : s₀.freq.Valid) (vc : List W) (q : Q) (n : Option ℕ) (l : List (QOp K Q)) (hok : ∀ p ∈ l, p.Ok)
    (hl : ∀ p ∈ l, LoadedOp q p) (o : Quasi K (List W) Q) (ho : l.foldlM (Quasi.op env) (startFromVc s₀ vc q n) = some o) :
    o.s.q = q ∧ (o.getVc env).2 = cropVc n vc ∧ (o.getEig env).2 = env.eig q ∧ (o.getFrq env).2 = env.frq q ∧ (o.getVq env).2 = env.phon (cropVc n vc) (env.eig q) ∧
    (o.getPhonon env).2 = env.spec o.s.alg o.s.memCoef o.s.freq.range (env.phon (cropVc n vc) (env.eig q)) ∧
    (o.getWave env).2 = env.sumCols (env.spec o.s.alg o.s.memCoef o.s.freq.range (env.flat (cropVc n vc))) := by
  have hstart : Loaded q (cropVc n vc) (startFromVc s₀ vc q n : Quasi K (List W) Q) := ⟨rfl, rfl, rfl⟩
  obtain ⟨hrun, hload⟩ := loaded_run env l hstart hl ho
  have hinv0 : QInv (withVc env (cropVc n vc)) (startFromVc s₀ vc q n : Quasi K (List W) Q) :=
    ⟨h₀, CacheOk.none _, CacheOk.none _, CacheOk.some _, CacheOk.none _, CacheOk.none _, CacheOk.none _, CacheOk.none _, CacheOk.none _, by intro c h; simp [startFromVc] at h⟩
  have hinv := QInv.run (env := withVc env (cropVc n vc)) hd l hinv0 hok hrun
  have hq := hload.q
  refine ⟨hq, by rw [hload.getVc], ?_, ?_, ?_, ?_, ?_⟩
  · have := hinv.getEig.val
    rw [hq] at this
    exact this
  · have := hinv.getFrq.val
    rw [hq] at this
    exact this
  · rw [(loaded_getVq hload env).1, hinv.getVq.val, hq]
    rfl
  · rw [(loaded_getPhonon hload env).1, hinv.getPhonon.val, specPhonon, hload.sym, hq]
    rfl
  · rw [(loaded_getWave hload env).1, hinv.getWave.val, specWave, hload.sym, hq]
    rfl

/-- **C116**: the file written by any calculation, after any history, loaded in another run of the program with any settings, gives the results a new calculation from the trajectory gives with the settings of that run, the wave
vector and the atom projection of the calculation that wrote it, and without symmetry; the time stamps and the supercell are those of the trajectory. -/
theorem C116_roundtrip {F T : Type*} (env env' : QEnv K (List W) Q) (hsame : SameButProjection env env') (hd : 0 < env.dosLimit) (cell : Matrix (Fin 3) (Fin 3) ℝ) (d : MdData F T)
    (hcell : ∀ i, ∃ j, cell i j ≠ 0) (m : Fin 3 → ℕ) (hm : d.supercell = Matrix.diagonal (fun i => (m i : ℝ)) * cell)
    (s₁ : QSettings K Q) (h₁ : s₁.freq.Valid) (l₁ : List (QOp K Q)) (hok₁ : ∀ p ∈ l₁, p.Ok) (o₁ : Quasi K (List W) Q) (ho₁ : l₁.foldlM (Quasi.op env) (Quasi.fresh s₁) = some o₁)
    (s₂ : QSettings K Q) (h₂ : s₂.freq.Valid) (l₂ : List (QOp K Q)) (hok₂ : ∀ p ∈ l₂, p.Ok) (hl₂ : ∀ p ∈ l₂, LoadedOp o₁.s.q p) :
    ∃ o₁' file vc q d', o₁.saveVcHdf5 env cell d = some (o₁', file) ∧ loadVcHdf5 cell file 1 none = some (vc, some q, d') ∧ d'.time = d.time ∧ d'.supercell = d.supercell ∧ q = o₁.s.q ∧
      ∀ o₂, l₂.foldlM (Quasi.op env') (startFromVc s₂ vc q none) = some o₂ →
        let new : Quasi K (List W) Q := Quasi.fresh { o₂.s with q := o₁.s.q, projAtom := o₁.s.projAtom, sym := false }
        (o₂.getVc env').2 = (new.getVc env).2 ∧ (o₂.getVq env').2 = (new.getVq env).2 ∧ (o₂.getPhonon env').2 = (new.getPhonon env).2 ∧ (o₂.getWave env').2 = (new.getWave env).2 := by
  have hsc := C15_exact cell 1 (by simp) hcell m 0.01 (by norm_num)
  rw [mul_one, ← hm] at hsc
  have hinv := QInv.run hd l₁ (QInv.fresh env s₁ h₁) hok₁ ho₁
  have hvc := hinv.getVc
  refine ⟨(o₁.getVc env).1, { vc := some (o₁.getVc env).2, reducedQ := some (o₁.getVc env).1.s.q, time := d.time, superCell := fun i => (m i : ℤ) }, cutSlice 1 none (o₁.getVc env).2, (o₁.getVc env).1.s.q,
    { trajectory := none, velocity := none, time := d.time, supercell := Matrix.diagonal (fun i => ((m i : ℤ) : ℝ)) * cell }, by unfold Quasi.saveVcHdf5; rw [hsc]; rfl, rfl, rfl, ?_, by rw [hvc.s], ?_⟩
  · rw [hm]
    simp
  · intro o₂ ho₂ new
    rw [hvc.s] at ho₂
    obtain ⟨-, r1, -, -, r2, r3, r4⟩ := C116_results env' (hsame.dosLimit ▸ hd) s₂ h₂ _ _ none l₂ hok₂ hl₂ o₂ ho₂
    have hcut : ∀ x : List W, cropVc none (cutSlice 1 none x) = x := by intro x; simp [cropVc, cutSlice]
    rw [hcut, hvc.val] at r1 r2 r3 r4
    rw [r1, r2, r3, r4, hsame.eig, hsame.phon, hsame.spec, hsame.flat, hsame.sumCols]
    exact ⟨rfl, rfl, rfl, rfl⟩

/-- A run that changes the wave vector and the spectrum routine before it saves, and a later run with other settings, meet the hypotheses; the later run, whose own projection routine is useless, ends and has the spectrum of the first. -/
example : SameButProjection demoEnv (withVc demoEnv []) ∧
    ((([.getPhonon, .setQ 2, .setAlg 2] : List (QOp ℚ ℤ)).foldlM (Quasi.op demoEnv) (Quasi.fresh demoSettings : Quasi ℚ (List ℚ) ℤ)).bind fun o₁ =>
      (([.setResolution (1 / 4), .setQ 2, .getVq, .setAlg 1] : List (QOp ℚ ℤ)).foldlM (Quasi.op (withVc demoEnv [])) (startFromVc demoSettings (o₁.getVc demoEnv).2 o₁.s.q none)).map fun o₂ =>
      (o₁.s.q, decide ((o₂.getPhonon (withVc demoEnv [])).2 = ((Quasi.fresh o₂.s : Quasi ℚ (List ℚ) ℤ).getPhonon demoEnv).2), decide ((o₂.getVc (withVc demoEnv [])).2 ≠ []))) = some (2, true, true) :=
  ⟨⟨rfl, rfl, rfl, rfl, rfl, rfl, rfl⟩, by decide +kernel⟩

example : ∀ p ∈ ([.setResolution (1 / 4), .setQ 2, .getVq, .setAlg 1] : List (QOp ℚ ℤ)), LoadedOp 2 p ∧ p.Ok := by
  intro p hp
  simp only [List.mem_cons, List.not_mem_nil, or_false] at hp
  rcases hp with rfl | rfl | rfl | rfl <;> simp [LoadedOp, QOp.Ok]

/-- Supercell hypotheses of `C116_roundtrip`. -/
example : (∀ i, ∃ j, (1 : Matrix (Fin 3) (Fin 3) ℝ) i j ≠ 0) := fun i => ⟨i, by simp⟩

/-- The steps option of the later run: the last `n` frames of the file, all of them if there are fewer. -/
theorem C116_last_steps (n : ℕ) (hn : 0 < n) (vc : List W) : ∃ first, vc = first ++ cropVc (some n) vc ∧ (cropVc (some n) vc).length = min n vc.length := by
  refine ⟨vc.take (vc.length - n), ?_, ?_⟩
  · simp [cropVc, hn.ne']
  · simp [cropVc, hn.ne']
    omega

example : cropVc (some 2) [1, 2, 3] = [2, 3] ∧ cropVc (some 5) [1, 2, 3] = [1, 2, 3] ∧ cropVc none [1, 2, 3] = [1, 2, 3] := by decide

end Verif
