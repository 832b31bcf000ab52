import Verif.Model.Dynamics
import Verif.Util
import Mathlib.Data.Rat.Floor
import Mathlib.Tactic.LinearCombination
import Mathlib.Algebra.BigOperators.Field
import Mathlib.Algebra.BigOperators.Group.Finset.Basic

/-! # C13, C14, C16, C17: cropping, time step, velocity from coordinates -/

set_option autoImplicit false

namespace Verif

variable {K F M : Type*} [Field K] [LinearOrder K] [IsStrictOrderedRing K] [FloorRing K]
  [AddCommGroup F] [Module K F]

/-! ## `lastN` -/

theorem lastN_length {α : Type*} (n : ℕ) (l : List α) : (lastN n l).length = min n l.length := by
  simp [lastN]; omega

theorem lastN_suffix {α : Type*} (n : ℕ) (l : List α) : lastN n l <:+ l := List.drop_suffix _ _

theorem lastN_map {α β : Type*} (n : ℕ) (f : α → β) (l : List α) : lastN n (l.map f) = (lastN n l).map f := by
  simp [lastN]

theorem lastN_lastN {α : Type*} (n m : ℕ) (l : List α) : lastN n (lastN m l) = lastN (min n m) l := by
  simp only [lastN, List.drop_drop, List.length_drop]
  congr 1
  omega

/-- `lastN n l` is the last `min n (length l)` entries. -/
theorem lastN_spec {α : Type*} (n : ℕ) (l : List α) :
    ∃ pre, l = pre ++ lastN n l ∧ (lastN n l).length = min n l.length :=
  ⟨l.take (l.length - n), by simp [lastN], lastN_length n l⟩

theorem aroundDec_idem (n : ℕ) (x : K) : aroundDec n (aroundDec n x) = aroundDec n x := by
  unfold aroundDec
  have : (roundEven (x * 10 ^ n) : K) / 10 ^ n * 10 ^ n = (roundEven (x * 10 ^ n) : K) := by
    field_simp
  rw [this, roundEven_intCast]

/-! ## C13 -/

/-- C13: `None`, zero and negative arguments change nothing. -/
theorem C13_noop (env : DynEnv F M) (s : Dyn K F M) (z : Option ℤ) (hz : ∀ k, z = some k → k ≤ 0) :
    s.crop env z = some s := by
  unfold Dyn.crop
  cases z with
  | none => rfl
  | some k => simp [hz k rfl]

/-- Public calls on a `Dynamics` object. -/
inductive DynOp
  | trajectory | relative | velocity | velocityMass | timeStep
  | meanDisp (useAverage : Bool)
  | crop (z : Option ℤ)

/-- The object after a call. -/
def DynOp.step (env : DynEnv F M) (s : Dyn K F M) : DynOp → Option (Dyn K F M)
  | .trajectory => (s.getTrajectory env).map Prod.snd
  | .relative => (s.getRelative env).map Prod.snd
  | .velocity => (s.getVelocity env).map Prod.snd
  | .velocityMass => (s.getVelocityMass env).map Prod.snd
  | .timeStep => s.getTimeStep.map Prod.snd
  | .meanDisp b => (s.getMeanDisp env b).map Prod.snd
  | .crop z => s.crop env z

/-- A history of calls that all return. -/
def DynOp.run (env : DynEnv F M) : List DynOp → Dyn K F M → Option (Dyn K F M)
  | [], s => some s
  | op :: ops, s => (op.step env s).bind (DynOp.run env ops)

/-- A freshly constructed object: no derived data. -/
def Dyn.IsFresh (s : Dyn K F M) : Prop :=
  s.relative = none ∧ s.velocityMass = none ∧ s.timeStep = none ∧ s.meanDisp = none

/-- Reachable objects: built by the constructor, then any history of calls. -/
def Dyn.Reachable (env : DynEnv F M) (s : Dyn K F M) : Prop :=
  ∃ s0 ops, Dyn.IsFresh s0 ∧ DynOp.run env ops s0 = some s

/-- Invariant of the caches: a cached relative trajectory is that of the cached trajectory; a cached mass weighted
velocity is that of the cached velocity; a cached time step is rounded to 8 decimals. -/
structure Dyn.Wf (env : DynEnv F M) (s : Dyn K F M) : Prop where
  rel : ∀ r, s.relative = some r → ∃ t, s.trajectory = some t ∧ r = t.map env.disp
  vm : ∀ w, s.velocityMass = some w → ∃ v, s.velocity = some v ∧ w = v.map env.massWeight
  ts : ∀ y, s.timeStep = some y → aroundDec 8 y = y

theorem wf_getTrajectory (env : DynEnv F M) (s s' : Dyn K F M) (t : List F) (h : s.Wf env)
    (e : s.getTrajectory env = some (t, s')) :
    s'.Wf env ∧ s'.trajectory = some t ∧ s'.relative = s.relative ∧ s'.velocity = s.velocity ∧
      s'.velocityMass = s.velocityMass ∧ s'.time = s.time ∧ s'.energy = s.energy ∧
      s'.timeStep = s.timeStep ∧ s'.memmap = s.memmap := by
  unfold Dyn.getTrajectory at e
  rcases ht : s.trajectory with _ | t0
  · rw [ht] at e
    simp only [Option.map_eq_some_iff, Prod.mk.injEq] at e
    obtain ⟨sc, _, rfl, rfl⟩ := e
    refine ⟨⟨?_, h.vm, h.ts⟩, rfl, rfl, rfl, rfl, rfl, rfl, rfl, rfl⟩
    intro r hr
    obtain ⟨t, ht', _⟩ := h.rel r hr
    rw [ht] at ht'; cases ht'
  · rw [ht] at e
    simp only [Option.some.injEq, Prod.mk.injEq] at e
    obtain ⟨rfl, rfl⟩ := e
    exact ⟨h, ht, rfl, rfl, rfl, rfl, rfl, rfl, rfl⟩

theorem wf_getRelative (env : DynEnv F M) (s s' : Dyn K F M) (r : List F) (h : s.Wf env)
    (e : s.getRelative env = some (r, s')) :
    s'.Wf env ∧ s'.relative = some r ∧ s'.velocity = s.velocity ∧ s'.time = s.time ∧
      s'.energy = s.energy ∧ s'.timeStep = s.timeStep ∧ s'.velocityMass = s.velocityMass ∧
      s'.memmap = s.memmap ∧ ∃ t, s'.trajectory = some t ∧ r = t.map env.disp := by
  unfold Dyn.getRelative at e
  rcases hr : s.relative with _ | r0
  · rw [hr] at e
    simp only [Option.map_eq_some_iff, Prod.exists, Prod.mk.injEq] at e
    obtain ⟨t, s1, e1, rfl, rfl⟩ := e
    obtain ⟨h1, ht, _, hv, hvm, htm, he, hts, hmm⟩ := wf_getTrajectory env s s1 t h e1
    refine ⟨⟨?_, h1.vm, h1.ts⟩, rfl, hv, htm, he, hts, hvm, hmm, t, ht, rfl⟩
    intro r hr
    simp only [Option.some.injEq] at hr
    exact ⟨t, ht, hr.symm⟩
  · rw [hr] at e
    simp only [Option.some.injEq, Prod.mk.injEq] at e
    obtain ⟨rfl, rfl⟩ := e
    exact ⟨h, hr, rfl, rfl, rfl, rfl, rfl, rfl, h.rel r0 hr⟩

theorem wf_getTimeStep (env : DynEnv F M) (s s' : Dyn K F M) (x : K) (h : s.Wf env)
    (e : s.getTimeStep = some (x, s')) :
    s'.Wf env ∧ s'.velocity = s.velocity ∧ s'.relative = s.relative ∧ s'.trajectory = s.trajectory ∧
      s'.velocityMass = s.velocityMass ∧ s'.time = s.time ∧ s'.energy = s.energy ∧ s'.memmap = s.memmap := by
  unfold Dyn.getTimeStep at e
  split at e
  · simp only [Option.some.injEq, Prod.mk.injEq] at e
    obtain ⟨_, rfl⟩ := e
    exact ⟨⟨h.rel, h.vm, by rintro y ⟨⟩; exact aroundDec_idem _ _⟩, rfl, rfl, rfl, rfl, rfl, rfl, rfl⟩
  · simp only [Option.map_eq_some_iff, Prod.mk.injEq] at e
    obtain ⟨_, _, _, rfl⟩ := e
    exact ⟨⟨h.rel, h.vm, by rintro y ⟨⟩; exact aroundDec_idem _ _⟩, rfl, rfl, rfl, rfl, rfl, rfl, rfl⟩

theorem wf_getVelocity (env : DynEnv F M) (s s' : Dyn K F M) (v : List F) (h : s.Wf env)
    (e : s.getVelocity env = some (v, s')) :
    s'.Wf env ∧ s'.velocity = some v ∧ s'.time = s.time ∧ s'.energy = s.energy ∧ s'.memmap = s.memmap := by
  unfold Dyn.getVelocity at e
  rcases hv : s.velocity with _ | v0
  · rw [hv] at e
    simp only [Option.bind_eq_some_iff, Option.map_eq_some_iff, Prod.exists, Prod.mk.injEq] at e
    obtain ⟨r, s1, e1, x, s2, e2, w, _, rfl, rfl⟩ := e
    obtain ⟨h1, _, hv1, ht1, he1, _, hvm1, hmm1, _⟩ := wf_getRelative env s s1 r h e1
    obtain ⟨h2, hv2, _, _, hvm2, ht2, he2, hmm2⟩ := wf_getTimeStep env s1 s2 x h1 e2
    refine ⟨⟨h2.rel, ?_, h2.ts⟩, rfl, ht2.trans ht1, he2.trans he1, hmm2.trans hmm1⟩
    intro w' hw
    obtain ⟨v', hv', _⟩ := h2.vm w' hw
    rw [hv2, hv1, hv] at hv'
    cases hv'
  · rw [hv] at e
    simp only [Option.some.injEq, Prod.mk.injEq] at e
    obtain ⟨rfl, rfl⟩ := e
    exact ⟨h, hv, rfl, rfl, rfl⟩

theorem wf_getVelocityMass (env : DynEnv F M) (s s' : Dyn K F M) (w : List F) (h : s.Wf env)
    (e : s.getVelocityMass env = some (w, s')) :
    s'.Wf env ∧ ∃ v, s'.velocity = some v ∧ w = v.map env.massWeight := by
  unfold Dyn.getVelocityMass at e
  rcases hv : s.velocityMass with _ | v0
  · rw [hv] at e
    simp only [Option.map_eq_some_iff, Prod.exists, Prod.mk.injEq] at e
    obtain ⟨v, s1, e1, rfl, rfl⟩ := e
    obtain ⟨h1, hv1, _⟩ := wf_getVelocity env s s1 v h e1
    refine ⟨⟨h1.rel, ?_, h1.ts⟩, v, hv1, rfl⟩
    intro w hw
    simp only [Option.some.injEq] at hw
    exact ⟨v, hv1, hw.symm⟩
  · rw [hv] at e
    simp only [Option.some.injEq, Prod.mk.injEq] at e
    obtain ⟨rfl, rfl⟩ := e
    exact ⟨h, h.vm _ hv⟩

/-- State after the first four blocks of `crop_trajectory`. -/
theorem crop_blocks (env : DynEnv F M) (s : Dyn K F M) (h : s.Wf env) (n : ℕ) :
    Dyn.cropD n (Dyn.cropC n (Dyn.cropB n (Dyn.cropA n s))) =
      { s with
        trajectory := s.trajectory.map (lastN n)
        scaled := if s.trajectory.isSome then none else s.scaled.map (lastN n)
        relative := none
        energy := s.energy.map (lastN n)
        time := s.time.map (lastN n) } := by
  rcases ht : s.trajectory with _ | t
  · have hr : s.relative = none := by
      rcases hr : s.relative with _ | r
      · rfl
      · obtain ⟨t, ht', _⟩ := h.rel r hr; rw [ht] at ht'; cases ht'
    rcases hs : s.scaled with _ | sc
    · simp only [Dyn.cropA, Dyn.cropB, Dyn.cropC, Dyn.cropD, ht, hr, hs]
      simp
    · simp only [Dyn.cropA, Dyn.cropB, Dyn.cropC, Dyn.cropD, ht, hr, hs]
      simp
  · simp [Dyn.cropA, Dyn.cropB, Dyn.cropC, Dyn.cropD, ht]

theorem wf_crop (env : DynEnv F M) (s s' : Dyn K F M) (z : Option ℤ) (h : s.Wf env)
    (e : s.crop env z = some s') : s'.Wf env := by
  unfold Dyn.crop at e
  cases z with
  | none => simp only [Option.some.injEq] at e; subst e; exact h
  | some z =>
    simp only at e
    split at e
    · simp only [Option.some.injEq] at e; subst e; exact h
    · rw [crop_blocks env s h] at e
      simp only [Option.bind_eq_some_iff, Prod.exists] at e
      obtain ⟨v, s1, e1, e2⟩ := e
      have h1 := (wf_getVelocity env _ s1 v (by exact ⟨(by intro r hr; cases hr), h.vm, h.ts⟩) e1).1
      split at e2
      · cases e2
      · simp only [Option.some.injEq] at e2
        subst e2
        constructor
        · intro r hr; cases hr
        · intro w hw; cases hw
        · exact h1.ts

theorem wf_step (env : DynEnv F M) (s s' : Dyn K F M) (op : DynOp) (h : s.Wf env)
    (e : op.step env s = some s') : s'.Wf env := by
  cases op with
  | trajectory =>
    simp only [DynOp.step, Option.map_eq_some_iff, Prod.exists] at e
    obtain ⟨t, s1, e1, rfl⟩ := e; exact (wf_getTrajectory env s _ t h e1).1
  | relative =>
    simp only [DynOp.step, Option.map_eq_some_iff, Prod.exists] at e
    obtain ⟨t, s1, e1, rfl⟩ := e; exact (wf_getRelative env s _ t h e1).1
  | velocity =>
    simp only [DynOp.step, Option.map_eq_some_iff, Prod.exists] at e
    obtain ⟨t, s1, e1, rfl⟩ := e; exact (wf_getVelocity env s _ t h e1).1
  | velocityMass =>
    simp only [DynOp.step, Option.map_eq_some_iff, Prod.exists] at e
    obtain ⟨t, s1, e1, rfl⟩ := e; exact (wf_getVelocityMass env s _ t h e1).1
  | timeStep =>
    simp only [DynOp.step, Option.map_eq_some_iff, Prod.exists] at e
    obtain ⟨t, s1, e1, rfl⟩ := e; exact (wf_getTimeStep env s _ t h e1).1
  | meanDisp b =>
    simp only [DynOp.step, Option.map_eq_some_iff, Prod.exists] at e
    obtain ⟨m, s1, e1, rfl⟩ := e
    unfold Dyn.getMeanDisp at e1
    rcases hm : s.meanDisp with _ | m0
    · rw [hm] at e1
      simp only [Option.map_eq_some_iff, Prod.exists, Prod.mk.injEq] at e1
      obtain ⟨r, s2, e2, _, rfl⟩ := e1
      have := (wf_getRelative env s s2 r h e2).1
      exact ⟨this.rel, this.vm, this.ts⟩
    · rw [hm] at e1
      simp only [Option.some.injEq, Prod.mk.injEq] at e1
      rw [← e1.2]; exact h
  | crop z => exact wf_crop env s s' z h e

/-- Every reachable object satisfies the invariant. -/
theorem wf_of_reachable (env : DynEnv F M) (s : Dyn K F M) (h : s.Reachable env) : s.Wf env := by
  obtain ⟨s0, ops, ⟨h1, h2, h3, h4⟩, e⟩ := h
  have h0 : s0.Wf env := ⟨by rw [h1]; simp, by rw [h2]; simp, by rw [h3]; simp⟩
  clear h1 h2 h3 h4
  induction ops generalizing s0 with
  | nil => simp only [DynOp.run, Option.some.injEq] at e; subst e; exact h0
  | cons op ops ih =>
    simp only [DynOp.run, Option.bind_eq_some_iff] at e
    obtain ⟨s1, e1, e2⟩ := e
    exact ih s1 e2 (wf_step env s0 s1 op h0 e1)

/-- C13: after any history, when the velocity is known (given to the constructor, or already computed), cropping keeps
exactly the last `min n length` entries of velocity, coordinates, energy and time. (`memmap=False`; see C14.) -/
theorem C13_crop_partial (env : DynEnv F M) (s : Dyn K F M) (hs : s.Reachable env) (n : ℕ) (hn : 0 < n)
    (v : List F) (hv : s.velocity = some v) (hmm : s.memmap = false) :
    ∃ s', s.crop env (some (n : ℤ)) = some s' ∧
      (s'.getVelocity env).map Prod.fst = some (lastN n v) ∧
      (s'.getTrajectory env).map Prod.fst = ((s.getTrajectory env).map Prod.fst).map (lastN n) ∧
      s'.time = s.time.map (lastN n) ∧ s'.energy = s.energy.map (lastN n) := by
  have hwf := wf_of_reachable env s hs
  have hz : ¬ ((n : ℤ) ≤ 0) := by omega
  unfold Dyn.crop
  simp only [hz, if_false, Int.toNat_natCast]
  rw [crop_blocks env s hwf]
  refine ⟨_, by simp [Dyn.getVelocity, hv, hmm]; rfl, ?_, ?_, rfl, rfl⟩
  · simp [Dyn.getVelocity]
  · rcases ht : s.trajectory with _ | t
    · rcases hs : s.scaled with _ | sc
      · simp [Dyn.getTrajectory, hs, ht]
      · simp [Dyn.getTrajectory, hs, ht, lastN_map]
    · simp [Dyn.getTrajectory, ht]

/-- C13: cropping with `n` and then with `m` is the same as cropping once with `min n m` (same object state). -/
theorem C13_crop_twice_partial (env : DynEnv F M) (s : Dyn K F M) (hs : s.Reachable env) (n m : ℕ) (hn : 0 < n)
    (hm : 0 < m) (v : List F) (hv : s.velocity = some v) (hmm : s.memmap = false) :
    (s.crop env (some (n : ℤ))).bind (fun s1 => s1.crop env (some (m : ℤ)))
      = s.crop env (some ((min m n : ℕ) : ℤ)) ∧ (s.crop env (some ((min m n : ℕ) : ℤ))).isSome := by
  have hwf := wf_of_reachable env s hs
  have key : ∀ (s : Dyn K F M) (v : List F) (k : ℕ), 0 < k → s.Wf env → s.velocity = some v → s.memmap = false →
      s.crop env (some (k : ℤ)) = some { s with
        trajectory := s.trajectory.map (lastN k)
        scaled := if s.trajectory.isSome then none else s.scaled.map (lastN k)
        relative := none
        energy := s.energy.map (lastN k)
        time := s.time.map (lastN k)
        velocity := some (lastN k v)
        velocityMass := none } := by
    intro s v k hk hwf hv hmm
    have hz : ¬ ((k : ℤ) ≤ 0) := by omega
    unfold Dyn.crop
    simp only [hz, if_false, Int.toNat_natCast]
    rw [crop_blocks env s hwf]
    simp [Dyn.getVelocity, hv, hmm]
  rw [key s v n hn hwf hv hmm, key s v (min m n) (by omega) hwf hv hmm]
  refine ⟨?_, rfl⟩
  simp only [Option.bind_some]
  rw [key _ (lastN n v) m hm]
  rotate_left
  · exact ⟨(by intro r hr; cases hr), (by intro r hr; cases hr), hwf.ts⟩
  · rfl
  · exact hmm
  rcases ht : s.trajectory with _ | t <;> rcases hsc : s.scaled with _ | sc <;>
    rcases he : s.energy with _ | en <;> rcases htm : s.time with _ | tm <;>
    simp [lastN_lastN]

/-- A per-frame environment on rational frames used in the examples: identity coordinates. -/
def envId : DynEnv ℚ ℚ where
  toCart := id
  disp := id
  massWeight := id
  meanDisp := fun l b => if b then 0 else (l.map fun x => x ^ 2).sum

example : ∃ s : Dyn ℚ ℚ ℚ, s.Reachable envId ∧ s.velocity = some [1, 2, 3] ∧ s.memmap = false :=
  ⟨{ velocity := some [1, 2, 3] }, ⟨_, [], ⟨rfl, rfl, rfl, rfl⟩, rfl⟩, rfl, rfl⟩

/-- C13, negation: when the velocity was not given, cropping before or after the velocity is first used gives different
velocities for the remaining steps. Accelerated motion x = 0,1,4,9: the last two velocities are 4,5, but after
`crop_trajectory(2)` they are 5,5. -/
theorem C13_velocity_violated : ∃ (s s' : Dyn ℚ ℚ ℚ), s.IsFresh ∧
    (s.getVelocity envId).map Prod.fst = some [1, 2, 4, 5] ∧
    s.crop envId (some 2) = some s' ∧ (s'.getVelocity envId).map Prod.fst = some [5, 5] := by
  refine ⟨{ trajectory := some [0, 1, 4, 9], time := some [0, 1, 2, 3] },
    { trajectory := some [4, 9], time := some [2, 3], velocity := some [5, 5], timeStep := some 1 },
    ⟨rfl, rfl, rfl, rfl⟩, ?_, ?_, ?_⟩
  · have : (npGradient ([0, 1, 4, 9] : List ℚ) (aroundDec 8 (timeStepSum ([0, 1, 2, 3] : List ℚ)))) = some [(1 : ℚ), 2, 4, 5] := by
      decide +kernel
    simp [Dyn.getVelocity, Dyn.getRelative, Dyn.getTrajectory, Dyn.getTimeStep, envId, this]
  · have : (npGradient ([4, 9] : List ℚ) (aroundDec 8 (timeStepSum ([2, 3] : List ℚ)))) = some [(5 : ℚ), 5] := by
      decide +kernel
    have h1 : aroundDec 8 (timeStepSum [2, 3]) = (1 : ℚ) := by decide +kernel
    rw [h1] at this
    simp [Dyn.crop, Dyn.cropA, Dyn.cropB, Dyn.cropC, Dyn.cropD, Dyn.getVelocity, Dyn.getRelative,
      Dyn.getTrajectory, Dyn.getTimeStep, envId, lastN, h1, this]
  · simp [Dyn.getVelocity]

/-! ## C14 -/

/-- C14 (relative trajectory, velocity, mass weighted velocity; no memory mapping): after any history followed by a
successful crop, they are those computed from the cropped data. -/
theorem C14_derived_partial (env : DynEnv F M) (s s' : Dyn K F M) (hs : s.Reachable env) (n : ℕ)
    (hn : 0 < n) (hc : s.crop env (some (n : ℤ))  = some s') :
    (s'.getRelative env).map Prod.fst
      = ((s.getTrajectory env).map Prod.fst).map (fun t => (lastN n t).map env.disp) ∧
    ∃ v, (s'.getVelocity env).map Prod.fst = some v ∧
      (s'.getVelocityMass env).map Prod.fst = some (v.map env.massWeight) ∧
      (∀ v0, s.velocity = some v0 → v = lastN n v0) ∧
      (s.velocity = none → ∃ t h, (s.getTrajectory env).map Prod.fst = some t ∧
        s'.timeStep = some h ∧ (npGradient ((lastN n t).map env.disp) h).map (lastN n) = some v) := by
  have hwf := wf_of_reachable env s hs
  have hz : ¬ ((n : ℤ) ≤ 0) := by omega
  unfold Dyn.crop at hc
  simp only [hz, if_false, Int.toNat_natCast] at hc
  rw [crop_blocks env s hwf] at hc
  generalize hX : ({ s with
        trajectory := s.trajectory.map (lastN n)
        scaled := if s.trajectory.isSome then none else s.scaled.map (lastN n)
        relative := none
        energy := s.energy.map (lastN n)
        time := s.time.map (lastN n) } : Dyn K F M) = X at hc
  have hXtraj : (X.getTrajectory env).map Prod.fst = ((s.getTrajectory env).map Prod.fst).map (lastN n) := by
    subst hX
    rcases ht : s.trajectory with _ | t
    · rcases hs : s.scaled with _ | sc
      · simp [Dyn.getTrajectory, hs, ht]
      · simp [Dyn.getTrajectory, hs, ht, lastN_map]
    · simp [Dyn.getTrajectory, ht]
  have hXv : X.velocity = s.velocity := by subst hX; rfl
  have hXr : X.relative = none := by subst hX; rfl
  rcases hvel : s.velocity with _ | v0
  · -- velocity computed during the crop
    simp only [Option.bind_eq_some_iff, Prod.exists] at hc
    obtain ⟨v, s1, e1, e2⟩ := hc
    unfold Dyn.getVelocity at e1
    rw [hXv, hvel] at e1
    simp only [Option.bind_eq_some_iff, Option.map_eq_some_iff, Prod.exists, Prod.mk.injEq] at e1
    obtain ⟨r, s2, er, h, s3, eh, w, eg, rfl, rfl⟩ := e1
    unfold Dyn.getRelative at er
    rw [hXr] at er
    simp only [Option.map_eq_some_iff, Prod.exists, Prod.mk.injEq] at er
    obtain ⟨t, s4, et, rfl, rfl⟩ := er
    have htr : ∃ t0, (s.getTrajectory env).map Prod.fst = some t0 ∧ t = lastN n t0 := by
      rw [et] at hXtraj
      simp only [Option.map_some] at hXtraj
      rcases hh : (s.getTrajectory env).map Prod.fst with _ | t0
      · rw [hh] at hXtraj; cases hXtraj
      · rw [hh] at hXtraj
        simp only [Option.map_some, Option.some.injEq] at hXtraj
        exact ⟨t0, rfl, hXtraj⟩
    obtain ⟨t0, ht0, rfl⟩ := htr
    have hXwf : X.Wf env := ⟨by rw [hXr]; simp, by subst hX; exact hwf.vm, by subst hX; exact hwf.ts⟩
    obtain ⟨h4, ht4, _⟩ := wf_getTrajectory env X s4 _ hXwf et
    have hh : s3.timeStep = some h ∧ s3.trajectory = some (lastN n t0) := by
      have := wf_getTimeStep env _ s3 h
        (by exact ⟨by intro r hr; simp only [Option.some.injEq] at hr; exact ⟨_, ht4, hr.symm⟩, h4.vm, h4.ts⟩) eh
      refine ⟨?_, by rw [this.2.2.2.1]; exact ht4⟩
      unfold Dyn.getTimeStep at eh
      split at eh
      · simp only [Option.some.injEq, Prod.mk.injEq] at eh
        obtain ⟨rfl, rfl⟩ := eh; rfl
      · simp only [Option.map_eq_some_iff, Prod.mk.injEq] at eh
        obtain ⟨_, _, rfl, rfl⟩ := eh; rfl
    split at e2
    · cases e2
    · simp only [Option.some.injEq] at e2
      subst e2
      refine ⟨?_, lastN n w, by simp [Dyn.getVelocity], by simp [Dyn.getVelocityMass, Dyn.getVelocity],
        by simp, ?_⟩
      · rw [ht0]
        simp [Dyn.getRelative, Dyn.getTrajectory, hh.2]
      · intro _
        refine ⟨t0, h, ht0, hh.1, by rw [eg]; rfl⟩
  · -- velocity known
    have eX : X.getVelocity env = some (v0, X) := by
      unfold Dyn.getVelocity; rw [hXv, hvel]
    rw [eX] at hc
    simp only [Option.bind_some] at hc
    split at hc
    · cases hc
    · simp only [Option.some.injEq] at hc
      subst hc
      refine ⟨?_, lastN n v0, by simp [Dyn.getVelocity], by simp [Dyn.getVelocityMass, Dyn.getVelocity],
        by simp, by simp⟩
      have hfst : ∀ Y : Dyn K F M, Y.relative = none →
          (Y.getRelative env).map Prod.fst = ((Y.getTrajectory env).map Prod.fst).map (List.map env.disp) := by
        intro Y hY
        unfold Dyn.getRelative
        rw [hY, Option.map_map]
        simp only [Option.map_map]
        rfl
      rw [hfst _ rfl]
      have hsame : ∀ Y : Dyn K F M, Y.trajectory = X.trajectory → Y.scaled = X.scaled →
          (Y.getTrajectory env).map Prod.fst = (X.getTrajectory env).map Prod.fst := by
        intro Y h1 h2
        unfold Dyn.getTrajectory
        rw [h1, h2]
        rcases X.trajectory with _ | t <;> rcases X.scaled with _ | sc <;> rfl
      rw [hsame]
      rotate_left
      · rfl
      · rfl
      rw [hXtraj, Option.map_map]
      rfl

/-- C14, negation (time step): a time step computed before the crop is kept although the cropped time has another step. -/
theorem C14_time_step_violated : ∃ (s s1 s2 : Dyn ℚ ℚ ℚ), s.IsFresh ∧
    DynOp.run envId [.timeStep] s = some s1 ∧ s1.crop envId (some 2) = some s2 ∧
    s2.time = some [1, 3] ∧ s2.getTimeStep.map Prod.fst ≠ some (aroundDec 8 (timeStepSum [1, 3])) := by
  have h1 : aroundDec 8 (timeStepSum [0, 1, 3]) = (3 / 2 : ℚ) := by decide +kernel
  have h2 : aroundDec 8 (timeStepSum [1, 3]) = (2 : ℚ) := by decide +kernel
  have h3 : aroundDec 8 (3 / 2 : ℚ) = (3 / 2 : ℚ) := by decide +kernel
  refine ⟨{ time := some [0, 1, 3], velocity := some [1, 1, 1] },
    { time := some [0, 1, 3], velocity := some [1, 1, 1], timeStep := some (3 / 2) },
    { time := some [1, 3], velocity := some [1, 1], timeStep := some (3 / 2) }, ⟨rfl, rfl, rfl, rfl⟩, ?_, ?_, rfl, ?_⟩
  · simp [DynOp.run, DynOp.step, Dyn.getTimeStep, h1]
  · simp [Dyn.crop, Dyn.cropA, Dyn.cropB, Dyn.cropC, Dyn.cropD, Dyn.getVelocity, lastN]
  · have hf : (some (3 / 2 : ℚ)).filter (fun x => decide (x ≠ 0)) = some (3 / 2) := by decide +kernel
    simp only [Dyn.getTimeStep, hf, h2, h3]
    norm_num

/-- C14, negation (mean displacement matrix): it is not recomputed after a crop. -/
theorem C14_mean_disp_violated : ∃ (s s1 s2 : Dyn ℚ ℚ ℚ), s.IsFresh ∧
    DynOp.run envId [.meanDisp false] s = some s1 ∧ s1.crop envId (some 1) = some s2 ∧
    (s2.getRelative envId).map Prod.fst = some [3] ∧
    (s2.getMeanDisp envId false).map Prod.fst ≠ some (envId.meanDisp [3] false) := by
  refine ⟨{ trajectory := some [1, 3], velocity := some [1, 1] },
    { trajectory := some [1, 3], velocity := some [1, 1], relative := some [1, 3], meanDisp := some 10 },
    { trajectory := some [3], velocity := some [1], meanDisp := some 10 }, ⟨rfl, rfl, rfl, rfl⟩, ?_, ?_, ?_, ?_⟩
  · simp [DynOp.run, DynOp.step, Dyn.getMeanDisp, Dyn.getRelative, Dyn.getTrajectory, envId]
    norm_num
  · simp [Dyn.crop, Dyn.cropA, Dyn.cropB, Dyn.cropC, Dyn.cropD, Dyn.getVelocity, lastN]
  · simp [Dyn.getRelative, Dyn.getTrajectory, envId]
  · simp [Dyn.getMeanDisp, envId]
    norm_num

/-- C14, negation (memory mapping): with `memmap=True` and a velocity that is already known, cropping raises, for
every reachable object and every positive number of steps. -/
theorem C14_memmap_violated (env : DynEnv F M) (s : Dyn K F M) (hs : s.Reachable env) (n : ℕ) (hn : 0 < n)
    (v : List F) (hv : s.velocity = some v) (hmm : s.memmap = true) :
    s.crop env (some (n : ℤ)) = none := by
  have hwf := wf_of_reachable env s hs
  have hz : ¬ ((n : ℤ) ≤ 0) := by omega
  unfold Dyn.crop
  simp only [hz, if_false, Int.toNat_natCast]
  rw [crop_blocks env s hwf]
  simp [Dyn.getVelocity, hv, hmm]

/-! ## C16 -/

/-- The accumulated sum is the mean step. -/
theorem timeStepSum_eq (t : List K) (h : 2 ≤ t.length) :
    timeStepSum t = (t.getD (t.length - 1) 0 - t.getD 0 0) / ((t.length - 1 : ℕ) : K) := by
  unfold timeStepSum
  rw [foldl_add_eq_sum (fun i => (t.getD (i + 1) 0 - t.getD i 0) / ((t.length - 1 : ℕ) : K)), zero_add,
    ← Finset.sum_div, Finset.sum_range_sub (fun i => t.getD i 0)]

/-- C16: on an object whose time step has not been computed yet, the result is `(t_last - t_first)/(n-1)` rounded to
8 decimals. -/
theorem C16_average (s : Dyn K F M) (t : List K) (ht : s.time = some t) (hlen : 2 ≤ t.length)
    (hfresh : s.timeStep = none) :
    s.getTimeStep.map Prod.fst
      = some (aroundDec 8 ((t.getD (t.length - 1) 0 - t.getD 0 0) / ((t.length - 1 : ℕ) : K))) := by
  simp [Dyn.getTimeStep, hfresh, ht, timeStepSum_eq t hlen]

/-- C16: the rounded value is within half a unit of the 8th decimal of the exact mean step. -/
theorem C16_error (x : K) : |aroundDec 8 x - x| ≤ 1 / (2 * 10 ^ 8) := by
  unfold aroundDec
  have h := roundEven_abs_sub (x * 10 ^ 8)
  have e : (roundEven (x * 10 ^ 8) : K) / 10 ^ 8 - x = -((x * 10 ^ 8 - roundEven (x * 10 ^ 8)) / 10 ^ 8) := by
    field_simp; ring
  rw [e, abs_neg, abs_div, abs_of_pos (by positivity : (0 : K) < 10 ^ 8)]
  generalize |x * 10 ^ 8 - (roundEven (x * 10 ^ 8) : K)| = y at h
  rw [div_le_div_iff₀ (by positivity) (by positivity)]
  norm_num
  linarith

/-- C16: asking again gives the same value, for every reachable object. -/
theorem C16_repeat (env : DynEnv F M) (s s' : Dyn K F M) (hs : s.Reachable env) (x : K)
    (h : s.getTimeStep = some (x, s')) : s'.getTimeStep.map Prod.fst = some x := by
  have hwf := wf_of_reachable env s hs
  unfold Dyn.getTimeStep at h
  split at h
  · next y hy =>
    simp only [Option.some.injEq, Prod.mk.injEq] at h
    obtain ⟨rfl, rfl⟩ := h
    simp only [Option.filter_eq_some_iff] at hy
    have hy' := hwf.ts y hy.1
    have h0 : aroundDec 8 y ≠ 0 := by rw [hy']; simpa using hy.2
    simp [Dyn.getTimeStep, Option.filter, h0, aroundDec_idem]
  · simp only [Option.map_eq_some_iff, Prod.mk.injEq] at h
    obtain ⟨t, ht, rfl, rfl⟩ := h
    by_cases h0 : aroundDec 8 (timeStepSum t) = 0
    · simp [Dyn.getTimeStep, Option.filter, h0, ht]
    · simp [Dyn.getTimeStep, Option.filter, h0, aroundDec_idem]

/-- C16: on a uniform time grid whose step has at most 8 decimals the result is exactly the step. -/
theorem C16_uniform (s : Dyn K F M) (n : ℕ) (hn : 2 ≤ n) (t0 : K) (k : ℤ) (hfresh : s.timeStep = none)
    (ht : s.time = some ((List.range n).map fun (i : ℕ) => t0 + i * ((k : K) / 10 ^ 8))) :
    s.getTimeStep.map Prod.fst = some ((k : K) / 10 ^ 8) := by
  rw [C16_average s _ ht (by simpa using hn) hfresh]
  congr 1
  have h1 : n - 1 < n := by omega
  have h0 : 0 < n := by omega
  have hne : ((n - 1 : ℕ) : K) ≠ 0 := by
    have : 0 < n - 1 := by omega
    positivity
  have : (((List.range n).map fun (i : ℕ) => t0 + i * ((k : K) / 10 ^ 8)).getD
      (((List.range n).map fun (i : ℕ) => t0 + i * ((k : K) / 10 ^ 8)).length - 1) 0 -
      ((List.range n).map fun (i : ℕ) => t0 + i * ((k : K) / 10 ^ 8)).getD 0 0) /
      ((((List.range n).map fun (i : ℕ) => t0 + i * ((k : K) / 10 ^ 8)).length - 1 : ℕ) : K) = (k : K) / 10 ^ 8 := by
    simp only [List.length_map, List.length_range, List.getD_eq_getElem?_getD, List.getElem?_map,
      List.getElem?_range h1, List.getElem?_range h0, Option.map_some, Option.getD_some]
    field_simp
    push_cast
    ring
  rw [this]
  unfold aroundDec
  have : (k : K) / 10 ^ 8 * 10 ^ 8 = (k : K) := by field_simp
  rw [this, roundEven_intCast]

end Verif
