import Verif.Props.Dynamics

/-! # C13: cropping before the velocity has been calculated -/

set_option autoImplicit false

namespace Verif

variable {K F M : Type*} [Field K] [LinearOrder K] [IsStrictOrderedRing K] [FloorRing K]
  [AddCommGroup F] [Module K F]

/-- The gradient of the last frames: all entries but the first are those of the whole list. -/
theorem npGradient_lastN (f : List F) (h : K) (n : ℕ) (hn : 2 ≤ n) (v : List F) (hv : npGradient f h = some v) :
    v.length = f.length ∧ ∃ v', npGradient (lastN n f) h = some v' ∧ v'.length = min n f.length ∧ (∀ i, 0 < i → v'[i]? = (lastN n v)[i]?) ∧
      v'[0]? = some (h⁻¹ • ((lastN n f).getD 1 0 - (lastN n f).getD 0 0)) := by
  unfold npGradient at hv
  split_ifs at hv with hl
  simp only [Option.some.injEq] at hv
  subst hv
  have hlen : (lastN n f).length = min n f.length := lastN_length n f
  refine ⟨by simp, ?_⟩
  unfold npGradient
  rw [if_neg (by rw [hlen]; omega)]
  refine ⟨_, rfl, by simp [hlen], fun i hi => ?_, ?_⟩
  · have hd : ∀ j, (lastN n f).getD j 0 = f.getD (f.length - n + j) 0 := by
      intro j
      unfold lastN
      rw [List.getD_eq_getElem?_getD, List.getElem?_drop, List.getD_eq_getElem?_getD]
    by_cases hi' : i < min n f.length
    · have e2 : (lastN n (List.map (fun i =>
          if i = 0 then h⁻¹ • (f.getD 1 0 - f.getD 0 0)
          else if i = f.length - 1 then h⁻¹ • (f.getD i 0 - f.getD (i - 1) 0)
          else (2 * h)⁻¹ • (f.getD (i + 1) 0 - f.getD (i - 1) 0)) (List.range f.length)))[i]?
          = some (if f.length - n + i = 0 then h⁻¹ • (f.getD 1 0 - f.getD 0 0)
          else if f.length - n + i = f.length - 1 then h⁻¹ • (f.getD (f.length - n + i) 0 - f.getD (f.length - n + i - 1) 0)
          else (2 * h)⁻¹ • (f.getD (f.length - n + i + 1) 0 - f.getD (f.length - n + i - 1) 0)) := by
        unfold lastN
        rw [List.getElem?_drop, List.getElem?_map, List.length_map, List.length_range, List.getElem?_range (by omega)]
        rfl
      rw [e2, List.getElem?_map, List.getElem?_range (by rw [hlen]; exact hi')]
      simp only [Option.map_some, hd, hlen]
      rw [if_neg (by omega : ¬ i = 0), if_neg (by omega : ¬ f.length - n + i = 0)]
      have e3 : f.length - n + (i - 1) = f.length - n + i - 1 := by omega
      have e4 : f.length - n + (i + 1) = f.length - n + i + 1 := by omega
      rw [e3, e4]
      by_cases hlast : i = min n f.length - 1
      · rw [if_pos hlast, if_pos (by omega)]
      · rw [if_neg hlast, if_neg (by omega)]
    · rw [List.getElem?_eq_none (by simp [hlen]; omega), List.getElem?_eq_none (by rw [lastN_length]; simp; omega)]
  · rw [List.getElem?_map, List.getElem?_range (by rw [hlen]; omega)]
    simp

/-- Equal steps: the average time step is the step. -/
theorem timeStepSum_uniform (t : List K) (h : K) (hl : 2 ≤ t.length) (hu : ∀ i, i + 1 < t.length → t.getD (i + 1) 0 - t.getD i 0 = h) : timeStepSum t = h := by
  have hne : ((t.length - 1 : ℕ) : K) ≠ 0 := by
    have : t.length - 1 ≠ 0 := by omega
    exact_mod_cast this
  unfold timeStepSum
  have : ∀ m, m ≤ t.length - 1 → (List.range m).foldl (fun acc i => acc + (t.getD (i + 1) 0 - t.getD i 0) / ((t.length - 1 : ℕ) : K)) 0 = m * (h / ((t.length - 1 : ℕ) : K)) := by
    intro m
    induction m with
    | zero => intro _; simp
    | succ m ih =>
      intro hm
      rw [List.range_succ, List.foldl_append, ih (by omega)]
      simp only [List.foldl_cons, List.foldl_nil]
      rw [hu m (by omega)]
      push_cast
      ring
  rw [this _ le_rfl]
  field_simp

/-- **C13** (part: equal time steps, at least two remaining): if the velocity has not been calculated before cropping, the velocities of the remaining steps are the last ones of the velocities that the
uncropped object would give, except the first: that one is the difference of the first two remaining displacements divided by the time step. -/
theorem C13_unknown_partial (env : DynEnv F M) (s : Dyn K F M) (hs : s.Reachable env) (n : ℕ) (hn : 2 ≤ n) (hmm : s.memmap = false) (hv : s.velocity = none)
    (t : List K) (ht : s.time = some t) (hl : 2 ≤ t.length) (h : K) (hu : ∀ i, i + 1 < t.length → t.getD (i + 1) 0 - t.getD i 0 = h)
    (v r : List F) (hfull : (s.getVelocity env).map Prod.fst = some v) (hrel : (s.getRelative env).map Prod.fst = some r) :
    ∃ s' v' step, s.crop env (some (n : ℤ)) = some s' ∧ (s'.getVelocity env).map Prod.fst = some v' ∧ (s.getTimeStep).map Prod.fst = some step ∧ v'.length = min n v.length ∧
      (∀ i, 0 < i → v'[i]? = (lastN n v)[i]?) ∧ v'[0]? = some (step⁻¹ • ((lastN n r).getD 1 0 - (lastN n r).getD 0 0)) := by
  have hwf := wf_of_reachable env s hs
  have hz : ¬ ((n : ℤ) ≤ 0) := by omega
  -- the time step before and after
  obtain ⟨step, hstep⟩ : ∃ step, ∀ s₁ : Dyn K F M, s₁.timeStep = s.timeStep → (s₁.time = some t ∨ s₁.time = some (lastN n t)) →
      s₁.getTimeStep = some (step, { s₁ with timeStep := some step }) := by
    rcases hts : s.timeStep.filter (· ≠ 0) with _ | x
    · refine ⟨aroundDec 8 h, fun s₁ e1 e2 => ?_⟩
      have hsum : ∀ t', s₁.time = some t' → timeStepSum t' = h := by
        intro t' ht'
        rcases e2 with e2 | e2
        · rw [e2, Option.some.injEq] at ht'; subst ht'; exact timeStepSum_uniform t h hl hu
        · rw [e2, Option.some.injEq] at ht'; subst ht'
          refine timeStepSum_uniform _ h (by rw [lastN_length]; omega) fun i hi => ?_
          rw [lastN_length] at hi
          have hd : ∀ j, (lastN n t).getD j 0 = t.getD (t.length - n + j) 0 := by
            intro j
            unfold lastN
            rw [List.getD_eq_getElem?_getD, List.getElem?_drop, List.getD_eq_getElem?_getD]
          rw [hd, hd]
          exact hu (t.length - n + i) (by omega)
      unfold Dyn.getTimeStep
      rw [e1, hts]
      rcases e2 with e2 | e2 <;> simp [e2, hsum _ e2]
    · refine ⟨aroundDec 8 x, fun s₁ e1 _ => ?_⟩
      unfold Dyn.getTimeStep
      rw [e1, hts]
  -- the displacements before
  obtain ⟨s1, hs1, hs1t, hs1m⟩ : ∃ s1, s.getRelative env = some (r, s1) ∧ s1.timeStep = s.timeStep ∧ s1.time = s.time := by
    unfold Dyn.getRelative Dyn.getTrajectory at hrel ⊢
    rcases hr : s.relative with _ | r'
    · rw [hr] at hrel
      rcases htr : s.trajectory with _ | tr
      · rw [htr] at hrel
        rcases hsc : s.scaled with _ | sc
        · rw [hsc] at hrel; simp at hrel
        · rw [hsc] at hrel
          simp only [Option.map_some, Option.some.injEq] at hrel ⊢
          subst hrel
          exact ⟨_, rfl, rfl, rfl⟩
      · rw [htr] at hrel
        simp only [Option.map_some, Option.some.injEq] at hrel ⊢
        subst hrel
        exact ⟨_, rfl, rfl, rfl⟩
    · rw [hr] at hrel
      simp only [Option.map_some, Option.some.injEq] at hrel ⊢
      exact ⟨s, by rw [hrel], rfl, rfl⟩
  have hgrad : npGradient r step = some v := by
    unfold Dyn.getVelocity at hfull
    rw [hv] at hfull
    simp only [hs1, Option.bind_some, hstep s1 hs1t (.inl (by rw [hs1m, ht])), Option.map_map] at hfull
    obtain ⟨v₀, hv₀, e⟩ := Option.map_eq_some_iff.1 hfull
    simp only [Function.comp] at e
    rw [hv₀, e]
  obtain ⟨hvl, v', hv', hlen, hrest, hfirst⟩ := npGradient_lastN r step n hn v hgrad
  -- after the blocks of the crop
  set sc := Dyn.cropD n (Dyn.cropC n (Dyn.cropB n (Dyn.cropA n s))) with hsc
  have hblocks : sc = _ := crop_blocks env s hwf n
  obtain ⟨s2, hs2, hs2t, hs2m, hs2mm⟩ : ∃ s2, sc.getRelative env = some (lastN n r, s2) ∧ s2.timeStep = s.timeStep ∧ s2.time = some (lastN n t) ∧ s2.memmap = false := by
    rw [hblocks]
    unfold Dyn.getRelative Dyn.getTrajectory at hrel ⊢
    simp only
    rcases hr : s.relative with _ | r'
    · rw [hr] at hrel
      rcases htr : s.trajectory with _ | tr
      · rw [htr] at hrel
        rcases hsc : s.scaled with _ | sc
        · rw [hsc] at hrel; simp at hrel
        · rw [hsc] at hrel
          simp only [Option.map_some, Option.some.injEq] at hrel
          subst hrel
          rw [lastN_map, lastN_map]
          exact ⟨_, rfl, rfl, by simp [ht], hmm⟩
      · rw [htr] at hrel
        simp only [Option.map_some, Option.some.injEq] at hrel
        subst hrel
        rw [lastN_map]
        exact ⟨_, rfl, rfl, by simp [ht], hmm⟩
    · rw [hr] at hrel
      simp only [Option.map_some, Option.some.injEq] at hrel
      subst hrel
      obtain ⟨tr, htr, hr'⟩ := hwf.rel _ hr
      subst hr'
      rw [lastN_map, htr]
      exact ⟨_, rfl, rfl, by simp [ht], hmm⟩
  have hscv : sc.velocity = none := by rw [hblocks]; exact hv
  have hlast : lastN n v' = v' := by
    unfold lastN
    rw [show v'.length - n = 0 by omega, List.drop_zero]
  have hcrop : s.crop env (some (n : ℤ)) = some { s2 with timeStep := some step, velocity := some v', velocityMass := none, relative := none } := by
    unfold Dyn.crop
    simp only [hz, if_false, Int.toNat_natCast, ← hsc]
    unfold Dyn.getVelocity
    rw [hscv]
    simp only [hs2, Option.bind_some, hstep s2 hs2t (.inr hs2m), hv', Option.map_some, hlast, hs2mm, Bool.false_and, Bool.false_eq_true, if_false]
  refine ⟨_, v', step, hcrop, by simp [Dyn.getVelocity], by rw [hstep s rfl (.inl ht)]; rfl, by rw [hlen, hvl], hrest, hfirst⟩

/-- Accelerated motion x = 0, 1, 4, 9, 16: the last three velocities are 4, 6, 7; after cropping to three steps they are 5, 6, 7. -/
example : ∃ s' v' step, (({ trajectory := some [0, 1, 4, 9, 16], time := some [0, 1, 2, 3, 4] } : Dyn ℚ ℚ ℚ).crop envId (some ((3 : ℕ) : ℤ))) = some s' ∧ (s'.getVelocity envId).map Prod.fst = some v' ∧
    (({ trajectory := some [0, 1, 4, 9, 16], time := some [0, 1, 2, 3, 4] } : Dyn ℚ ℚ ℚ).getTimeStep).map Prod.fst = some step ∧ v'.length = 3 ∧
      (∀ i, 0 < i → v'[i]? = (lastN 3 [(1 : ℚ), 2, 4, 6, 7])[i]?) ∧ v'[0]? = some (step⁻¹ • ((9 : ℚ) - 4)) := by
  have := C13_unknown_partial envId ({ trajectory := some [0, 1, 4, 9, 16], time := some [0, 1, 2, 3, 4] } : Dyn ℚ ℚ ℚ) ⟨_, [], ⟨rfl, rfl, rfl, rfl⟩, rfl⟩ 3 (by omega) rfl rfl [0, 1, 2, 3, 4] rfl (by simp) 1
    (by
      intro i hi
      have hi' : i + 1 < 5 := by simpa using hi
      obtain h | h | h | h : i = 0 ∨ i = 1 ∨ i = 2 ∨ i = 3 := by omega
      all_goals (subst h; norm_num)) [1, 2, 4, 6, 7] [0, 1, 4, 9, 16] (by decide +kernel) (by decide +kernel)
  simpa [lastN] using this

end Verif
