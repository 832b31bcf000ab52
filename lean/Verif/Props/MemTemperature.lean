import Verif.Props.MemArea
import Verif.Props.Analysis
import Verif.Props.Units
import Verif.Props.Projection
import Verif.Props.ChainOrigin

/-! # C150: areas of the maximum entropy spectra, the temperature and the modes -/

set_option autoImplicit false

namespace Verif

open Complex

/-- No spectrum is lost: the real (imaginary) part of a column is zero in all rows, or the maximum entropy spectrum of that part, taken alone, is different from zero at some frequency. -/
def NothingLost {m : ℕ} (env : SpecEnv) (p : SpecParams) (vq : List (Fin m → ℂ)) (dt : ℝ) : Prop :=
  ∀ i, ∀ part : ℂ → ℝ, part = re ∨ part = im → (∀ row ∈ vq, part (row i) = 0) ∨
    ∃ f, powerSpectra env 1 { p with freqs := [f] } (vq.map fun row (_ : Fin 1) => (part (row i) : ℂ)) dt ≠ .ok (false, [[0]])

theorem lost_area {m : ℕ} (env : SpecEnv) (he : CleanMemory env) (p : SpecParams) (vq : List (Fin m → ℂ)) (dt : ℝ) (hdt : 0 < dt) (hl : p.coefs + 1 < vq.length) (hne : NothingLost env p vq dt) (i : Fin m)
    (part : ℂ → ℝ) (hp : part = re ∨ part = im) :
    ∫ f in (0 : ℝ)..1 / (2 * dt), memPart (fun j => part ((column vq i).getD j 0)) vq.length p.coefs (f * 2 * Real.pi * dt) * dt * unitConversion = halfMeanSquare part vq i := by
  have hp0 : part 0 = 0 := by rcases hp with rfl | rfl <;> rfl
  have e : ∀ j, part ((column vq i).getD j 0) = (vq.map fun row => part (row i)).getD j 0 := by
    intro j
    simp only [column, List.getD_eq_getElem?_getD, List.getElem?_map]
    cases vq[j]? <;> simp [hp0]
  have hs := sum_shifted (vq.map fun row => part (row i))
  rw [List.length_map] at hs
  have hhalf : halfMeanSquare part vq i = (∑ j ∈ Finset.range vq.length, part ((column vq i).getD (j + 1) 0) ^ 2) / vq.length / 2 * unitConversion := by
    simp only [e]
    rw [hs, halfMeanSquare, List.drop_one, List.drop_one, ← List.map_tail, List.map_map]
    simp only [Function.comp_def]
    ring
  rcases memPart_area (fun j => part ((column vq i).getD j 0)) vq.length p.coefs dt hdt with h | h
  · rcases hne i part hp with h0 | ⟨f, hf⟩
    · have hz : ∀ j, part ((column vq i).getD j 0) = 0 := by
        intro j
        simp only [column, List.getD_eq_getElem?_getD, List.getElem?_map]
        cases hj : vq[j]? with
        | none => simpa using hp0
        | some row => simpa using h0 row (List.mem_of_getElem? hj)
      rw [hhalf]
      simp only [hz, memPart_zero]
      simp
    · exfalso
      apply hf
      rw [mem_rows env he _ _ dt (by simpa using hl)]
      simp only [List.map_cons, List.map_nil, List.length_map]
      refine congrArg (fun r => Except.ok (false, [r])) ?_
      have hof : ∀ g : Fin 1 → ℝ, List.ofFn g = [g 0] := fun g => by simp
      refine (hof _).trans ?_
      refine congrArg (fun x => [x]) ?_
      have e1 : ∀ j, ((column (vq.map fun row (_ : Fin 1) => (part (row i) : ℂ)) 0).getD j 0).re = part ((column vq i).getD j 0) := by
        intro j
        rw [e]
        simp only [column, List.getD_eq_getElem?_getD, List.getElem?_map]
        cases vq[j]? <;> simp
      have e2 : ∀ j, ((column (vq.map fun row (_ : Fin 1) => (part (row i) : ℂ)) 0).getD j 0).im = 0 := by
        intro j
        simp only [column, List.getD_eq_getElem?_getD, List.getElem?_map]
        cases vq[j]? <;> simp
      simp only [e1, e2, h, memPart_zero]
      simp
  · rw [intervalIntegral.integral_mul_const, h, hhalf]

/-- The spectra of the columns and their areas. -/
theorem C150_areas {m : ℕ} (env : SpecEnv) (he : CleanMemory env) (p : SpecParams) (vq : List (Fin m → ℂ)) (dt : ℝ) (hdt : 0 < dt) (hl : p.coefs + 1 < vq.length) (hne : NothingLost env p vq dt) :
    ∃ S : Fin m → ℝ → ℝ, (∀ i, Continuous (S i)) ∧ (∀ freqs, powerSpectra env 1 { p with freqs := freqs } vq dt = .ok (false, freqs.map fun f => List.ofFn fun i => S i f)) ∧
      ∀ i, ∫ f in (0 : ℝ)..1 / (2 * dt), S i f = unitConversion * (((vq.drop 1).map fun row => ‖row i‖ ^ 2 / 2).sum / vq.length) := by
  have hc : ∀ (g : ℂ → ℝ) i, Continuous fun f => memPart (fun j => g ((column vq i).getD j 0)) vq.length p.coefs (f * 2 * Real.pi * dt) * dt * unitConversion :=
    fun g i => (((memPart_continuous _ _ _).comp (by fun_prop)).mul continuous_const).mul continuous_const
  refine ⟨fun i f => memPart (fun j => ((column vq i).getD j 0).re) vq.length p.coefs (f * 2 * Real.pi * dt) * dt * unitConversion +
    memPart (fun j => ((column vq i).getD j 0).im) vq.length p.coefs (f * 2 * Real.pi * dt) * dt * unitConversion, fun i => (hc re i).add (hc im i), ?_, ?_⟩
  · intro freqs
    rw [mem_rows env he { p with freqs := freqs } vq dt hl]
    simp only [add_mul]
  · intro i
    rw [intervalIntegral.integral_add ((hc re i).intervalIntegrable _ _) ((hc im i).intervalIntegrable _ _), lost_area env he p vq dt hdt hl hne i re (Or.inl rfl),
      lost_area env he p vq dt hdt hl hne i im (Or.inr rfl)]
    simp only [halfMeanSquare, ← mul_add]
    have e : ((vq.drop 1).map fun row => ‖row i‖ ^ 2 / 2).sum = (((vq.drop 1).map fun row => (row i).re ^ 2).sum + ((vq.drop 1).map fun row => (row i).im ^ 2).sum) / 2 := by
      rw [← List.sum_map_add, div_eq_mul_inv, ← List.sum_map_mul_right]
      congr 1
      refine List.map_congr_left fun row _ => ?_
      rw [← normSq_eq_norm_sq, normSq_apply]
      ring
    rw [e]
    ring

theorem modes_area {f T d : ℕ} (env : SpecEnv) (he : CleanMemory env) (p : SpecParams) (hft : f = T * d) (ev : Fin f → Fin T → Fin d → ℂ)
    (horth : ∀ k l, ∑ i, ∑ c, ev k i c * star (ev l i c) = if k = l then 1 else 0) (w : List (ℕ → Fin d → ℂ)) (dt : ℝ) (hdt : 0 < dt) (hl : p.coefs + 1 < w.length)
    (hne : NothingLost env p (w.map fun v => projectOntoPhonon (fun t c => v t c) ev) dt) (hnw : NothingLost env p (componentRows T w) dt) :
    ∃ (phonon : Fin f → ℝ → ℝ) (wave : ℝ → ℝ), (∀ k, Continuous (phonon k)) ∧ Continuous wave ∧
      (∀ freqs, powerSpectra env 1 { p with freqs := freqs } (w.map fun v => projectOntoPhonon (fun t c => v t c) ev) dt = .ok (false, freqs.map fun x => List.ofFn fun k => phonon k x)) ∧
      (∀ freqs, summedSpectra env 1 { p with freqs := freqs } T w dt = .ok (false, freqs.map wave)) ∧
      ∑ k, ∫ x in (0 : ℝ)..1 / (2 * dt), phonon k x = ∫ x in (0 : ℝ)..1 / (2 * dt), wave x := by
  obtain ⟨S, hS1, hS2, hS3⟩ := C150_areas env he p _ dt hdt (by simpa using hl) hne
  obtain ⟨W, hW1, hW2, hW3⟩ := C150_areas env he p _ dt hdt (by rw [componentRows_length]; exact hl) hnw
  refine ⟨S, fun x => ∑ c, W c x, hS1, continuous_finsetSum _ fun c _ => hW1 c, hS2, ?_, ?_⟩
  · intro freqs
    unfold summedSpectra
    rw [hW2]
    simp only [Except.map, List.map_map, Function.comp_def, List.sum_ofFn]
  · rw [intervalIntegral.integral_finsetSum fun c _ => (hW1 c).intervalIntegrable _ _]
    simp only [hS3, hW3, componentRows_length, List.length_map]
    rw [← Finset.mul_sum, ← Finset.mul_sum, ← Finset.sum_div, ← Finset.sum_div]
    congr 2
    have hsum : ∀ {m : ℕ} (l : List (Fin m → ℂ)), ∑ k : Fin m, (l.map fun row => ‖row k‖ ^ 2 / 2).sum = (l.map fun row => (∑ k, ‖row k‖ ^ 2) / 2).sum := by
      intro m l
      induction l with
      | nil => simp
      | cons v l ih =>
        simp only [List.map_cons, List.sum_cons, Finset.sum_add_distrib, ih, Finset.sum_div]
    rw [hsum, hsum, componentRows, ← List.map_drop, ← List.map_drop, List.map_map, List.map_map]
    congr 1
    refine List.map_congr_left fun v _ => ?_
    simp only [Function.comp_def]
    rw [C23_power (fun (t : Fin T) c => v t c) ev hft horth, ← finProdFinEquiv.sum_comp, Fintype.sum_prod_type, Finset.sum_comm]
    congr 1
    refine Finset.sum_congr rfl fun k _ => Finset.sum_congr rfl fun i _ => ?_
    have h1 : ((finProdFinEquiv (k, i) : Fin (d * T)) : ℕ) % T = i := by
      simp [finProdFinEquiv_apply_val, Nat.mod_eq_of_lt i.2]
    have h2 : ((finProdFinEquiv (k, i) : Fin (d * T)) : ℕ) / T = k := by
      rw [finProdFinEquiv_apply_val, Nat.add_mul_div_left _ _ (by have := i.2; omega), Nat.div_eq_of_lt i.2, Nat.zero_add]
    have h3 : (⟨((finProdFinEquiv (k, i) : Fin (d * T)) : ℕ) / T, Nat.div_lt_of_lt_mul (by rw [Nat.mul_comm T d]; exact (finProdFinEquiv (k, i)).2)⟩ : Fin d) = k := Fin.ext h2
    rw [h3, h1]

/-- What `get_vc()` gives (dynaphopy/__init__.py:626-640), as in `waveSpectrum`. -/
noncomputable def AnalysisInput.waveRows {d f : ℕ} (a : AnalysisInput d f) : Option (List (ℕ → Fin d → ℂ)) := do
  let n ← a.multiples
  let coords := positionsSupercell a.positions a.cell n
  let vs ← a.velocities coords
  some (vs.map fun v t k => projectOntoWaveVector (massWeighted (expandSupercell a.masses n) v) (qVector a.primCellOf a.q) coords (expandSupercell a.labels n) a.nPrim (-1) t k)

/-- **C150**, modes: the maximum entropy spectra of the phonons do not add up to the spectrum of the wave vector, but their areas do, for every orthonormal set of eigenvectors and every number of coefficients
(if no spectrum is lost): from the trajectory. -/
theorem C150_modes {f d : ℕ} (env : SpecEnv) (he : CleanMemory env) (p : SpecParams) (a : AnalysisInput d f) (hft : f = a.nPrim * d)
    (horth : ∀ k l, ∑ i : Fin a.nPrim, ∑ c, a.ev k i c * star (a.ev l i c) = if k = l then 1 else 0) (hdt : 0 < a.dt) (hl : p.coefs + 1 < a.frames.length)
    (v : List (Fin f → ℂ)) (hv : a.vq = some v) (hne : NothingLost env p v a.dt) (hnw : ∀ w, a.waveRows = some w → NothingLost env p (componentRows a.nPrim w) a.dt) :
    ∃ (phonon : Fin f → ℝ → ℝ) (wave : ℝ → ℝ), (∀ k, Continuous (phonon k)) ∧ Continuous wave ∧
      (∀ freqs, a.phononSpectrum env 1 { p with freqs := freqs } = some (.ok (false, freqs.map fun x => List.ofFn fun k => phonon k x))) ∧
      (∀ freqs, a.waveSpectrum env 1 { p with freqs := freqs } = some (.ok (false, freqs.map wave))) ∧
      ∑ k, ∫ x in (0 : ℝ)..1 / (2 * a.dt), phonon k x = ∫ x in (0 : ℝ)..1 / (2 * a.dt), wave x := by
  cases hn : a.multiples with
  | none => simp [AnalysisInput.vq, hn] at hv
  | some n =>
    cases hvs : a.velocities (positionsSupercell a.positions a.cell n) with
    | none => simp [AnalysisInput.vq, hn, hvs] at hv
    | some vs =>
      have hlen : vs.length = a.frames.length := by
        unfold AnalysisInput.velocities at hvs
        split_ifs at hvs
        rw [← Option.some.inj hvs]
        simp
      set w : List (ℕ → Fin d → ℂ) := vs.map fun v t k =>
        projectOntoWaveVector (massWeighted (expandSupercell a.masses n) v) (qVector a.primCellOf a.q) (positionsSupercell a.positions a.cell n) (expandSupercell a.labels n) a.nPrim (-1) t k with hw
      have hvw : v = w.map fun x => projectOntoPhonon (fun (t : Fin a.nPrim) c => x t c) fun s (t : Fin a.nPrim) k => a.ev s t k := by
        simp only [AnalysisInput.vq, hn, hvs, Option.bind_eq_bind, Option.bind_some, Option.some.injEq] at hv
        rw [← hv, hw, List.map_map]
        rfl
      obtain ⟨P, W, h1, h2, h3, h4, h5⟩ := modes_area env he p hft (fun s (t : Fin a.nPrim) k => a.ev s t k) horth w a.dt hdt (by rw [hw, List.length_map, hlen]; exact hl) (hvw ▸ hne)
        (hnw w (by simp [AnalysisInput.waveRows, hn, hvs, hw]))
      refine ⟨P, W, h1, h2, fun freqs => ?_, fun freqs => ?_, h5⟩
      · rw [AnalysisInput.phononSpectrum, hv, Option.map_some, hvw, h3 freqs]
      · simp only [AnalysisInput.waveSpectrum, hn, hvs, Option.bind_eq_bind, Option.bind_some]
        rw [← h4 freqs]

/-- **C150**, temperature: the area of the full maximum entropy spectrum of a motion (real velocities, no atom at rest) is at most three halves of `k_B T` per atom, with the temperature of the analysis of the velocities
(C86) and the unit conversion of the spectra; if no component has a spectrum that is zero everywhere, what is missing is the kinetic energy of the first frame over the number of frames: for any number of coefficients. -/
theorem C150_temperature {N : ℕ} (env : SpecEnv) (he : CleanMemory env) (p : SpecParams) (masses : Fin N → ℝ) (hm : ∀ i, 0 < masses i) (hN : 0 < N) (v0 : Fin N → Fin 3 → ℂ) (vs : List (Fin N → Fin 3 → ℂ))
    (hreal : ∀ v ∈ v0 :: vs, ∀ i k, (v i k).im = 0) (hv : ∀ v ∈ v0 :: vs, ∀ i, ∃ j, v i j ≠ 0) (dt : ℝ) (hdt : 0 < dt) (hl : p.coefs < vs.length) (a : ℝ) (hfit : IsMaxwellFit (massSpeeds (v0 :: vs) masses) a) :
    let w : List (ℕ → Fin 3 → ℂ) := (v0 :: vs).map fun v i k => if h : i < N then v ⟨i, h⟩ k else 0
    ∃ S : ℝ → ℝ, (∀ freqs, summedSpectra env 1 { p with freqs := freqs } N (w.map fun v => massWeighted (List.ofFn masses) v) dt = .ok (false, freqs.map S)) ∧ Continuous S ∧ (∀ f, 0 ≤ S f) ∧
      ∫ f in (0 : ℝ)..1 / (2 * dt), S f ≤ unitConversion * (N * (3 / 2 * 0.831446 * boltzmannTemperature a)) ∧
      ((∀ i < N, ∀ k, ∃ f, powerSpectra env 1 { p with freqs := [f] } (w.map fun v (_ : Fin 1) => massWeighted (List.ofFn masses) v i k) dt ≠ .ok (false, [[0]])) →
        ∫ f in (0 : ℝ)..1 / (2 * dt), S f = unitConversion * (N * (3 / 2 * 0.831446 * boltzmannTemperature a) - (∑ i, 1 / 2 * masses i * ∑ j, ‖v0 i j‖ ^ 2) / (vs.length + 1))) := by
  intro w
  have huc : 0 < unitConversion := by unfold unitConversion; norm_num
  obtain ⟨S, h1, h2, h3, h4, h5⟩ := C149_kinetic env he p (List.ofFn masses) (by simp only [List.mem_ofFn]; rintro _ ⟨i, rfl⟩; exact (hm i).le) N w
    (by
      intro v hvw i k
      obtain ⟨u, hu, rfl⟩ := List.mem_map.1 hvw
      by_cases h : i < N
      · simpa [h] using hreal u hu ⟨i, h⟩ k
      · simp [h]) dt hdt (by simpa [w] using hl)
  have hE := C86_equipartition (v0 :: vs) masses hm hN (by simp) hv a hfit
  have hk : ∀ u : Fin N → Fin 3 → ℂ, kineticEnergy (List.ofFn masses) N (fun i k => if h : i < N then u ⟨i, h⟩ k else 0) = ∑ i, 1 / 2 * masses i * ∑ j, ‖u i j‖ ^ 2 := by
    intro u
    rw [kineticEnergy, Finset.sum_range]
    refine Finset.sum_congr rfl fun i _ => ?_
    rw [Finset.mul_sum]
    refine Finset.sum_congr rfl fun k _ => ?_
    simp
    ring
  have hN0 : (N : ℝ) ≠ 0 := by exact_mod_cast hN.ne'
  have hn0 : ((vs.length : ℝ) + 1) ≠ 0 := by positivity
  have hr : unitConversion * (((w.drop 1).map fun v => kineticEnergy (List.ofFn masses) N v).sum / w.length) =
      unitConversion * (N * (3 / 2 * 0.831446 * boltzmannTemperature a) - (∑ i, 1 / 2 * masses i * ∑ j, ‖v0 i j‖ ^ 2) / (vs.length + 1)) := by
    rw [hE]
    simp only [w, List.map_cons, List.drop_succ_cons, List.drop_zero, List.map_map, Function.comp_def, hk, List.sum_cons, List.length_cons, List.length_map, Nat.cast_add, Nat.cast_one]
    field_simp
    ring
  refine ⟨S, h1, h2, h3, h4.trans ?_, fun h => (h5 h).trans hr⟩
  rw [hr]
  refine mul_le_mul_of_nonneg_left (sub_le_self _ (div_nonneg (Finset.sum_nonneg fun i _ => ?_) (by positivity))) huc.le
  have := (hm i).le
  positivity

/-! ## The hypotheses can be met -/

/-- Three rows of real numbers, the last two of them 1 or -1: no spectrum is lost. -/
theorem nothingLost_three {m : ℕ} (env : SpecEnv) (he : CleanMemory env) (p : SpecParams) (hp : p.coefs = 1) (vq : List (Fin m → ℂ)) (dt : ℝ) (hdt : 0 < dt) (hlen : vq.length = 3)
    (him : ∀ row ∈ vq, ∀ i, (row i).im = 0) (hre : ∀ row ∈ vq.drop 1, ∀ i, (row i).re ^ 2 = 1) : NothingLost env p vq dt := by
  obtain ⟨r0, r1, r2, rfl⟩ : ∃ a b c, vq = [a, b, c] := by
    match vq, hlen with
    | [a, b, c], _ => exact ⟨a, b, c, rfl⟩
  intro i part hpart
  rcases hpart with rfl | rfl
  · refine Or.inr ⟨0, ?_⟩
    rw [mem_rows env he _ _ dt (by simp [hp])]
    have h1 : (r1 i).re ^ 2 = 1 := hre r1 (by simp) i
    have h2 : (r2 i).re ^ 2 = 1 := hre r2 (by simp) i
    have e := memPart_three (fun j => ((column ([r0, r1, r2].map fun row (_ : Fin 1) => ((row i).re : ℂ)) 0).getD j 0).re) (r1 i).re (r2 i).re (by simp [column]) (by simp [column]) (by simp [column]) (by rw [h1, h2]; norm_num)
    have e0 : (fun j => ((column ([r0, r1, r2].map fun row (_ : Fin 1) => ((row i).re : ℂ)) 0).getD j 0).im) = fun _ => 0 := by
      funext j
      simp only [column, List.map_cons, List.map_nil]
      match j with
      | 0 | 1 | 2 => simp
      | j + 3 => simp
    have huc : unitConversion ≠ 0 := by unfold unitConversion; norm_num
    intro h
    simp only [List.map_cons, List.map_nil, List.ofFn_succ, List.ofFn_zero, List.length_cons, List.length_nil, Except.ok.injEq, Prod.mk.injEq, true_and, List.cons.injEq, and_true, zero_mul, hp] at h e e0
    rw [e0, memPart_zero, e, h1, h2] at h
    have h3 : ((r1 i).re * (r2 i).re) ^ 2 = 1 := by rw [mul_pow, h1, h2, one_mul]
    have h4 : (r1 i).re * (r2 i).re = 1 ∨ (r1 i).re * (r2 i).re = -1 := by
      have h5 : ((r1 i).re * (r2 i).re - 1) * ((r1 i).re * (r2 i).re + 1) = 0 := by linear_combination h3
      rcases mul_eq_zero.1 h5 with h5 | h5
      · exact Or.inl (by linarith)
      · exact Or.inr (by linarith)
    rcases h4 with h4 | h4 <;> rw [h4] at h <;> norm_num [huc, hdt.ne'] at h
  · exact Or.inl fun row hrow => him row hrow i

/-- The crystal of one atom of `oneAtomCrystal` with two modes, along the axes. -/
noncomputable def twoModeCrystal : AnalysisInput 2 2 where
  positions := oneAtomCrystal.positions
  masses := oneAtomCrystal.masses
  cell := oneAtomCrystal.cell
  primitive := oneAtomCrystal.primitive
  mdCell := oneAtomCrystal.mdCell
  frames := oneAtomCrystal.frames
  dt := oneAtomCrystal.dt
  q := oneAtomCrystal.q
  ev := fun s _ k => if s = k then 1 else 0

open AnalysisInput in
example (env : SpecEnv) (he : CleanMemory env) : ∃ (phonon : Fin 2 → ℝ → ℝ) (wave : ℝ → ℝ),
    (∀ freqs, twoModeCrystal.phononSpectrum env 1 ⟨freqs, 1, 1, 1, 0⟩ = some (.ok (false, freqs.map fun x => List.ofFn fun k => phonon k x))) ∧
      ∑ k, ∫ x in (0 : ℝ)..1 / (2 * 1), phonon k x = ∫ x in (0 : ℝ)..1 / (2 * 1), wave x := by
  have hn : twoModeCrystal.nPrim = 1 := by
    have : twoModeCrystal.nPrim = oneAtomCrystal.nPrim := rfl
    rw [this]
    simp [nPrim, oneAtom_labels]
  have hmul : twoModeCrystal.multiples = some [1, 1] := oneAtom_multiples
  obtain ⟨vs, hvs, hv⟩ := oneAtom_velocities
  have hcoords : positionsSupercell twoModeCrystal.positions twoModeCrystal.cell [1, 1] = [0] := oneAtom_coords
  have hvs' : twoModeCrystal.velocities [0] = some vs := hvs
  have hm : expandSupercell twoModeCrystal.masses [1, 1] = [1] := by simp [expandSupercell, twoModeCrystal, oneAtomCrystal]
  have ht : expandSupercell twoModeCrystal.labels [1, 1] = [0] := by
    rw [show twoModeCrystal.labels = oneAtomCrystal.labels from rfl]
    simp [expandSupercell, oneAtom_labels]
  have hproj : ∀ (v : ℕ → Fin 2 → ℂ) (t : ℕ) (k : Fin 2), t < 1 → projectOntoWaveVector (massWeighted [1] v) (qVector twoModeCrystal.primCellOf twoModeCrystal.q) [0] [0] twoModeCrystal.nPrim (-1) t k = v 0 k := by
    intro v t k htt
    obtain rfl : t = 0 := by omega
    rw [hn]
    simp [projectOntoWaveVector_eq, massWeighted]
  have hvlen : vs.length = 3 := by simpa using congrArg List.length hv
  have hrow : ∀ (v : ℕ → Fin 2 → ℂ), v ∈ vs → v 0 = ![1, 3] ∨ v 0 = ![1, 1] ∨ v 0 = ![1, -1] := by
    intro v hvm
    have : v 0 ∈ vs.map (fun v => v 0) := List.mem_map.2 ⟨v, hvm, rfl⟩
    rw [hv] at this
    simpa using this
  have hrow1 : ∀ (v : ℕ → Fin 2 → ℂ), v ∈ vs.drop 1 → v 0 = ![1, 1] ∨ v 0 = ![1, -1] := by
    intro v hvm
    have : v 0 ∈ (vs.map (fun v => v 0)).drop 1 := by rw [← List.map_drop]; exact List.mem_map.2 ⟨v, hvm, rfl⟩
    rw [hv] at this
    simpa using this
  have him : ∀ v ∈ vs, ∀ k : Fin 2, (v 0 k).im = 0 := by
    intro v hvm k
    rcases hrow v hvm with h | h | h <;> rw [h] <;> fin_cases k <;> simp
  have hre : ∀ v ∈ vs.drop 1, ∀ k : Fin 2, (v 0 k).re ^ 2 = 1 := by
    intro v hvm k
    rcases hrow1 v hvm with h | h <;> rw [h] <;> fin_cases k <;> simp
  have hvq : twoModeCrystal.vq = some (vs.map fun v k => v 0 k) := by
    simp only [vq, hmul, Option.bind_eq_bind, Option.bind_some, hm, ht, hcoords, hvs', Option.some.injEq]
    refine List.map_congr_left fun v _ => ?_
    funext s
    rw [projectOntoPhonon_eq, Fin.sum_univ_eq_sum_range (fun t => ∑ c, projectOntoWaveVector (massWeighted [1] v) (qVector twoModeCrystal.primCellOf twoModeCrystal.q) [0] [0]
      twoModeCrystal.nPrim (-1) t c * star (twoModeCrystal.ev s t c))]
    rw [show Finset.range twoModeCrystal.nPrim = Finset.range 1 by rw [hn], Finset.sum_range_one]
    simp only [hproj v 0 _ one_pos]
    simp [twoModeCrystal]
  obtain ⟨P, W, -, -, h1, -, h2⟩ := C150_modes env he ⟨[], 1, 1, 1, 0⟩ twoModeCrystal (by rw [hn])
    (by
      intro k l
      rw [Fin.sum_univ_eq_sum_range (fun t => ∑ c, twoModeCrystal.ev k t c * star (twoModeCrystal.ev l t c)), show Finset.range twoModeCrystal.nPrim = Finset.range 1 by rw [hn], Finset.sum_range_one]
      fin_cases k <;> fin_cases l <;> simp [twoModeCrystal]) one_pos (by simp [twoModeCrystal, oneAtomCrystal]) _ hvq
    (nothingLost_three env he _ rfl _ _ one_pos (by simpa using hvlen) (by
      intro row hr i
      obtain ⟨v, hvm, rfl⟩ := List.mem_map.1 hr
      exact him v hvm i) (by
      intro row hr i
      rw [← List.map_drop] at hr
      obtain ⟨v, hvm, rfl⟩ := List.mem_map.1 hr
      exact hre v hvm i))
    (by
      intro w hw
      simp only [waveRows, hmul, Option.bind_eq_bind, Option.bind_some, hm, ht, hcoords, hvs', Option.some.injEq] at hw
      have hc : ∀ c : Fin (2 * twoModeCrystal.nPrim), (c : ℕ) % twoModeCrystal.nPrim < 1 := fun c => (Nat.mod_lt _ (by rw [hn]; exact one_pos)).trans_eq hn
      refine nothingLost_three env he _ rfl _ _ one_pos (by rw [componentRows_length, ← hw]; simpa using hvlen) ?_ ?_
      · intro row hr i
        rw [componentRows, ← hw, List.map_map] at hr
        obtain ⟨v, hvm, rfl⟩ := List.mem_map.1 hr
        simp only [Function.comp_def]
        rw [hproj v _ _ (hc i)]
        exact him v hvm _
      · intro row hr i
        rw [componentRows, ← hw, List.map_map, ← List.map_drop] at hr
        obtain ⟨v, hvm, rfl⟩ := List.mem_map.1 hr
        simp only [Function.comp_def]
        rw [hproj v _ _ (hc i)]
        exact hre v hvm _)
  exact ⟨P, W, h1, h2⟩

/-- An atom that moves with the velocity (1, 1, 1) in three frames. -/
example : ∃ (S : ℝ → ℝ) (a : ℝ), IsMaxwellFit (massSpeeds [fun _ _ => 1, fun _ _ => 1, fun _ _ => (1 : ℂ)] (fun _ : Fin 1 => 1)) a ∧
    ∫ f in (0 : ℝ)..1 / (2 * 1), S f = unitConversion * ((1 : ℕ) * (3 / 2 * 0.831446 * boltzmannTemperature a) - 1 / 2) ∧ 0 < ∫ f in (0 : ℝ)..1 / (2 * 1), S f := by
  have he : CleanMemory ⟨0, 1, fun _ _ _ _ => 0⟩ := ⟨le_refl _, fun _ _ _ => rfl⟩
  have huc : 0 < unitConversion := by unfold unitConversion; norm_num
  have hfit : IsMaxwellFit (massSpeeds [fun _ _ => 1, fun _ _ => 1, fun _ _ => (1 : ℂ)] (fun _ : Fin 1 => 1)) 1 := by
    rw [C86_fit _ (by simp [massSpeeds]) (by simp [massSpeeds])]
    refine ⟨one_pos, ?_⟩
    simp [massSpeeds]
    norm_num
  obtain ⟨S, h1, -, -, -, h2⟩ := C150_temperature _ he ⟨[], 1, 1, 1, 0⟩ (fun _ : Fin 1 => 1) (fun _ => one_pos) one_pos (fun _ _ => 1) [fun _ _ => 1, fun _ _ => 1] (by simp) (by
    intro v hv i
    refine ⟨0, ?_⟩
    simp only [List.mem_cons, List.not_mem_nil, or_false, or_self] at hv
    simp [hv]) 1 one_pos (by simp) 1 hfit
  have h3 := h2 (by
    intro i hi k
    obtain rfl : i = 0 := by omega
    have := nothingLost_three (m := 1) ⟨0, 1, fun _ _ _ _ => 0⟩ he ⟨[], 1, 1, 1, 0⟩ rfl [fun _ => 1, fun _ => 1, fun _ => 1] 1 one_pos rfl (by simp) (by simp) 0 re (Or.inl rfl)
    rcases this with h | ⟨f, hf⟩
    · simp at h
    · refine ⟨f, ?_⟩
      simpa [massWeighted] using hf)
  refine ⟨S, 1, hfit, ?_, ?_⟩
  · rw [h3]
    simp
    norm_num
  · rw [h3]
    refine mul_pos huc ?_
    norm_num [boltzmannTemperature, kbEnergy]

end Verif
