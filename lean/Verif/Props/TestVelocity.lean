import Verif.Props.TestCrystal
import Verif.Props.VelocityAccuracy
import Verif.Props.Dynamics

/-! # C124: velocities calculated from the frames of the harmonic test trajectory -/

set_option autoImplicit false
set_option linter.unusedSectionVars false

namespace Verif

open Complex

/-- The frames of atom `i` as the C displacement routine gets them (complex numbers with imaginary part 0). -/
def atomFrames {d : ℕ} (trajectory : List (List (Fin d → ℝ))) (i : ℕ) : List (ℕ → ℝ × ℝ) :=
  trajectory.map fun frame k => (if h : k < d then frame.getD i 0 ⟨k, h⟩ else 0, 0)

/-- A complex function of time with derivative `A exp(-iωt) + B exp(iωt)`: its central difference quotient is the derivative times `sin(ωh)/(ωh)`. -/
theorem tones_difference (X : ℝ → ℂ) (A B : ℂ) (ω h : ℝ) (hω : ω ≠ 0) (hh : h ≠ 0)
    (hX : ∀ t : ℝ, HasDerivAt X (A * exp (-I * ω * t) + B * exp (I * ω * t)) t) (t : ℝ) :
    (X (t + h) - X (t - h)) / (2 * h) = (Real.sin (ω * h) / (ω * h) : ℝ) * (A * exp (-I * ω * t) + B * exp (I * ω * t)) := by
  have hωc : (ω : ℂ) ≠ 0 := by exact_mod_cast hω
  have hhc : (h : ℂ) ≠ 0 := by exact_mod_cast hh
  set W : ℝ → ℂ := fun t => A * exp (-I * ω * t) / (-I * ω) + B * exp (I * ω * t) / (I * ω) with hW
  have hlin : ∀ (a : ℂ) (t : ℝ), HasDerivAt (fun t : ℝ => exp (a * t)) (exp (a * t) * a) t := by
    intro a t
    have h1 : HasDerivAt (fun t : ℝ => a * (t : ℂ)) (a * 1) t := (ofRealCLM.hasDerivAt (x := t)).const_mul a
    rw [mul_one] at h1
    exact h1.cexp
  have hWd : ∀ t : ℝ, HasDerivAt W (A * exp (-I * ω * t) + B * exp (I * ω * t)) t := by
    intro t
    have h1 := ((hlin (-I * ω) t).const_mul A).div_const (-I * ω)
    have h2 := ((hlin (I * ω) t).const_mul B).div_const (I * ω)
    rw [← mul_assoc, mul_div_cancel_right₀ _ (mul_ne_zero (neg_ne_zero.mpr I_ne_zero) hωc)] at h1
    rw [← mul_assoc, mul_div_cancel_right₀ _ (mul_ne_zero I_ne_zero hωc)] at h2
    exact h1.add h2
  have hconst : ∀ a b, X a - W a = X b - W b := by
    apply is_const_of_deriv_eq_zero
    · exact fun t => ((hX t).sub (hWd t)).differentiableAt
    · intro t
      exact ((hX t).sub (hWd t)).deriv.trans (sub_self _)
  have e : X (t + h) - X (t - h) = W (t + h) - W (t - h) := by
    linear_combination hconst (t + h) (t - h)
  rw [e, hW]
  simp only
  have e1 : exp (-I * ω * ((t + h : ℝ) : ℂ)) = exp (-I * ω * t) * exp (-(ω * h : ℂ) * I) := by rw [← exp_add]; congr 1; push_cast; ring
  have e2 : exp (-I * ω * ((t - h : ℝ) : ℂ)) = exp (-I * ω * t) * exp ((ω * h : ℂ) * I) := by rw [← exp_add]; congr 1; push_cast; ring
  have e3 : exp (I * ω * ((t + h : ℝ) : ℂ)) = exp (I * ω * t) * exp ((ω * h : ℂ) * I) := by rw [← exp_add]; congr 1; push_cast; ring
  have e4 : exp (I * ω * ((t - h : ℝ) : ℂ)) = exp (I * ω * t) * exp (-(ω * h : ℂ) * I) := by rw [← exp_add]; congr 1; push_cast; ring
  rw [e1, e2, e3, e4]
  have hsin : ((Real.sin (ω * h) / (ω * h) : ℝ) : ℂ) = (exp (-(ω * h : ℂ) * I) - exp ((ω * h : ℂ) * I)) * I / 2 / (ω * h) := by
    push_cast
    rw [Complex.sin]
  rw [hsin]
  have d1 : ∀ z : ℂ, z / (-I * ω) = I * z / ω := by
    intro z
    rw [div_eq_div_iff (mul_ne_zero (neg_ne_zero.mpr I_ne_zero) hωc) hωc]
    linear_combination (z * ω) * I_mul_I
  have d2 : ∀ z : ℂ, z / (I * ω) = -I * z / ω := by
    intro z
    rw [div_eq_div_iff (mul_ne_zero I_ne_zero hωc) hωc]
    linear_combination (z * ω) * I_mul_I
  simp only [d1, d2]
  generalize exp (-(ω * h : ℂ) * I) = a, exp ((ω * h : ℂ) * I) = b, exp (-I * ω * t) = E1, exp (I * ω * t) = E2
  field_simp
  ring

section
variable {d f T : ℕ} {positions : List (Fin d → ℝ)} {types : List ℕ} {cell P : Matrix (Fin d) (Fin d) ℝ} {n : Fin d → ℕ} {q : List (Fin d → ℝ)}
  {ev : Fin q.length → Fin f → Fin T → Fin d → ℂ}
variable {K : Fin (positions.length * ∏ c, n c) × Fin d → Fin (positions.length * ∏ c, n c) × Fin d → ℝ} {masses : List ℝ} {freq : Fin q.length → Fin f → ℝ}

/-- C124: the whole way of the test calculation, from the generated frames to the projected velocity. The trajectory is generated without velocities; they are calculated from the displacements in the MD cell `box` (all less than half of it)
with the time step that is calculated from the time stamps, weighted with the masses and projected onto a phonon. In all frames but the first and the last one the result oscillates with exactly the frequency `f` of the phonon;
the amplitude, equal for all phonons in the motion, is reduced by the factor `sin(2πf Δt) / (2πf Δt)` of the difference quotient. Phonons that were left out do not appear. -/
theorem C124_velocity (hs : Setting positions types cell P n T (fun p : Fin q.length => q[p]) ev)
    (hK : IsHarmonicCrystal (positions.length * ∏ c, n c) K (positionsSupercell positions cell (List.ofFn n)) masses
      (expandSupercell types (List.ofFn n)) (fun p : Fin q.length => qVector (primCell cell P) q[p]) freq ev)
    (fmin temperature phase0 totalTime timeStep : ℝ) (hfmin : 0 ≤ fmin) (htemp : 0 ≤ temperature) (hstable : ∀ p s, fmin < |freq p s| → 0 < freq p s)
    (hstep : 0 < timeStep) (htotal : timeStep < totalTime) (decimals : ℤ) (hdec : timeStep = decimals / 10 ^ 8)
    (r : TestResult d) (hr : r = generateTest (positionsSupercell positions cell (List.ofFn n)) masses (expandSupercell types (List.ofFn n)) T (primCell cell P) q freq ev
      fmin totalTime timeStep temperature phase0)
    (hd : 2 ≤ d) (box : ℕ → ℕ → ℝ) (hbox : (toMatrix d box).det ≠ 0)
    (hnear : ∀ frame ∈ r.trajectory, ∀ i < positions.length * ∏ c, n c,
      ∃ g, HasFrac d box (fun k => if h : k < d then frame.getD i 0 ⟨k, h⟩ - (positionsSupercell positions cell (List.ofFn n)).getD i 0 ⟨k, h⟩ else 0) g ∧ ∀ l, |g l| < 1 / 2)
    {F M : Type*} [AddCommGroup F] [Module ℝ F] (dyn : Dyn ℝ F M) (hdyn : dyn.time = some r.time) (hfresh : dyn.timeStep = none) (dt : ℝ) (hdt : dyn.getTimeStep.map Prod.fst = some dt)
    (v : ℕ → ℕ → Fin d → ℝ)
    (hv : ∀ i < positions.length * ∏ c, n c, ∀ c : Fin d, columnVelocity d box (fun k => if h : k < d then (positionsSupercell positions cell (List.ofFn n)).getD i 0 ⟨k, h⟩ else 0)
      (atomFrames r.trajectory i) dt c = some ((List.range r.trajectory.length).map fun j => v j i c))
    (p : Fin q.length) (s : Fin f) :
    (fmin < |freq p s| → ∃ β : ℂ, ∀ j, 0 < j → j < r.trajectory.length - 1 →
      vqAt positions types cell P n T q[p] (ev p) (fun i c => ((Real.sqrt (masses.getD i 0) * v j i c : ℝ) : ℂ)) s =
      (Real.sin (2 * Real.pi * freq p s * timeStep) / (2 * Real.pi * freq p s * timeStep) : ℝ) *
      (-I * ((Real.exp phase0 * Real.sqrt (d * (0.831446 * temperature)) / 2 : ℝ) : ℂ) * exp (-I * (2 * Real.pi * freq p s : ℝ) * (j * timeStep : ℝ)) +
        β * exp (I * (2 * Real.pi * freq p s : ℝ) * (j * timeStep : ℝ)))) ∧
    (|freq p s| ≤ fmin → ∀ j, 0 < j → j < r.trajectory.length - 1 →
      vqAt positions types cell P n T q[p] (ev p) (fun i c => ((Real.sqrt (masses.getD i 0) * v j i c : ℝ) : ℂ)) s = 0) := by
  set R := positionsSupercell positions cell (List.ofFn n) with hR
  set x := testPath R masses (expandSupercell types (List.ofFn n)) T (primCell cell P) q freq ev fmin temperature phase0 with hx
  obtain ⟨hRlen, -⟩ := supercell_length hs
  obtain ⟨hlen, -, hlo, hhi, hframes, -⟩ := C124_frames R masses (expandSupercell types (List.ofFn n)) T (primCell cell P) freq fmin totalTime timeStep temperature phase0 r hr hstep (hstep.trans htotal)
  set N := r.trajectory.length with hN
  have hN2 : 2 ≤ N := by
    by_contra hc
    have : (N : ℝ) ≤ 1 := by exact_mod_cast (by omega : N ≤ 1)
    have : (N : ℝ) * timeStep ≤ 1 * timeStep := by gcongr
    linarith
  have hget : ∀ j (hj : j < N), r.trajectory[j]? = some (r.trajectory[j]) := fun j hj => List.getElem?_eq_getElem hj
  -- the time step
  have hdt' : dt = timeStep := by
    have htime : r.time = (List.range N).map fun (i : ℕ) => (0 : ℝ) + i * ((decimals : ℝ) / 10 ^ 8) := by
      apply List.ext_getElem (by simp [hlen])
      intro j h1 h2
      have h3 : j < N := by rw [hlen] at h1; exact h1
      have := (hframes j _ (hget j h3)).1
      rw [List.getElem?_eq_getElem h1, Option.some.injEq] at this
      rw [this, List.getElem_map, List.getElem_range, zero_add, hdec]
    have := C16_uniform dyn N hN2 0 decimals hfresh (by rw [hdyn, htime])
    rw [hdt, Option.some.injEq] at this
    rw [this, hdec]
  -- the velocity of an atom
  have hvel : ∀ i < positions.length * ∏ c, n c, ∀ c : Fin d, ∀ j, 0 < j → j < N - 1 →
      v j i c = (x i c (j * timeStep + timeStep) - x i c (j * timeStep - timeStep)) / (2 * timeStep) := by
    intro i hi c j hj0 hj
    have hfr : atomFrames r.trajectory i = (List.range N).map fun (j : ℕ) => fun k => (if h : k < d then x i ⟨k, h⟩ (j * timeStep) else 0, 0) := by
      unfold atomFrames
      apply List.ext_getElem (by simp [hN])
      intro j h1 h2
      have h3 : j < N := by simpa using h1
      rw [List.getElem_map, List.getElem_map, List.getElem_range]
      funext k
      split
      · rw [(hframes j _ (hget j h3)).2.2 i (by rw [hRlen]; exact hi)]
      · rfl
    have hcv := columnVelocity_eq d hd box hbox (fun k => if h : k < d then R.getD i 0 ⟨k, h⟩ else 0)
      (fun j k => if h : k < d then x i ⟨k, h⟩ (j * timeStep) - R.getD i 0 ⟨k, h⟩ else 0) dt N (fun _ _ => 0)
      (fun (j : ℕ) => fun k => (if h : k < d then x i ⟨k, h⟩ (j * timeStep) else 0, 0))
      (by intro j _ k; simp)
      (by
        intro j hj
        obtain ⟨g, hg, hg2⟩ := hnear _ (List.getElem_mem (show j < r.trajectory.length from hj)) i hi
        refine ⟨g, ?_, hg2⟩
        convert hg using 2 with k
        split
        · rw [(hframes j _ (hget j hj)).2.2 i (by rw [hRlen]; exact hi)]
        · rfl) c
    rw [← hfr, hv i hi c] at hcv
    obtain ⟨w, hw, -, -, -, hwi⟩ := npGradient_get N hN2 (fun (j : ℕ) => if h : (c : ℕ) < d then x i ⟨c, h⟩ (j * timeStep) - R.getD i 0 ⟨c, h⟩ else 0) dt
    rw [hw, Option.some.injEq] at hcv
    have h5 := hwi j hj0 hj
    rw [← hcv, List.getElem?_map, List.getElem?_range (by omega)] at h5
    simp only [Option.map_some, Option.some.injEq, c.2, dite_true] at h5
    rw [h5, hdt']
    have e1 : ((j + 1 : ℕ) : ℝ) * timeStep = j * timeStep + timeStep := by push_cast; ring
    have e2 : ((j - 1 : ℕ) : ℝ) * timeStep = j * timeStep - timeStep := by rw [Nat.cast_sub hj0]; push_cast; ring
    rw [e1, e2]
    ring
  -- the projected coordinates
  set X : ℝ → ℂ := fun t => vqAt positions types cell P n T q[p] (ev p) (fun i c => ((Real.sqrt (masses.getD i 0) * x i c t : ℝ) : ℂ)) s with hX
  have hXd : ∀ t : ℝ, HasDerivAt X (vqAt positions types cell P n T q[p] (ev p) (fun i c => ((Real.sqrt (masses.getD i 0) * deriv (x i c) t : ℝ) : ℂ)) s) t := by
    intro t
    rw [vqAt_bloch hs]
    have hXe : X = fun t => (∑ i ∈ Finset.range (positions.length * ∏ c, n c), ∑ c, ((Real.sqrt (masses.getD i 0) * x i c t : ℝ) : ℂ) *
      star (blochWave R (expandSupercell types (List.ofFn n)) (qVector (primCell cell P) q[p]) (ev p s) i c)) / (Real.sqrt q.length : ℂ) := by
      funext t; rw [hX]; simp only; rw [vqAt_bloch hs]
    rw [hXe]
    refine HasDerivAt.div_const (HasDerivAt.fun_sum fun i hi => HasDerivAt.fun_sum fun c _ => HasDerivAt.mul_const ?_ _) _
    have h1 := (C124_motion hs hK fmin temperature phase0 hstable x hx ⟨i, Finset.mem_range.1 hi⟩ c t).1
    exact (h1.const_mul (Real.sqrt (masses.getD i 0))).ofReal_comp
  have hdiff : ∀ j, 0 < j → j < N - 1 → vqAt positions types cell P n T q[p] (ev p) (fun i c => ((Real.sqrt (masses.getD i 0) * v j i c : ℝ) : ℂ)) s =
      (X (j * timeStep + timeStep) - X (j * timeStep - timeStep)) / (2 * timeStep) := by
    intro j hj0 hj
    simp only [hX]
    rw [vqAt_bloch hs, vqAt_bloch hs, vqAt_bloch hs, ← sub_div, ← Finset.sum_sub_distrib, div_right_comm]
    congr 1
    rw [Finset.sum_div]
    apply Finset.sum_congr rfl
    intro i hi
    rw [← Finset.sum_sub_distrib, Finset.sum_div]
    apply Finset.sum_congr rfl
    intro c _
    rw [hvel i (Finset.mem_range.1 hi) c j hj0 hj]
    push_cast
    ring
  have hproj := C124_projection hs hK fmin temperature phase0 hfmin htemp hstable x hx p s
  constructor
  · intro hinc
    obtain ⟨β, hβ⟩ := hproj.1 hinc
    refine ⟨β, fun j hj0 hj => ?_⟩
    have hf := hstable p s hinc
    have hpi := Real.pi_pos
    rw [hdiff j hj0 hj, tones_difference X _ β (2 * Real.pi * freq p s) timeStep (by positivity) hstep.ne' (fun t => by rw [← hβ t]; exact hXd t)]
  · intro hex j hj0 hj
    have h0 := hproj.2 hex
    rw [hdiff j hj0 hj]
    have hc : X (j * timeStep + timeStep) = X (j * timeStep - timeStep) :=
      is_const_of_deriv_eq_zero (fun t => (hXd t).differentiableAt) (fun t => by rw [(hXd t).deriv, h0 t]) _ _
    rw [hc, sub_self, zero_div]

end

theorem planeWave_norm {d : ℕ} (k r : Fin d → ℝ) : ‖planeWave k r‖ = 1 := by
  unfold planeWave
  rw [mul_comm, norm_exp_ofReal_mul_I]

theorem modeSum_re_le {κ ι : Type*} [Fintype κ] (b ω : κ → ℝ) (ψ : κ → ι → ℂ) (t : ℝ) (i : ι) : |(modeSum b ω ψ t i).re| ≤ ∑ k, |b k| * ‖ψ k i‖ := by
  refine (Complex.abs_re_le_norm _).trans ((norm_sum_le _ _).trans (Finset.sum_le_sum fun k _ => ?_))
  have : ‖exp (-I * ω k * t)‖ = 1 := by
    rw [show -I * (ω k : ℂ) * t = ((-(ω k * t) : ℝ) : ℂ) * I by push_cast; ring, norm_exp_ofReal_mul_I]
  rw [norm_mul, norm_mul, this, mul_one, norm_real, Real.norm_eq_abs]

/-- The hypothesis about the displacements is met: the crystal of `einstein_crystal` in the temperature 1 K, in a cubic box of 1 Å. -/
example (r : TestResult 3) (hr : r = generateTest (positionsSupercell [0] (1 : Matrix (Fin 3) (Fin 3) ℝ) (List.ofFn fun _ : Fin 3 => 1)) [1] (expandSupercell [0] (List.ofFn fun _ : Fin 3 => 1)) 1
      (primCell (1 : Matrix (Fin 3) (Fin 3) ℝ) 1) [0] (fun _ (_ : Fin 3) => 1) (fun _ s (_ : Fin 1) c => if s = c then 1 else 0) 0.1 2 0.002 1 0) :
    ∀ frame ∈ r.trajectory, ∀ i < ([0] : List (Fin 3 → ℝ)).length * ∏ _c : Fin 3, 1,
      ∃ g, HasFrac 3 (fun a b => if a = b then (1 : ℝ) else 0)
        (fun k => if h : k < 3 then frame.getD i 0 ⟨k, h⟩ - (positionsSupercell [0] (1 : Matrix (Fin 3) (Fin 3) ℝ) (List.ofFn fun _ : Fin 3 => 1)).getD i 0 ⟨k, h⟩ else 0) g ∧ ∀ l, |g l| < 1 / 2 := by
  intro frame hframe i hi
  obtain ⟨-, -, -, -, hframes, -⟩ := C124_frames (q := [0]) (ev := fun _ (s : Fin 3) (_ : Fin 1) c => if s = c then 1 else 0) _ _ _ _ _ _ _ _ _ _ _ r hr (by norm_num) (by norm_num)
  obtain ⟨j, hj, rfl⟩ := List.mem_iff_getElem.1 hframe
  have h1 := (hframes j _ (List.getElem?_eq_getElem hj)).2.2
  refine ⟨fun c => r.trajectory[j].getD i 0 c - (positionsSupercell [0] (1 : Matrix (Fin 3) (Fin 3) ℝ) (List.ofFn fun _ : Fin 3 => 1)).getD i 0 c, ?_, ?_⟩
  · intro k
    rw [Finset.sum_eq_single k]
    · simp [k.2]
    · intro b _ hb
      simp only [if_neg (fun h : (b : ℕ) = k => hb (Fin.ext h)), mul_zero]
    · simp
  · intro c
    have h2 := h1 i (by rw [(supercell_length einstein_setting).1]; exact hi) c
    simp only
    rw [h2, testPath_modeSum einstein_setting _ _ _ (⟨i, hi⟩, c), add_sub_cancel_left]
    have hi0 : i = 0 := by simpa using hi
    subst hi0
    have hpi := Real.pi_gt_three
    have hb : ∀ k, |testB ([0] : List (Fin 3 → ℝ)) (fun _ (_ : Fin 3) => 1) (((3 : ℕ) : ℝ) * (0.831446 * 1) / (([0] : List (Fin 3 → ℝ)).length : ℝ)) 0.1 0 k| ≤ 2 / 5 := by
      intro k
      unfold testB
      rw [if_pos (by norm_num), Real.exp_zero, one_mul, one_mul, abs_of_nonneg (by positivity), div_le_iff₀ (by positivity)]
      have h3 : Real.sqrt (((3 : ℕ) : ℝ) * (0.831446 * 1) / (([0] : List (Fin 3 → ℝ)).length : ℝ)) ≤ 2 := by
        rw [Real.sqrt_le_left (by norm_num)]; norm_num
      linarith
    have hψ : ∀ k : Fin ([0] : List (Fin 3 → ℝ)).length × Fin 3, ‖blochWave (positionsSupercell [0] (1 : Matrix (Fin 3) (Fin 3) ℝ) (List.ofFn fun _ : Fin 3 => 1)) (expandSupercell [0] (List.ofFn fun _ : Fin 3 => 1))
        (qVector (primCell (1 : Matrix (Fin 3) (Fin 3) ℝ) 1) ([0] : List (Fin 3 → ℝ))[k.1]) (fun (_ : Fin 1) c => if k.2 = c then (1 : ℂ) else 0) 0 c‖ ≤ if k.2 = c then 1 else 0 := by
      intro k
      unfold blochWave
      rw [norm_mul, planeWave_norm, mul_one]
      split
      · simp only
        by_cases hc : k.2 = c
        · simp only [if_pos hc, norm_one, le_refl]
        · simp only [if_neg hc, norm_zero, le_refl]
      · simp only [norm_zero]; split <;> norm_num
    have h4 := modeSum_re_le (testB ([0] : List (Fin 3 → ℝ)) (fun _ (_ : Fin 3) => 1) (((3 : ℕ) : ℝ) * (0.831446 * 1) / (([0] : List (Fin 3 → ℝ)).length : ℝ)) 0.1 0) (fun _ => 2 * Real.pi * 1)
      (fun k (i : Fin (([0] : List (Fin 3 → ℝ)).length * ∏ _c : Fin 3, 1) × Fin 3) => blochWave (positionsSupercell [0] (1 : Matrix (Fin 3) (Fin 3) ℝ) (List.ofFn fun _ : Fin 3 => 1)) (expandSupercell [0] (List.ofFn fun _ : Fin 3 => 1))
        (qVector (primCell (1 : Matrix (Fin 3) (Fin 3) ℝ) 1) ([0] : List (Fin 3 → ℝ))[k.1]) (fun (_ : Fin 1) c => if k.2 = c then (1 : ℂ) else 0) i.1 i.2) ((j : ℝ) * 0.002) (⟨0, hi⟩, c)
    have h5 : ∑ k : Fin ([0] : List (Fin 3 → ℝ)).length × Fin 3, (2 / 5 : ℝ) * (if k.2 = c then 1 else 0) = 2 / 5 := by
      rw [Fintype.sum_prod_type]; simp
    have h6 : (1 : ℝ) / Real.sqrt (([1] : List ℝ).getD 0 0) = 1 := by simp
    simp only [h6, one_mul]
    refine (h4.trans ((Finset.sum_le_sum fun k _ => mul_le_mul (hb k) (hψ k) (norm_nonneg _) (by norm_num)).trans h5.le)).trans_lt (by norm_num)

end Verif
