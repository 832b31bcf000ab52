import Verif.Model.TestTrajectory
import Verif.Props.HarmonicCore
import Verif.Props.NormalModes
import Verif.Props.TestTrajectory
import Verif.Props.DoubleRange

/-! # C124: the harmonic test trajectory as motion of a crystal -/

set_option autoImplicit false
set_option linter.unusedSectionVars false

namespace Verif

open Complex

/-! ## Specification -/

section spec
variable {d f T : ℕ}

/-- The mass weighted displacement of atom `i` in direction `c` in the phonon with wave vector `k` (cartesian) and eigenvector `e`: `e(type of i) exp(i k·r_i)`. -/
noncomputable def blochWave (coords : List (Fin d → ℝ)) (types : List ℕ) (k : Fin d → ℝ) (e : Fin T → Fin d → ℂ) (i : ℕ) (c : Fin d) : ℂ :=
  (if h : types.getD i 0 < T then e ⟨types.getD i 0, h⟩ c else 0) * planeWave k (coords.getD i 0)

/-- A harmonic crystal with `N` atoms, force constants `K` and these phonons: `K` is symmetric, and for each wave vector and branch the Bloch wave is an eigenvector of the mass weighted force constants; the
eigenvalue is `(2 pi f)²`, with the sign of `f` (imaginary frequencies are written as negative numbers by phonopy). -/
structure IsHarmonicCrystal (N : ℕ) (K : Fin N × Fin d → Fin N × Fin d → ℝ) (coords : List (Fin d → ℝ)) (masses : List ℝ) (types : List ℕ) {nq : ℕ} (k : Fin nq → Fin d → ℝ)
    (freq : Fin nq → Fin f → ℝ) (ev : Fin nq → Fin f → Fin T → Fin d → ℂ) : Prop where
  symmetric : ∀ i j, K i j = K j i
  masses_pos : ∀ i < N, 0 < masses.getD i 0
  modes : ∀ p s (i : Fin N × Fin d), ∑ j : Fin N × Fin d, ((K i j / (Real.sqrt (masses.getD i.1 0) * Real.sqrt (masses.getD j.1 0)) : ℝ) : ℂ) *
      blochWave coords types (k p) (ev p s) j.1 j.2 = ((2 * Real.pi * freq p s * |2 * Real.pi * freq p s| : ℝ) : ℂ) * blochWave coords types (k p) (ev p s) i.1 i.2

/-- The coordinate `c` of atom `i` at time `t` in the trajectory generated for a temperature: the frame of `generateTest` for that time (see `C124_frames`), for any real time. -/
noncomputable def testPath (coords : List (Fin d → ℝ)) (masses : List ℝ) (types : List ℕ) (nPrim : ℕ) (prim : Matrix (Fin d) (Fin d) ℝ) (q : List (Fin d → ℝ))
    (freq : Fin q.length → Fin f → ℝ) (ev : Fin q.length → Fin f → Fin T → Fin d → ℂ) (fmin temperature phase0 : ℝ) (i : ℕ) (c : Fin d) (t : ℝ) : ℝ :=
  (testFrame coords masses types prim q freq ev (testEnergy d temperature (coords.length / nPrim) (q.length * nPrim / coords.length)) fmin phase0 t).getD i 0 c

end spec

/-! ## The frame as a superposition -/

theorem sum_filter_map {α : Type*} (P : α → Bool) (g : α → ℝ) : ∀ l : List α, ((l.filter P).map g).sum = (l.map fun m => if P m then g m else 0).sum
  | [] => rfl
  | a :: l => by
    by_cases h : P a
    · simp [h, sum_filter_map P g l]
    · simp [h, sum_filter_map P g l]

theorem sum_flatMap_map {α β : Type*} (g : β → ℝ) (F : α → List β) : ∀ l : List α, ((l.flatMap F).map g).sum = (l.map fun a => ((F a).map g).sum).sum
  | [] => rfl
  | a :: l => by simp [List.flatMap_cons, sum_flatMap_map g F l]

section
variable {d f T : ℕ} {positions : List (Fin d → ℝ)} {types : List ℕ} {cell P : Matrix (Fin d) (Fin d) ℝ} {n : Fin d → ℕ} {q : List (Fin d → ℝ)}
  {ev : Fin q.length → Fin f → Fin T → Fin d → ℂ}

/-- Amplitudes of the superposition. -/
noncomputable def testB (q : List (Fin d → ℝ)) (freq : Fin q.length → Fin f → ℝ) (energy fmin phase0 : ℝ) (k : Fin q.length × Fin f) : ℝ :=
  if fmin < |freq k.1 k.2| then Real.exp phase0 * (Real.sqrt energy / (freq k.1 k.2 * 2 * Real.pi)) else 0

theorem testTerm_re (energy mass phase0 t : ℝ) (m : TestMode) :
    testTerm energy mass phase0 t m = 1 / Real.sqrt mass *
      (((Real.exp phase0 * testAmplitude energy m : ℝ) : ℂ) * exp (-I * ((2 * Real.pi * m.freq : ℝ) : ℂ) * t) * (m.e * exp (I * (m.qr : ℂ)))).re := by
  unfold testTerm
  simp only
  rw [← re_ofReal_mul]
  congr 1
  rw [exp_add]
  push_cast
  rw [show -I * (m.freq : ℂ) * 2 * (Real.pi : ℂ) * (t : ℂ) = -I * (2 * (Real.pi : ℂ) * m.freq) * t by ring]
  ring

/-- The coordinates of a frame. -/
theorem testFrame_eq (coords : List (Fin d → ℝ)) (masses : List ℝ) (types : List ℕ) (prim : Matrix (Fin d) (Fin d) ℝ) (freq : Fin q.length → Fin f → ℝ)
    (energy fmin phase0 t : ℝ) (i : ℕ) (hi : i < coords.length) (c : Fin d) :
    (testFrame coords masses types prim q freq ev energy fmin phase0 t).getD i 0 c = coords.getD i 0 c +
      1 / Real.sqrt (masses.getD i 0) * (∑ k : Fin q.length × Fin f, ((testB q freq energy fmin phase0 k : ℝ) : ℂ) *
        exp (-I * ((2 * Real.pi * freq k.1 k.2 : ℝ) : ℂ) * t) * blochWave coords types (qVector prim q[k.1]) (ev k.1 k.2) i c).re := by
  have h1 : (testFrame coords masses types prim q freq ev energy fmin phase0 t).getD i 0 c =
      testCoordinate energy (masses.getD i 0) fmin phase0 (coords.getD i 0 c) t (testModes prim q freq ev (coords.getD i 0) (types.getD i 0) c) := by
    unfold testFrame
    rw [List.getD_eq_getElem?_getD, List.getElem?_map, List.getElem?_range hi]
    rfl
  rw [h1]
  unfold testCoordinate
  congr 1
  rw [sum_filter_map]
  unfold testModes
  rw [sum_flatMap_map, ← Fin.sum_univ_def, re_sum, Finset.mul_sum, Fintype.sum_prod_type, Finset.sum_comm]
  apply Finset.sum_congr rfl
  intro s _
  rw [List.map_map, ← Fin.sum_univ_def]
  apply Finset.sum_congr rfl
  intro p _
  simp only [Function.comp_apply]
  unfold testB blochWave planeWave
  simp only [decide_eq_true_eq]
  split_ifs with h0 h2
  · rw [testTerm_re]
    rfl
  · rw [testTerm_re]
    rfl
  · simp
  · simp

/-! ## Orthogonality -/

/-- The projection of `get_vq` as a scalar product with the Bloch wave. -/
theorem vqAt_bloch (hs : Setting positions types cell P n T (fun p : Fin q.length => q[p]) ev) (v : ℕ → Fin d → ℂ) (p : Fin q.length) (s : Fin f) :
    vqAt positions types cell P n T q[p] (ev p) v s = (∑ i ∈ Finset.range (positions.length * ∏ c, n c), ∑ c, v i c *
      star (blochWave (positionsSupercell positions cell (List.ofFn n)) (expandSupercell types (List.ofFn n)) (qVector (primCell cell P) q[p]) (ev p s) i c)) /
      (Real.sqrt q.length : ℂ) := by
  have hq := hs.complete.complete cell hs.cell_ne hs.prim_ne
  have hlen : (expandSupercell types (List.ofFn n)).length = positions.length * ∏ c, n c := by
    rw [C02_length types positions cell _ hs.crystal.len, C01_count, List.prod_ofFn]
  have hcard : (Fintype.card (Fin q.length)) = q.length := Fintype.card_fin _
  set R := positionsSupercell positions cell (List.ofFn n)
  set τ := expandSupercell types (List.ofFn n)
  unfold vqAt
  rw [projectOntoPhonon_eq, ← hlen, ← sum_types hq, ← Fin.sum_univ_eq_sum_range
    (fun t => ∑ i ∈ atomsOf τ t, ∑ c, v i c * star (blochWave R τ (qVector (primCell cell P) q[p]) (ev p s) i c)), Finset.sum_div]
  apply Finset.sum_congr rfl
  intro t _
  rw [Finset.sum_comm (s := atomsOf τ t), Finset.sum_div]
  apply Finset.sum_congr rfl
  intro c _
  rw [project_wave hq hs.types_pos, hcard, div_mul_eq_mul_div, Finset.sum_mul]
  congr 1
  apply Finset.sum_congr rfl
  intro i hi
  rw [Finset.mem_filter] at hi
  have ht : τ.getD i 0 < T := by rw [hi.2]; exact t.2
  have ht' : (⟨τ.getD i 0, ht⟩ : Fin T) = t := Fin.ext hi.2
  unfold blochWave
  rw [dif_pos ht, ht', star_mul']
  ring

theorem testCard_pos (hs : Setting positions types cell P n T (fun p : Fin q.length => q[p]) ev) : 0 < q.length := by
  have := hs.complete.pos
  simpa using this

/-- The Bloch waves are orthogonal. -/
theorem bloch_orthogonal (hs : Setting positions types cell P n T (fun p : Fin q.length => q[p]) ev) (k l : Fin q.length × Fin f) :
    ∑ i : Fin (positions.length * ∏ c, n c) × Fin d,
      star (blochWave (positionsSupercell positions cell (List.ofFn n)) (expandSupercell types (List.ofFn n)) (qVector (primCell cell P) q[k.1]) (ev k.1 k.2) i.1 i.2) *
      blochWave (positionsSupercell positions cell (List.ofFn n)) (expandSupercell types (List.ofFn n)) (qVector (primCell cell P) q[l.1]) (ev l.1 l.2) i.1 i.2 =
      if k = l then ((q.length : ℝ) : ℂ) else 0 := by
  have hM := testCard_pos hs
  have hMc : (q.length : ℂ) ≠ 0 := by exact_mod_cast hM.ne'
  have hsq : (Real.sqrt q.length : ℂ) * (Real.sqrt q.length : ℂ) = (q.length : ℂ) := sqrt_mul_sqrt_card _
  have hs0 : (Real.sqrt q.length : ℂ) ≠ 0 := by
    intro h0; rw [h0, mul_zero] at hsq; exact hMc hsq.symm
  have h := C103_amplitudes hs (fun p s => if l = (p, s) then 1 else 0) k.1 k.2
  rw [vqAt_bloch hs] at h
  have hv : ∀ i c, modeVelocity positions types cell P n T (fun p : Fin q.length => q[p]) ev (fun p s => if l = (p, s) then 1 else 0) i c =
      blochWave (positionsSupercell positions cell (List.ofFn n)) (expandSupercell types (List.ofFn n)) (qVector (primCell cell P) q[l.1]) (ev l.1 l.2) i c / (Real.sqrt q.length : ℂ) := by
    intro i c
    unfold modeVelocity superposition
    rw [Finset.sum_eq_single l.1, Finset.sum_eq_single l.2]
    · beta_reduce
      rw [if_pos (by rfl), one_mul, Fintype.card_fin]
      rfl
    · intro s _ hne
      beta_reduce
      rw [if_neg (by intro h; exact hne (by rw [h])), zero_mul, zero_mul, zero_div]
    · simp
    · intro p _ hne
      apply Finset.sum_eq_zero
      intro s _
      beta_reduce
      rw [if_neg (by intro h; exact hne (by rw [h])), zero_mul, zero_mul, zero_div]
    · simp
  simp only [hv] at h
  rw [Fintype.sum_prod_type]
  rw [← Fin.sum_univ_eq_sum_range (fun i => ∑ c, blochWave (positionsSupercell positions cell (List.ofFn n)) (expandSupercell types (List.ofFn n)) (qVector (primCell cell P) q[l.1]) (ev l.1 l.2) i c /
      (Real.sqrt q.length : ℂ) * star (blochWave (positionsSupercell positions cell (List.ofFn n)) (expandSupercell types (List.ofFn n)) (qVector (primCell cell P) q[k.1]) (ev k.1 k.2) i c)),
    div_eq_iff hs0] at h
  have h2 := congrArg (fun z => z * (Real.sqrt q.length : ℂ)) h
  simp only [mul_assoc, hsq, Finset.sum_mul] at h2
  have e : (if k = l then ((q.length : ℝ) : ℂ) else 0) = (if l = (k.1, k.2) then 1 else 0) * (q.length : ℂ) := by
    by_cases hkl : k = l
    · rw [if_pos hkl, if_pos (by rw [← hkl]), one_mul]; push_cast; rfl
    · rw [if_neg hkl, if_neg (by intro h; exact hkl h.symm), zero_mul]
  rw [e, ← h2]
  apply Finset.sum_congr rfl; intro i _
  apply Finset.sum_congr rfl; intro c _
  field_simp

/-! ## C124 -/

/-- C124: the frames, their times and energies. For a positive step, frame `j` is the configuration at time `j time_step`, which is also the `j`th time; the times fill the total time; the energies are all
`N d k_B T`. -/
theorem C124_frames (coords : List (Fin d → ℝ)) (masses : List ℝ) (types : List ℕ) (nPrim : ℕ) (prim : Matrix (Fin d) (Fin d) ℝ) (freq : Fin q.length → Fin f → ℝ)
    (fmin totalTime timeStep temperature phase0 : ℝ) (r : TestResult d) (hr : r = generateTest coords masses types nPrim prim q freq ev fmin totalTime timeStep temperature phase0)
    (hstep : 0 < timeStep) (htotal : 0 < totalTime) :
    r.time.length = r.trajectory.length ∧ r.energy.length = r.trajectory.length ∧
    ((r.trajectory.length : ℝ) - 1) * timeStep < totalTime ∧ totalTime ≤ r.trajectory.length * timeStep ∧
    (∀ (j : ℕ) (frame : List (Fin d → ℝ)), r.trajectory[j]? = some frame → r.time[j]? = some ((j : ℝ) * timeStep) ∧ frame.length = coords.length ∧
      ∀ i < coords.length, ∀ c, frame.getD i 0 c = testPath coords masses types nPrim prim q freq ev fmin temperature phase0 i c (j * timeStep)) ∧
    ∀ E ∈ r.energy, E = coords.length * d * (0.831446 * temperature) := by
  subst hr
  have hlen : (generateTest coords masses types nPrim prim q freq ev fmin totalTime timeStep temperature phase0).trajectory.length = ⌈totalTime / timeStep⌉.toNat := by
    simp [generateTest, arange]
  have hpos : 0 < ⌈totalTime / timeStep⌉ := Int.ceil_pos.mpr (by positivity)
  have hcast : ((⌈totalTime / timeStep⌉.toNat : ℕ) : ℝ) = (⌈totalTime / timeStep⌉ : ℝ) := by
    have : ((⌈totalTime / timeStep⌉.toNat : ℤ)) = ⌈totalTime / timeStep⌉ := Int.toNat_of_nonneg hpos.le
    exact_mod_cast congrArg (Int.cast : ℤ → ℝ) this
  refine ⟨by simp [generateTest], by simp [generateTest], ?_, ?_, ?_, ?_⟩
  · rw [hlen, hcast]
    have := Int.ceil_lt_add_one (totalTime / timeStep)
    rw [← lt_div_iff₀ hstep]; linarith
  · rw [hlen, hcast, ← div_le_iff₀ hstep]
    exact Int.le_ceil _
  · intro j frame hj
    have hjl : j < ⌈totalTime / timeStep⌉.toNat := by
      rw [← hlen]; exact (List.getElem?_eq_some_iff.mp hj).1
    simp only [generateTest, arange, List.map_map, List.getElem?_map, List.length_map, List.length_range, sub_zero, List.getElem?_range hjl, Option.map_some, Option.some.injEq,
      Function.comp_apply, zero_add] at hj ⊢
    refine ⟨trivial, ?_, ?_⟩
    · rw [← hj]; simp [testFrame]
    · intro i _ c
      rw [← hj]; rfl
  · intro E hE
    simp only [generateTest, List.mem_map] at hE
    obtain ⟨-, -, rfl⟩ := hE
    ring

section harmonic
variable {K : Fin (positions.length * ∏ c, n c) × Fin d → Fin (positions.length * ∏ c, n c) × Fin d → ℝ} {masses : List ℝ} {freq : Fin q.length → Fin f → ℝ}

theorem supercell_length (hs : Setting positions types cell P n T (fun p : Fin q.length => q[p]) ev) :
    (positionsSupercell positions cell (List.ofFn n)).length = positions.length * ∏ c, n c ∧ positions.length * ∏ c, n c = T * q.length := by
  have hq := hs.complete.complete cell hs.cell_ne hs.prim_ne
  refine ⟨by rw [C01_count, List.prod_ofFn], ?_⟩
  have := card_atoms hq
  rw [C02_length types positions cell _ hs.crystal.len, C01_count, List.prod_ofFn, Fintype.card_fin] at this
  exact this

/-- The number under the root of the amplitude. -/
theorem testEnergy_crystal (hs : Setting positions types cell P n T (fun p : Fin q.length => q[p]) ev) (temperature : ℝ) :
    testEnergy d temperature (((positionsSupercell positions cell (List.ofFn n)).length : ℝ) / T) (q.length * T / ((positionsSupercell positions cell (List.ofFn n)).length : ℝ)) =
      d * (0.831446 * temperature) / q.length := by
  obtain ⟨h1, h2⟩ := supercell_length hs
  have hM := testCard_pos hs
  have hT := hs.types_pos
  rw [h1, h2]
  unfold testEnergy
  push_cast
  have : (T : ℝ) ≠ 0 := by exact_mod_cast hT.ne'
  have : (q.length : ℝ) ≠ 0 := by exact_mod_cast hM.ne'
  field_simp

/-- Coordinates and velocities as sums of modes. -/
theorem testPath_modeSum (hs : Setting positions types cell P n T (fun p : Fin q.length => q[p]) ev)
    (fmin temperature phase0 : ℝ) (i : Fin (positions.length * ∏ c, n c) × Fin d) (t : ℝ) :
    testPath (positionsSupercell positions cell (List.ofFn n)) masses (expandSupercell types (List.ofFn n)) T (primCell cell P) q freq ev fmin temperature phase0 i.1 i.2 t =
      (positionsSupercell positions cell (List.ofFn n)).getD i.1 0 i.2 + 1 / Real.sqrt (masses.getD i.1 0) *
        (modeSum (testB q freq (d * (0.831446 * temperature) / q.length) fmin phase0) (fun k => 2 * Real.pi * freq k.1 k.2)
          (fun k (i : Fin (positions.length * ∏ c, n c) × Fin d) => blochWave (positionsSupercell positions cell (List.ofFn n)) (expandSupercell types (List.ofFn n))
            (qVector (primCell cell P) q[k.1]) (ev k.1 k.2) i.1 i.2) t i).re := by
  unfold testPath
  rw [testFrame_eq _ _ _ _ _ _ _ _ _ _ (by rw [(supercell_length hs).1]; exact i.1.2), testEnergy_crystal hs]
  rfl

theorem testB_included {energy fmin phase0 : ℝ} (k : Fin q.length × Fin f) (h : testB q freq energy fmin phase0 k ≠ 0) : fmin < |freq k.1 k.2| := by
  by_contra hc
  exact h (by unfold testB; rw [if_neg hc])

theorem lam_of_pos {x : ℝ} (h : 0 < x) : 2 * Real.pi * x * |2 * Real.pi * x| = (2 * Real.pi * x) ^ 2 := by
  have := Real.pi_pos
  rw [abs_of_pos (by positivity)]; ring

theorem harmonic_modes (hK : IsHarmonicCrystal (positions.length * ∏ c, n c) K (positionsSupercell positions cell (List.ofFn n)) masses
      (expandSupercell types (List.ofFn n)) (fun p : Fin q.length => qVector (primCell cell P) q[p]) freq ev)
    {fmin : ℝ} (hstable : ∀ p s, fmin < |freq p s| → 0 < freq p s) (energy phase0 : ℝ) (k : Fin q.length × Fin f)
    (hb : testB q freq energy fmin phase0 k ≠ 0) (i : Fin (positions.length * ∏ c, n c) × Fin d) :
    ∑ j : Fin (positions.length * ∏ c, n c) × Fin d, ((K i j / (Real.sqrt (masses.getD i.1 0) * Real.sqrt (masses.getD j.1 0)) : ℝ) : ℂ) *
      blochWave (positionsSupercell positions cell (List.ofFn n)) (expandSupercell types (List.ofFn n)) (qVector (primCell cell P) q[k.1]) (ev k.1 k.2) j.1 j.2 =
      (((2 * Real.pi * freq k.1 k.2) ^ 2 : ℝ) : ℂ) *
      blochWave (positionsSupercell positions cell (List.ofFn n)) (expandSupercell types (List.ofFn n)) (qVector (primCell cell P) q[k.1]) (ev k.1 k.2) i.1 i.2 := by
  rw [hK.modes k.1 k.2 i, lam_of_pos (hstable _ _ (testB_included k hb))]

/-- C124: the generated trajectory is a solution of the equations of motion `m x'' = -Σ K u` of the harmonic crystal whose phonons were used, for every phase and temperature. -/
theorem C124_motion (hs : Setting positions types cell P n T (fun p : Fin q.length => q[p]) ev)
    (hK : IsHarmonicCrystal (positions.length * ∏ c, n c) K (positionsSupercell positions cell (List.ofFn n)) masses
      (expandSupercell types (List.ofFn n)) (fun p : Fin q.length => qVector (primCell cell P) q[p]) freq ev)
    (fmin temperature phase0 : ℝ) (hstable : ∀ p s, fmin < |freq p s| → 0 < freq p s) (x : ℕ → Fin d → ℝ → ℝ)
    (hx : x = testPath (positionsSupercell positions cell (List.ofFn n)) masses (expandSupercell types (List.ofFn n)) T (primCell cell P) q freq ev fmin temperature phase0)
    (i : Fin (positions.length * ∏ c, n c)) (c : Fin d) (t : ℝ) :
    HasDerivAt (x i c) (deriv (x i c) t) t ∧
    HasDerivAt (deriv (x i c)) (-(∑ j : Fin (positions.length * ∏ c, n c) × Fin d, K (i, c) j * (x j.1 j.2 t - (positionsSupercell positions cell (List.ofFn n)).getD j.1 0 j.2)) /
      masses.getD i 0) t := by
  set R := positionsSupercell positions cell (List.ofFn n) with hR
  set b := testB q freq (d * (0.831446 * temperature) / q.length) fmin phase0 with hb
  set ψ := (fun (k : Fin q.length × Fin f) (i : Fin (positions.length * ∏ c, n c) × Fin d) => blochWave R (expandSupercell types (List.ofFn n))
            (qVector (primCell cell P) q[k.1]) (ev k.1 k.2) i.1 i.2) with hψ
  set ω := (fun k : Fin q.length × Fin f => 2 * Real.pi * freq k.1 k.2) with hω
  have hmot := modeSum_motion (fun i j : Fin (positions.length * ∏ c, n c) × Fin d => K i j / (Real.sqrt (masses.getD i.1 0) * Real.sqrt (masses.getD j.1 0))) b ω ψ
    (fun k hk i => harmonic_modes hK hstable _ _ k hk i)
  have hxe : ∀ (i : Fin (positions.length * ∏ c, n c)) c, x i c = fun t => R.getD i 0 c + 1 / Real.sqrt (masses.getD i 0) * (modeSum b ω ψ t (i, c)).re := by
    intro i c; funext t; rw [hx]; exact testPath_modeSum hs fmin temperature phase0 (i, c) t
  have hd : ∀ t, HasDerivAt (x i c) (1 / Real.sqrt (masses.getD i 0) * (modeSum' b ω ψ t (i, c)).re) t := by
    intro t; rw [hxe]; exact ((hmot t (i, c)).1.const_mul _).const_add _
  have hde : deriv (x i c) = fun t => 1 / Real.sqrt (masses.getD i 0) * (modeSum' b ω ψ t (i, c)).re := funext fun t => (hd t).deriv
  refine ⟨by rw [hde]; exact hd t, ?_⟩
  rw [hde]
  refine ((hmot t (i, c)).2.const_mul _).congr_deriv ?_
  have hmi := hK.masses_pos i i.2
  rw [neg_div, mul_neg, Finset.sum_div, Finset.mul_sum]
  congr 1
  apply Finset.sum_congr rfl
  intro j _
  have hmj := hK.masses_pos j.1 j.1.2
  have e : x j.1 j.2 t - R.getD j.1 0 j.2 = 1 / Real.sqrt (masses.getD j.1 0) * (modeSum b ω ψ t j).re := by rw [hxe]; ring
  rw [e]
  have h1 := Real.mul_self_sqrt hmi.le
  have h2 : 0 < Real.sqrt (masses.getD i 0) := Real.sqrt_pos.mpr hmi
  have h3 : 0 < Real.sqrt (masses.getD j.1 0) := Real.sqrt_pos.mpr hmj
  conv_rhs => rw [← h1]
  field_simp

/-- C124: the total energy of the crystal, kinetic and potential, is constant: `d/2 k_B T` for each phonon above the minimum frequency (for the default phase 0). -/
theorem C124_energy (hs : Setting positions types cell P n T (fun p : Fin q.length => q[p]) ev)
    (hK : IsHarmonicCrystal (positions.length * ∏ c, n c) K (positionsSupercell positions cell (List.ofFn n)) masses
      (expandSupercell types (List.ofFn n)) (fun p : Fin q.length => qVector (primCell cell P) q[p]) freq ev)
    (fmin temperature phase0 : ℝ) (htemp : 0 ≤ temperature) (hstable : ∀ p s, fmin < |freq p s| → 0 < freq p s) (x : ℕ → Fin d → ℝ → ℝ)
    (hx : x = testPath (positionsSupercell positions cell (List.ofFn n)) masses (expandSupercell types (List.ofFn n)) T (primCell cell P) q freq ev fmin temperature phase0)
    (t : ℝ) (u : Fin (positions.length * ∏ c, n c) × Fin d → ℝ) (hu : u = fun j => x j.1 j.2 t - (positionsSupercell positions cell (List.ofFn n)).getD j.1 0 j.2) :
    (∑ i : Fin (positions.length * ∏ c, n c) × Fin d, masses.getD i.1 0 / 2 * deriv (x i.1 i.2) t ^ 2) + (∑ i, ∑ j, u i * K i j * u j) / 2 =
      (Finset.univ.filter fun k : Fin q.length × Fin f => fmin < |freq k.1 k.2|).card * (d / 2 * (0.831446 * temperature)) * Real.exp phase0 ^ 2 := by
  set R := positionsSupercell positions cell (List.ofFn n) with hR
  set E : ℝ := d * (0.831446 * temperature) / q.length with hE
  set b := testB q freq E fmin phase0 with hb
  set ψ := (fun (k : Fin q.length × Fin f) (i : Fin (positions.length * ∏ c, n c) × Fin d) => blochWave R (expandSupercell types (List.ofFn n))
            (qVector (primCell cell P) q[k.1]) (ev k.1 k.2) i.1 i.2) with hψ
  set ω := (fun k : Fin q.length × Fin f => 2 * Real.pi * freq k.1 k.2) with hω
  have hpi := Real.pi_pos
  have hM : (0 : ℝ) < q.length := by exact_mod_cast testCard_pos hs
  have hE0 : 0 ≤ E := by rw [hE]; positivity
  have hxe : ∀ (i : Fin (positions.length * ∏ c, n c)) c, x i c = fun t => R.getD i 0 c + 1 / Real.sqrt (masses.getD i 0) * (modeSum b ω ψ t (i, c)).re := by
    intro i c; funext t; rw [hx]; exact testPath_modeSum hs fmin temperature phase0 (i, c) t
  set Φ := (fun i j : Fin (positions.length * ∏ c, n c) × Fin d => K i j / (Real.sqrt (masses.getD i.1 0) * Real.sqrt (masses.getD j.1 0))) with hΦ
  have hmot := modeSum_motion Φ b ω ψ (fun k hk i => harmonic_modes hK hstable _ _ k hk i)
  have hen := modeSum_energy Φ (fun i j => by simp only [hΦ]; rw [hK.symmetric, mul_comm]) b ω ψ q.length (fun k hk i => harmonic_modes hK hstable _ _ k hk i)
    (fun k hk => by have := hstable _ _ (testB_included k hk); simp only [hω]; positivity) (fun k l => bloch_orthogonal hs k l) t
  have hpos : ∀ i : Fin (positions.length * ∏ c, n c), 0 < masses.getD i 0 := fun i => hK.masses_pos i i.2
  have hkin : ∑ i : Fin (positions.length * ∏ c, n c) × Fin d, masses.getD i.1 0 / 2 * deriv (x i.1 i.2) t ^ 2 = (∑ i, (modeSum' b ω ψ t i).re ^ 2) / 2 := by
    rw [Finset.sum_div]
    apply Finset.sum_congr rfl
    intro i _
    have hd : HasDerivAt (x i.1 i.2) (1 / Real.sqrt (masses.getD i.1 0) * (modeSum' b ω ψ t i).re) t := by
      rw [hxe]; exact ((hmot t i).1.const_mul _).const_add _
    rw [hd.deriv, mul_pow, div_pow, one_pow, Real.sq_sqrt (hpos i.1).le]
    have := (hpos i.1).ne'
    field_simp
  have hpot : ∑ i, ∑ j, u i * K i j * u j = ∑ i, (modeSum b ω ψ t i).re * ∑ j, Φ i j * (modeSum b ω ψ t j).re := by
    apply Finset.sum_congr rfl
    intro i _
    rw [Finset.mul_sum]
    apply Finset.sum_congr rfl
    intro j _
    have e : ∀ j : Fin (positions.length * ∏ c, n c) × Fin d, u j = 1 / Real.sqrt (masses.getD j.1 0) * (modeSum b ω ψ t j).re := by
      intro j; rw [hu]; simp only; rw [hxe]; ring
    rw [e i, e j]
    simp only [hΦ]
    have h2 : 0 < Real.sqrt (masses.getD i.1 0) := Real.sqrt_pos.mpr (hpos i.1)
    have h3 : 0 < Real.sqrt (masses.getD j.1 0) := Real.sqrt_pos.mpr (hpos j.1)
    field_simp
  rw [hkin, hpot, hen]
  have hterm : ∀ k, b k ^ 2 * ω k ^ 2 = if fmin < |freq k.1 k.2| then E * Real.exp phase0 ^ 2 else 0 := by
    intro k
    simp only [hb, hω]
    unfold testB
    split_ifs with h
    · have h1 := hstable _ _ h
      have h2 := Real.sq_sqrt hE0
      have h3 : (Real.exp phase0 * (Real.sqrt E / (freq k.1 k.2 * 2 * Real.pi))) ^ 2 * (2 * Real.pi * freq k.1 k.2) ^ 2 = Real.exp phase0 ^ 2 * Real.sqrt E ^ 2 := by
        field_simp
      rw [h3, h2]; ring
    · ring
  rw [Finset.sum_congr rfl fun k _ => hterm k, ← Finset.sum_filter, Finset.sum_const, nsmul_eq_mul, hE]
  field_simp

/-- C124: the analysis of the generated trajectory. The mass weighted velocities projected onto a phonon (`get_vq`) oscillate with exactly the frequency of that phonon, with an amplitude that does not depend on the phonon; phonons that were
left out do not appear. -/
theorem C124_projection (hs : Setting positions types cell P n T (fun p : Fin q.length => q[p]) ev)
    (hK : IsHarmonicCrystal (positions.length * ∏ c, n c) K (positionsSupercell positions cell (List.ofFn n)) masses
      (expandSupercell types (List.ofFn n)) (fun p : Fin q.length => qVector (primCell cell P) q[p]) freq ev)
    (fmin temperature phase0 : ℝ) (hfmin : 0 ≤ fmin) (htemp : 0 ≤ temperature) (hstable : ∀ p s, fmin < |freq p s| → 0 < freq p s) (x : ℕ → Fin d → ℝ → ℝ)
    (hx : x = testPath (positionsSupercell positions cell (List.ofFn n)) masses (expandSupercell types (List.ofFn n)) T (primCell cell P) q freq ev fmin temperature phase0)
    (p : Fin q.length) (s : Fin f) :
    (fmin < |freq p s| → ∃ β : ℂ, ∀ t, vqAt positions types cell P n T q[p] (ev p) (fun i c => ((Real.sqrt (masses.getD i 0) * deriv (x i c) t : ℝ) : ℂ)) s =
      -I * ((Real.exp phase0 * Real.sqrt (d * (0.831446 * temperature)) / 2 : ℝ) : ℂ) * exp (-I * (2 * Real.pi * freq p s : ℝ) * t) + β * exp (I * (2 * Real.pi * freq p s : ℝ) * t)) ∧
    (|freq p s| ≤ fmin → ∀ t, vqAt positions types cell P n T q[p] (ev p) (fun i c => ((Real.sqrt (masses.getD i 0) * deriv (x i c) t : ℝ) : ℂ)) s = 0) := by
  set R := positionsSupercell positions cell (List.ofFn n) with hR
  set E : ℝ := d * (0.831446 * temperature) / q.length with hE
  set b := testB q freq E fmin phase0 with hb
  set ψ := (fun (k : Fin q.length × Fin f) (i : Fin (positions.length * ∏ c, n c) × Fin d) => blochWave R (expandSupercell types (List.ofFn n))
            (qVector (primCell cell P) q[k.1]) (ev k.1 k.2) i.1 i.2) with hψ
  set ω := (fun k : Fin q.length × Fin f => 2 * Real.pi * freq k.1 k.2) with hω
  have hpi := Real.pi_pos
  have hM : (0 : ℝ) < q.length := by exact_mod_cast testCard_pos hs
  have hxe : ∀ (i : Fin (positions.length * ∏ c, n c)) c, x i c = fun t => R.getD i 0 c + 1 / Real.sqrt (masses.getD i 0) * (modeSum b ω ψ t (i, c)).re := by
    intro i c; funext t; rw [hx]; exact testPath_modeSum hs fmin temperature phase0 (i, c) t
  set Φ := (fun i j : Fin (positions.length * ∏ c, n c) × Fin d => K i j / (Real.sqrt (masses.getD i.1 0) * Real.sqrt (masses.getD j.1 0))) with hΦ
  have hmot := modeSum_motion Φ b ω ψ (fun k hk i => harmonic_modes hK hstable _ _ k hk i)
  have hv : ∀ t, vqAt positions types cell P n T q[p] (ev p) (fun i c => ((Real.sqrt (masses.getD i 0) * deriv (x i c) t : ℝ) : ℂ)) s =
      (∑ i, star (ψ (p, s) i) * ((modeSum' b ω ψ t i).re : ℂ)) / (Real.sqrt q.length : ℂ) := by
    intro t
    rw [vqAt_bloch hs, ← Fin.sum_univ_eq_sum_range (fun i => ∑ c, ((Real.sqrt (masses.getD i 0) * deriv (x i c) t : ℝ) : ℂ) *
      star (blochWave R (expandSupercell types (List.ofFn n)) (qVector (primCell cell P) q[p]) (ev p s) i c)), Fintype.sum_prod_type]
    congr 1
    apply Finset.sum_congr rfl; intro i _
    apply Finset.sum_congr rfl; intro c _
    have hd : HasDerivAt (x i c) (1 / Real.sqrt (masses.getD i 0) * (modeSum' b ω ψ t (i, c)).re) t := by
      rw [hxe]; exact ((hmot t (i, c)).1.const_mul _).const_add _
    have h2 : Real.sqrt (masses.getD i 0) ≠ 0 := (Real.sqrt_pos.mpr (hK.masses_pos i i.2)).ne'
    rw [hd.deriv, ← mul_assoc, mul_one_div_cancel h2, one_mul, mul_comm]
  set lam := (fun k : Fin q.length × Fin f => 2 * Real.pi * freq k.1 k.2 * |2 * Real.pi * freq k.1 k.2|) with hlam
  have hlamω : ∀ k, b k ≠ 0 → 0 < ω k ∧ lam k = ω k ^ 2 := by
    intro k hk
    have := hstable _ _ (testB_included k hk)
    exact ⟨by simp only [hω]; positivity, lam_of_pos this⟩
  have h0 : b (p, s) = 0 → ∀ l, b l ≠ 0 → lam l ≠ lam (p, s) := by
    intro h l hl he
    have hl1 := testB_included l hl
    have hl2 := hstable _ _ hl1
    rw [abs_of_pos hl2] at hl1
    have hps : |freq p s| ≤ fmin ∨ d * (0.831446 * temperature) = 0 := by
      by_contra hc
      push Not at hc
      have h3 := hstable _ _ hc.1
      have h4 : 0 < E := by
        rw [hE]
        have : 0 ≤ d * (0.831446 * temperature) := by positivity
        exact div_pos (lt_of_le_of_ne this (Ne.symm hc.2)) hM
      have h5 : 0 < b (p, s) := by
        rw [hb]; unfold testB; rw [if_pos hc.1]
        have := Real.sqrt_pos.mpr h4
        have := Real.exp_pos phase0
        positivity
      exact h5.ne' h
    rcases hps with hps | hps
    · have h4 : lam l ≤ (2 * Real.pi) ^ 2 * fmin ^ 2 := by
        rw [he]
        simp only [hlam]
        have : 2 * Real.pi * freq p s * |2 * Real.pi * freq p s| ≤ |2 * Real.pi * freq p s| * |2 * Real.pi * freq p s| :=
          mul_le_mul_of_nonneg_right (le_abs_self _) (abs_nonneg _)
        refine this.trans ?_
        rw [abs_mul, abs_of_pos (by positivity : 0 < 2 * Real.pi)]
        have h5 : |freq p s| ^ 2 ≤ fmin ^ 2 := pow_le_pow_left₀ (abs_nonneg _) hps 2
        calc 2 * Real.pi * |freq p s| * (2 * Real.pi * |freq p s|) = (2 * Real.pi) ^ 2 * |freq p s| ^ 2 := by ring
          _ ≤ _ := by gcongr
      have h6 : lam l = (2 * Real.pi) ^ 2 * freq l.1 l.2 ^ 2 := by rw [(hlamω l hl).2]; simp only [hω]; ring
      have h7 : fmin ^ 2 < freq l.1 l.2 ^ 2 := pow_lt_pow_left₀ hl1 hfmin two_ne_zero
      have h8 : (2 * Real.pi) ^ 2 * fmin ^ 2 < (2 * Real.pi) ^ 2 * freq l.1 l.2 ^ 2 := by gcongr
      linarith
    · apply hl
      rw [hb]; unfold testB
      rw [hE, hps]; simp
  obtain ⟨β, hβ0, hβ⟩ := modeSum_projection Φ (fun i j => by simp only [hΦ]; rw [hK.symmetric, mul_comm]) b ω lam ψ q.length
    (fun k i => hK.modes k.1 k.2 i) hlamω (fun k l => bloch_orthogonal hs k l) (p, s) h0
  have hsq : (Real.sqrt q.length) * (Real.sqrt q.length) = (q.length : ℝ) := Real.mul_self_sqrt hM.le
  have hsp : 0 < Real.sqrt q.length := Real.sqrt_pos.mpr hM
  have hspc : (Real.sqrt q.length : ℂ) ≠ 0 := by exact_mod_cast hsp.ne'
  constructor
  · intro hinc
    have hf := hstable _ _ hinc
    refine ⟨I * ω (p, s) * β / (Real.sqrt q.length : ℂ), fun t => ?_⟩
    rw [hv, hβ t]
    have hbv : (q.length : ℝ) * b (p, s) / 2 * ω (p, s) = Real.sqrt q.length * (Real.exp phase0 * Real.sqrt (d * (0.831446 * temperature)) / 2) := by
      have e1 : Real.sqrt E = Real.sqrt (d * (0.831446 * temperature)) / Real.sqrt q.length := by rw [hE, Real.sqrt_div' _ hM.le]
      rw [hb]; unfold testB
      simp only [hω]
      rw [if_pos hinc, e1]
      nth_rewrite 1 [← hsq]
      field_simp
    have hbc : ((q.length * b (p, s) / 2 : ℝ) : ℂ) * (ω (p, s) : ℂ) = (Real.sqrt q.length : ℂ) * ((Real.exp phase0 * Real.sqrt (d * (0.831446 * temperature)) / 2 : ℝ) : ℂ) := by
      exact_mod_cast congrArg (Complex.ofReal) hbv
    rw [div_eq_iff hspc, add_mul]
    have e2 : I * (ω (p, s) : ℂ) * β / (Real.sqrt q.length : ℂ) * exp (I * ((2 * Real.pi * freq p s : ℝ) : ℂ) * t) * (Real.sqrt q.length : ℂ) =
        I * (ω (p, s) : ℂ) * β * exp (I * ((2 * Real.pi * freq p s : ℝ) : ℂ) * t) := by field_simp
    rw [e2]
    have e3 : (ω (p, s) : ℂ) = ((2 * Real.pi * freq p s : ℝ) : ℂ) := rfl
    rw [← e3]
    linear_combination (-I * exp (-I * (ω (p, s) : ℂ) * t)) * hbc
  · intro hex t
    have hb0 : b (p, s) = 0 := by rw [hb]; unfold testB; rw [if_neg (not_lt.mpr hex)]
    rw [hv, hβ t, hβ0 hb0, hb0]
    simp

/-- C124: when no phonon is left out the energy of the crystal is `d/2` times the energy that is reported for the frames: 3/2 times in three dimensions, so that the crystal moves as at the temperature `3/2 T`. -/
theorem C124_reported (hs : Setting positions types cell P n T (fun p : Fin q.length => q[p]) ev)
    (hK : IsHarmonicCrystal (positions.length * ∏ c, n c) K (positionsSupercell positions cell (List.ofFn n)) masses
      (expandSupercell types (List.ofFn n)) (fun p : Fin q.length => qVector (primCell cell P) q[p]) freq ev)
    (fmin totalTime timeStep temperature : ℝ) (hfmin : 0 ≤ fmin) (htemp : 0 ≤ temperature) (hall : ∀ p s, fmin < freq p s) (x : ℕ → Fin d → ℝ → ℝ)
    (hx : x = testPath (positionsSupercell positions cell (List.ofFn n)) masses (expandSupercell types (List.ofFn n)) T (primCell cell P) q freq ev fmin temperature 0)
    (t : ℝ) (u : Fin (positions.length * ∏ c, n c) × Fin d → ℝ) (hu : u = fun j => x j.1 j.2 t - (positionsSupercell positions cell (List.ofFn n)).getD j.1 0 j.2)
    (r : TestResult d) (hr : r = generateTest (positionsSupercell positions cell (List.ofFn n)) masses (expandSupercell types (List.ofFn n)) T (primCell cell P) q freq ev
      fmin totalTime timeStep temperature 0) :
    ∀ reported ∈ r.energy, (∑ i : Fin (positions.length * ∏ c, n c) × Fin d, masses.getD i.1 0 / 2 * deriv (x i.1 i.2) t ^ 2) + (∑ i, ∑ j, u i * K i j * u j) / 2 = d / 2 * reported := by
  intro E hE
  have habs : ∀ p s, fmin < |freq p s| := fun p s => (hall p s).trans_le (le_abs_self _)
  have hen := C124_energy hs hK fmin temperature 0 htemp (fun p s _ => hfmin.trans_lt (hall p s)) x hx t u hu
  rw [hr] at hE
  simp only [generateTest, List.mem_map] at hE
  obtain ⟨-, -, rfl⟩ := hE
  obtain ⟨h1, h2⟩ := supercell_length hs
  rw [hen, h1, h2, Finset.filter_true_of_mem fun k _ => habs k.1 k.2, Finset.card_univ, Fintype.card_prod, Fintype.card_fin, Fintype.card_fin, hs.modes, Real.exp_zero]
  push_cast
  ring

end harmonic

end

/-! ## An example: independent oscillators -/

/-- One atom on a simple cubic lattice, three phonons of frequency 1 at the zone centre. -/
theorem einstein_setting : Setting (d := 3) (Q := Fin ([0] : List (Fin 3 → ℝ)).length) (f := 3) (e := 3) [0] [0] (1 : Matrix (Fin 3) (Fin 3) ℝ) 1 (fun _ => 1) 1
    (fun p : Fin ([0] : List (Fin 3 → ℝ)).length => ([0] : List (Fin 3 → ℝ))[p]) (fun _ s _ c => if s = c then 1 else 0) := by
  have hprim : primCell (1 : Matrix (Fin 3) (Fin 3) ℝ) 1 = 1 := by unfold primCell; simp
  have hc : ∀ z : Fin 3 → ℤ, latticeSum (1 : Matrix (Fin 3) (Fin 3) ℝ) z = fun c => (z c : ℝ) := by
    intro z; funext c; simp [latticeSum, Matrix.one_apply]
  refine ⟨by simp, by simp, ?_, fun _ => one_pos, one_pos, ?_, ?_, rfl⟩
  · rw [hprim]
    refine ⟨rfl, ?_, ?_⟩
    · intro i hi z
      have : i = 0 := by simpa using hi
      subst this
      refine ⟨0, by simp, rfl, fun c => -z c, ?_⟩
      rw [hc, hc]; funext c; simp
    · intro i hi j hj _ w hw
      have h1 : i = 0 := by simpa using hi
      have h2 : j = 0 := by simpa using hj
      rw [h1, h2]
  · refine ⟨?_, ?_, ?_, by simp, by simp⟩
    · intro p i
      have hp : p = (0 : Fin 1) := Subsingleton.elim (α := Fin 1) _ _
      subst hp
      exact ⟨0, by simp⟩
    · intro p p' _
      exact Subsingleton.elim (α := Fin 1) _ _
    · intro t ht
      have : t = 0 := by omega
      subst this
      simp
  · intro p k l
    simp

theorem einstein_crystal : IsHarmonicCrystal (d := 3) (f := 3) (T := 1) (([0] : List (Fin 3 → ℝ)).length * ∏ _c : Fin 3, 1)
    (fun i j => if i = j then (2 * Real.pi) ^ 2 else 0) (positionsSupercell [0] (1 : Matrix (Fin 3) (Fin 3) ℝ) (List.ofFn fun _ : Fin 3 => 1)) [1] (expandSupercell [0] (List.ofFn fun _ : Fin 3 => 1))
    (fun p : Fin ([0] : List (Fin 3 → ℝ)).length => qVector (primCell (1 : Matrix (Fin 3) (Fin 3) ℝ) 1) ([0] : List (Fin 3 → ℝ))[p]) (fun _ _ => 1)
    (fun _ s _ c => if s = c then 1 else 0) := by
  have hi : ∀ i : Fin (([0] : List (Fin 3 → ℝ)).length * ∏ _c : Fin 3, 1), (i : ℕ) = 0 := fun i => by have := i.2; simp at this; omega
  refine ⟨fun i j => by simp only [eq_comm], fun i h => ?_, ?_⟩
  · have : i = 0 := by simpa using h
    subst this; simp
  · intro p s i
    rw [Finset.sum_eq_single i]
    · congr 1
      have := Real.pi_pos
      rw [if_pos rfl, hi, abs_of_pos (by positivity)]
      simp
      ring
    · intro j _ hj
      rw [if_neg (Ne.symm hj)]; simp
    · simp

/-- The reported energy is the energy of the crystal: false (three independent oscillators at 300 K, energy 3/2 of the reported one). -/
theorem C124_energy_violated : ∃ (K : _) (x : ℕ → Fin 3 → ℝ → ℝ) (r : TestResult 3),
    IsHarmonicCrystal (d := 3) (f := 3) (T := 1) (([0] : List (Fin 3 → ℝ)).length * ∏ _c : Fin 3, 1) K
      (positionsSupercell [0] (1 : Matrix (Fin 3) (Fin 3) ℝ) (List.ofFn fun _ : Fin 3 => 1)) [1] (expandSupercell [0] (List.ofFn fun _ : Fin 3 => 1))
      (fun p : Fin ([0] : List (Fin 3 → ℝ)).length => qVector (primCell (1 : Matrix (Fin 3) (Fin 3) ℝ) 1) ([0] : List (Fin 3 → ℝ))[p]) (fun _ _ => 1) (fun _ s _ c => if s = c then 1 else 0) ∧
    x = testPath (positionsSupercell [0] (1 : Matrix (Fin 3) (Fin 3) ℝ) (List.ofFn fun _ : Fin 3 => 1)) [1] (expandSupercell [0] (List.ofFn fun _ : Fin 3 => 1)) 1
      (primCell (1 : Matrix (Fin 3) (Fin 3) ℝ) 1) [0] (fun _ (_ : Fin 3) => 1) (fun _ s (_ : Fin 1) c => if s = c then 1 else 0) 0.1 300 0 ∧
    r = generateTest (positionsSupercell [0] (1 : Matrix (Fin 3) (Fin 3) ℝ) (List.ofFn fun _ : Fin 3 => 1)) [1] (expandSupercell [0] (List.ofFn fun _ : Fin 3 => 1)) 1
      (primCell (1 : Matrix (Fin 3) (Fin 3) ℝ) 1) [0] (fun _ (_ : Fin 3) => 1) (fun _ s (_ : Fin 1) c => if s = c then 1 else 0) 0.1 2 0.002 300 0 ∧
    r.energy ≠ [] ∧ ∀ reported ∈ r.energy, ∀ t : ℝ,
      (∑ i : Fin (([0] : List (Fin 3 → ℝ)).length * ∏ _c : Fin 3, 1) × Fin 3, ([1] : List ℝ).getD i.1 0 / 2 * deriv (x i.1 i.2) t ^ 2) +
      (∑ i, ∑ j, (x i.1 i.2 t - (positionsSupercell [0] (1 : Matrix (Fin 3) (Fin 3) ℝ) (List.ofFn fun _ : Fin 3 => 1)).getD i.1 0 i.2) * K i j *
        (x j.1 j.2 t - (positionsSupercell [0] (1 : Matrix (Fin 3) (Fin 3) ℝ) (List.ofFn fun _ : Fin 3 => 1)).getD j.1 0 j.2)) / 2 ≠ reported := by
  refine ⟨_, _, _, einstein_crystal, rfl, rfl, ?_, ?_⟩
  · intro h
    have h1 := congrArg List.length h
    simp [generateTest, arange] at h1
    norm_num at h1
  · intro E hE t
    have h := C124_reported einstein_setting einstein_crystal 0.1 2 0.002 300 (by norm_num) (by norm_num) (fun _ _ => by norm_num) _ rfl t _ rfl _ rfl E hE
    have hpos : 0 < E := by
      simp only [generateTest, List.mem_map] at hE
      obtain ⟨-, -, rfl⟩ := hE
      rw [(supercell_length einstein_setting).1]
      norm_num
    rw [h]
    push_cast
    intro h2
    linarith

/-! ## Double precision -/

/-- C124: the times of the frames in double precision. The frame number `i` is calculated for the same time, rounded once, that stands in the time array (`i*time_step`); the number of frames is within one of
`total_time/time_step`. -/
theorem C124_double (totalTime timeStep : ℚ) (hT : IsDouble totalTime) (hdt : IsDouble timeStep) (hstep : 0 < timeStep) (htotal : 0 < totalTime) (hM : totalTime / timeStep ≤ 2 ^ 51) :
    (∀ i < (testTimesFl totalTime timeStep).length, (testTimesFl totalTime timeStep)[i]? = some (fl (i * timeStep))) ∧
    (((testTimesFl totalTime timeStep).length : ℚ) - totalTime / timeStep) < 2 ∧ -1 < (((testTimesFl totalTime timeStep).length : ℚ) - totalTime / timeStep) := by
  have hd0 : fl timeStep = timeStep := fl_of_double hdt
  have hlen : (testTimesFl totalTime timeStep).length = ⌈fl (totalTime / timeStep)⌉.toNat := by
    simp [testTimesFl, arangeFl, fl_of_double hT]
  refine ⟨?_, ?_⟩
  · intro i hi
    rw [hlen] at hi
    have hfl2 : ∀ y, fl (fl y) = fl y := fun y => fl_of_double (fl_double y)
    unfold testTimesFl arangeFl
    rw [List.getElem?_map, List.getElem?_range (by simpa [fl_of_double hT] using hi)]
    simp only [Option.map_some, Option.some.injEq, zero_add, sub_zero, hd0, hfl2]
    split_ifs with h0 h1
    · subst h0; simp [fl_zero]
    · subst h1; simp [hd0]
    · rfl
  · have hq : 0 < totalTime / timeStep := by positivity
    have e := abs_le.mp (fl_error (totalTime / timeStep))
    rw [abs_of_pos hq] at e
    have hq0 : 0 ≤ fl (totalTime / timeStep) := fl_nonneg hq.le
    have hb : totalTime / timeStep / 2 ^ 53 ≤ 1 / 4 := by rw [div_le_iff₀ (by norm_num)]; linarith
    rw [hlen]
    have hc : (0 : ℤ) ≤ ⌈fl (totalTime / timeStep)⌉ := Int.ceil_nonneg hq0
    have hcast : ((⌈fl (totalTime / timeStep)⌉.toNat : ℕ) : ℚ) = (⌈fl (totalTime / timeStep)⌉ : ℚ) := by
      have : ((⌈fl (totalTime / timeStep)⌉.toNat : ℤ)) = ⌈fl (totalTime / timeStep)⌉ := Int.toNat_of_nonneg hc
      exact_mod_cast congrArg (Int.cast : ℤ → ℚ) this
    rw [hcast]
    have h1 := Int.le_ceil (fl (totalTime / timeStep))
    have h2 := Int.ceil_lt_add_one (fl (totalTime / timeStep))
    constructor <;> linarith [e.1, e.2]

/-- C124: in double precision the trajectory may have one frame more than `total_time/time_step`: 2.1 ps with steps of 0.3 ps gives 8 frames. -/
theorem C124_double_violated : ¬ ∀ (n : ℕ) (dt : ℚ), 0 < dt → (testTimesFl (fl (n * dt)) (fl dt)).length = n := by
  intro h
  have h1 := h 7 (3 / 10) (by norm_num)
  revert h1
  decide +kernel

/-- Example: the hypotheses of `C124_double` for the defaults, 2 ps in steps of 0.002 ps: 1000 frames. -/
example : IsDouble 2 ∧ IsDouble (fl (1 / 500)) ∧ 0 < fl (1 / 500) ∧ 2 / fl (1 / 500) ≤ 2 ^ 51 ∧ (testTimesFl 2 (fl (1 / 500))).length = 1000 :=
  ⟨⟨2, 0, by norm_num, by norm_num⟩, fl_double _, by decide +kernel, by decide +kernel, by decide +kernel⟩

end Verif
