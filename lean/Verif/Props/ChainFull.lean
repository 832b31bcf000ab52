import Verif.Model.ChainFull
import Verif.Props.Chain
import Verif.Props.ChainOrigin
import Verif.Props.Velocity

/-! # C143: all spectra of a trajectory: periodic images, origin and axes -/

set_option autoImplicit false

namespace Verif

variable {d f : ℕ}

/-! ## The columns -/

theorem componentRows_apply (N : ℕ) (w : List (ℕ → Fin d → ℂ)) (k : Fin d) (i : Fin N) (a : ℕ) :
    (column (componentRows N w) (finProdFinEquiv (k, i))).getD a 0 = ((w[a]?).map fun v => v i k).getD 0 := by
  unfold column componentRows
  simp only [List.getD_eq_getElem?_getD, List.getElem?_map, Option.map_map]
  have h1 : ((finProdFinEquiv (k, i) : Fin (d * N)) : ℕ) % N = i := by
    simp [finProdFinEquiv, Nat.mod_eq_of_lt i.2]
  have h2 : ((finProdFinEquiv (k, i) : Fin (d * N)) : ℕ) / N = k := by
    have hN : 0 < N := lt_of_le_of_lt (Nat.zero_le _) i.2
    simp [finProdFinEquiv, Nat.add_mul_div_left _ _ hN, Nat.div_eq_of_lt i.2]
  congr 2
  funext v
  simp only [Function.comp]
  congr 1
  exact Fin.ext h2

theorem componentRows_length (N : ℕ) (w : List (ℕ → Fin d → ℂ)) : (componentRows N w).length = w.length := by simp [componentRows]

/-- Only the components of existing atoms matter. -/
theorem componentRows_congr (N : ℕ) (w w' : List (ℕ → Fin d → ℂ)) (hl : w'.length = w.length)
    (h : ∀ (t : ℕ) (v v' : ℕ → Fin d → ℂ), w[t]? = some v → w'[t]? = some v' → ∀ i < N, ∀ k, v' i k = v i k) : componentRows N w' = componentRows N w := by
  refine map_eq_map_of w' w hl _ _ fun t v v' hv hv' => ?_
  funext c
  have hN : 0 < N := by
    rcases Nat.eq_zero_or_pos N with h0 | h0
    · subst h0; exact absurd c.2 (by simp)
    · exact h0
  exact h t v v' hv hv' _ (Nat.mod_lt _ hN) _

theorem psdRows_sums {m : ℕ} (n : ℕ) (r : Fin m → List ℝ) : (psdRows n (List.ofFn r)).map List.sum = (List.range n).map fun k => (∑ i, (r i).getD k 0) * unitConversion := by
  unfold psdRows
  rw [List.map_map]
  refine List.map_congr_left fun k _ => ?_
  simp only [Function.comp, List.map_ofFn, List.sum_ofFn, Finset.sum_mul]

/-- A rotation does not change scalar products. -/
theorem products_frame (A : Matrix (Fin d) (Fin d) ℝ) (hA : A * A.transpose = 1) (z : ℂ) (hz : ‖z‖ = 1) (x y : Fin d → ℂ) :
    ∑ k, starRingEnd ℂ (z * ∑ c, x c * (A c k : ℂ)) * (z * ∑ c, y c * (A c k : ℂ)) = ∑ c, starRingEnd ℂ (x c) * y c := by
  have hzz : starRingEnd ℂ z * z = 1 := by rw [Complex.conj_mul', hz]; simp
  have hAA : ∀ c c', ∑ k, (A c k : ℂ) * (A c' k : ℂ) = if c = c' then 1 else 0 := by
    intro c c'
    have := congrFun (congrFun hA c) c'
    rw [Matrix.mul_apply, Matrix.one_apply] at this
    simp only [Matrix.transpose_apply] at this
    rw [show (if c = c' then (1 : ℂ) else 0) = ((if c = c' then (1 : ℝ) else 0 : ℝ) : ℂ) by split <;> simp, ← this]
    push_cast
    rfl
  calc ∑ k, starRingEnd ℂ (z * ∑ c, x c * (A c k : ℂ)) * (z * ∑ c, y c * (A c k : ℂ))
      = ∑ k, ∑ c, ∑ c', starRingEnd ℂ (x c) * y c' * ((A c k : ℂ) * (A c' k : ℂ)) := by
        refine Finset.sum_congr rfl fun k _ => ?_
        rw [map_mul, map_sum, show ∀ p q : ℂ, starRingEnd ℂ z * p * (z * q) = (starRingEnd ℂ z * z) * (p * q) from fun p q => by ring, hzz, one_mul, Finset.sum_mul]
        refine Finset.sum_congr rfl fun c _ => ?_
        rw [Finset.mul_sum]
        refine Finset.sum_congr rfl fun c' _ => ?_
        rw [map_mul, Complex.conj_ofReal]
        ring
    _ = ∑ c, ∑ c', starRingEnd ℂ (x c) * y c' * ∑ k, (A c k : ℂ) * (A c' k : ℂ) := by
        rw [Finset.sum_comm]
        refine Finset.sum_congr rfl fun c _ => ?_
        rw [Finset.sum_comm]
        exact Finset.sum_congr rfl fun c' _ => by rw [Finset.mul_sum]
    _ = ∑ c, starRingEnd ℂ (x c) * y c := by
        refine Finset.sum_congr rfl fun c _ => ?_
        simp only [hAA, mul_ite, mul_one, mul_zero, Finset.sum_ite_eq, Finset.mem_univ, if_true]

/-- With the direct Fourier transform the sum over the components turns into itself. -/
theorem summedSpectra_frame (env : SpecEnv) (p : SpecParams) (hs : 0 < p.step) (hm : p.method = 0 ∨ p.method = 1) (N : ℕ) (w w' : List (ℕ → Fin d → ℂ)) (hl : w'.length = w.length)
    (hf : w.length < env.fuel) (dt : ℝ) (A : Matrix (Fin d) (Fin d) ℝ) (hA : A * A.transpose = 1) (z : ℂ) (hz : ‖z‖ = 1)
    (h : ∀ (t : ℕ) (v v' : ℕ → Fin d → ℂ), w[t]? = some v → w'[t]? = some v' → ∀ i < N, ∀ k, v' i k = z * ∑ c, v i c * (A c k : ℂ)) :
    summedSpectra env 0 p N w' dt = summedSpectra env 0 p N w dt := by
  have hok : ∀ u : List (ℕ → Fin d → ℂ), u.length = w.length → powerSpectra env 0 p (componentRows N u) dt =
      .ok (false, psdRows p.freqs.length (List.ofFn fun i => p.freqs.map fun f => corrValue (column (componentRows N u) i) w.length (f * 2 * Real.pi) dt p.step p.method.toNat)) := by
    intro u hu
    apply powerSpectra_intro (by simp [specCheck])
    intro i
    rw [columnSpec_fourier env p i _ dt hs (by simp [column, componentRows, hu, hf]) hm]
    simp [column, componentRows, hu]
  unfold summedSpectra
  rw [hok w' hl, hok w rfl]
  simp only [Except.map]
  rw [psdRows_sums, psdRows_sums]
  congr 2
  refine List.map_congr_left fun k hk => ?_
  have hk := List.mem_range.1 hk
  congr 1
  simp only [List.getD_eq_getElem?_getD, List.getElem?_map, List.getElem?_eq_getElem hk, Option.map_some, Option.getD_some]
  rw [corrValue_sum, corrValue_sum]
  have hg : ∀ a b : ℕ, ∑ s, starRingEnd ℂ ((column (componentRows N w') s).getD a 0) * (column (componentRows N w') s).getD b 0 =
      ∑ s, starRingEnd ℂ ((column (componentRows N w) s).getD a 0) * (column (componentRows N w) s).getD b 0 := by
    intro a b
    rw [← Equiv.sum_comp finProdFinEquiv, ← Equiv.sum_comp finProdFinEquiv, Fintype.sum_prod_type_right, Fintype.sum_prod_type_right]
    refine Finset.sum_congr rfl fun i _ => ?_
    simp only [componentRows_apply]
    have hval : ∀ (a : ℕ) (k : Fin d), ((w'[a]?).map fun v => v i k).getD 0 = z * ∑ c, ((w[a]?).map fun v => v i c).getD 0 * (A c k : ℂ) := by
      intro a k
      cases ha : w[a]? with
      | none =>
        have : w'[a]? = none := by
          rw [List.getElem?_eq_none_iff] at ha ⊢
          omega
        simp [this]
      | some v =>
        have hlt : a < w'.length := by
          rw [hl]
          exact (List.getElem?_eq_some_iff.1 ha).1
        rw [List.getElem?_eq_getElem hlt]
        simp only [Option.map_some, Option.getD_some]
        exact h a v _ ha (List.getElem?_eq_getElem hlt) i i.2 k
    simp only [hval]
    exact products_frame A hA z hz _ _
  simp only [hg]

theorem summedSpectra_phase (env : SpecEnv) (alg : ℤ) (ha : alg ≠ 1) (p : SpecParams) (N : ℕ) (w w' : List (ℕ → Fin d → ℂ)) (hl : w'.length = w.length) (dt : ℝ)
    (h0 : alg = 0 → 0 < p.step ∧ w.length < env.fuel) (z : ℂ) (hz : ‖z‖ = 1)
    (h : ∀ (t : ℕ) (v v' : ℕ → Fin d → ℂ), w[t]? = some v → w'[t]? = some v' → ∀ i < N, ∀ k, v' i k = z * v i k) :
    summedSpectra env alg p N w' dt = summedSpectra env alg p N w dt := by
  have hc : componentRows N w' = (componentRows N w).map fun row i => z * row i := by
    rw [show (componentRows N w).map (fun row i => z * row i) = componentRows N (w.map fun v i k => z * v i k) by simp [componentRows, Function.comp_def]]
    refine componentRows_congr N _ _ (by simp [hl]) fun t v v' hv hv' i hi k => ?_
    rw [List.getElem?_map, Option.map_eq_some_iff] at hv
    obtain ⟨u, hu, rfl⟩ := hv
    exact h t u v' hu hv' i hi k
  unfold summedSpectra
  rw [hc, C106_scale env alg ha p (componentRows N w) dt (by simpa [componentRows_length] using h0) z, hz]
  cases powerSpectra env alg p (componentRows N w) dt <;> simp [Except.map]

theorem sum_mul_one_matrix (x : Fin d → ℂ) (k : Fin d) : ∑ c, x c * (((1 : Matrix (Fin d) (Fin d) ℝ) c k : ℝ) : ℂ) = x k := by
  rw [Finset.sum_eq_single k]
  · simp
  · intro c _ h
    simp [Matrix.one_apply_ne h]
  · simp

namespace AnalysisInput

/-! ## Periodic images -/

/-- Specification: the same crystal with other coordinates in the frames. -/
def withFrames (a : AnalysisInput d f) (frames : List (ℕ → Fin d → ℝ)) : AnalysisInput d f := { a with frames := frames }

/-- Specification: in each frame each atom is moved by a lattice vector of the MD cell (`z` is the number of cells along each vector), and no fractional coordinate of the distance of an atom from its place in
the crystal is a half integer. -/
def SameUpToImages (a : AnalysisInput d f) (frames : List (ℕ → Fin d → ℝ)) : Prop :=
  frames.length = a.frames.length ∧ ∀ n, a.multiples = some n → ∀ (t : ℕ) (x x' : ℕ → Fin d → ℝ), a.frames[t]? = some x → frames[t]? = some x' →
    ∀ i < (positionsSupercell a.positions a.cell n).length,
      (∃ z : Fin d → ℤ, ∀ k, x' i k = x i k + ∑ l, (z l : ℝ) * a.mdCell l k) ∧
      ∀ l (m : ℤ), |Matrix.vecMul (x i - (positionsSupercell a.positions a.cell n).getD i 0) a.mdCell⁻¹ l - m| ≠ 1 / 2

theorem velocities_images (hd : 2 ≤ d) (a : AnalysisInput d f) (hc : a.mdCell.det ≠ 0) (frames : List (ℕ → Fin d → ℝ)) (h : a.SameUpToImages frames) (n : List ℕ) (hn : a.multiples = some n) :
    (a.velocities (positionsSupercell a.positions a.cell n) = none ∧ (a.withFrames frames).velocities (positionsSupercell a.positions a.cell n) = none) ∨
    ∃ vs vs', a.velocities (positionsSupercell a.positions a.cell n) = some vs ∧ (a.withFrames frames).velocities (positionsSupercell a.positions a.cell n) = some vs' ∧ vs'.length = vs.length ∧
      ∀ (t : ℕ) (v v' : ℕ → Fin d → ℂ), vs[t]? = some v → vs'[t]? = some v' → ∀ i < (positionsSupercell a.positions a.cell n).length, ∀ k, v' i k = v i k := by
  obtain ⟨hlen, him⟩ := h
  have him := him n hn
  generalize positionsSupercell a.positions a.cell n = coords at him ⊢
  unfold velocities
  rw [show (a.withFrames frames).frames = frames from rfl, hlen]
  by_cases hN : a.frames.length < 2
  · left; simp [hN]
  · right
    rw [if_neg hN, if_neg hN]
    refine ⟨_, _, rfl, rfl, by simp, ?_⟩
    intro t v v' hv hv' i hi k
    rw [List.getElem?_map, Option.map_eq_some_iff] at hv hv'
    obtain ⟨t0, ht0, rfl⟩ := hv
    obtain ⟨t1, ht1, rfl⟩ := hv'
    rw [ht0, Option.some.injEq] at ht1
    subst ht1
    have hcol : columnVelocity d (natCell (a.withFrames frames).mdCell) (natVec (coords.getD i 0)) (frames.map fun fr c => (natVec (fr i) c, 0)) (a.withFrames frames).dt k =
        columnVelocity d (natCell a.mdCell) (natVec (coords.getD i 0)) (a.frames.map fun fr c => (natVec (fr i) c, 0)) a.dt k := by
      unfold columnVelocity cDisplacements
      congr 1
      rw [List.map_map, List.map_map, List.map_map, List.map_map]
      refine map_eq_map_of frames a.frames hlen _ _ fun s x x' hx hx' => ?_
      obtain ⟨⟨z, hz⟩, htie⟩ := him s x x' hx hx' i hi
      simp only [Function.comp]
      congr 1
      refine C12_periodic_images d hd (natCell a.mdCell) (by rwa [toMatrix_natCell]) _ (fun c => (natVec (x i) c, 0)) (fun c => (natVec (x' i) c, 0)) z ?_ ?_ k
      · intro k
        simp only [natVec_fin, hz k]
        congr 1
        refine Finset.sum_congr rfl fun l _ => ?_
        simp [natCell]
      · intro g hg l m
        have hgu : g = Matrix.vecMul (x i - coords.getD i 0) a.mdCell⁻¹ := by
          have hu := (Matrix.isUnit_iff_isUnit_det _).2 (isUnit_iff_ne_zero.2 hc)
          have h1 : Matrix.vecMul g a.mdCell = x i - coords.getD i 0 := by
            funext k
            have := hg k
            simp only [natVec_fin] at this
            rw [Pi.sub_apply, this]
            simp [Matrix.vecMul, dotProduct, natCell]
          rw [← h1, Matrix.vecMul_vecMul, Matrix.mul_nonsing_inv _ (isUnit_iff_ne_zero.2 hc), Matrix.vecMul_one]
        rw [hgu]
        exact htie l m
    beta_reduce
    rw [hcol]

/-- The projection onto the wave vector depends on the velocities of existing atoms only. -/
theorem wave_congr (masses : List ℝ) (q : Fin d → ℝ) (coords : List (Fin d → ℝ)) (types : List ℕ) (hlen : types.length = coords.length) (T : ℕ) (v v' : ℕ → Fin d → ℂ)
    (hv : ∀ i < coords.length, ∀ k, v' i k = v i k) (t : ℕ) (k : Fin d) :
    projectOntoWaveVector (massWeighted masses v') q coords types T (-1) t k = projectOntoWaveVector (massWeighted masses v) q coords types T (-1) t k := by
  simp only [projectOntoWaveVector_eq]
  have hneg : ¬ ((-1 : ℤ) > -1 ∧ (t : ℤ) ≠ -1) := by omega
  simp only [if_neg hneg]
  congr 1
  refine Finset.sum_congr rfl fun i hi => ?_
  have hic : i < coords.length := by
    rw [← hlen]
    exact Finset.mem_range.1 (Finset.mem_filter.1 hi).1
  unfold massWeighted
  rw [hv i hic k]

end AnalysisInput

open AnalysisInput

/-- **C143**: none of the spectra (of the modes, of the wave vector, full) depends on which periodic image of each atom the frames of the trajectory contain: wrapped and unwrapped trajectories give the same
result, with every algorithm and all parameters. -/
theorem C143_images (hd : 2 ≤ d) (env : SpecEnv) (alg : ℤ) (p : SpecParams) (a : AnalysisInput d f) (hc : a.mdCell.det ≠ 0) (frames : List (ℕ → Fin d → ℝ)) (h : a.SameUpToImages frames) :
    (a.withFrames frames).fullSpectrum env alg p = a.fullSpectrum env alg p ∧ (a.withFrames frames).waveSpectrum env alg p = a.waveSpectrum env alg p ∧
    (a.withFrames frames).phononSpectrum env alg p = a.phononSpectrum env alg p := by
  have hm : (a.withFrames frames).multiples = a.multiples := by unfold multiples; rfl
  have hl : (a.withFrames frames).labels = a.labels := by unfold labels; rfl
  have hT : (a.withFrames frames).nPrim = a.nPrim := by unfold nPrim; rw [hl]
  have hp : (a.withFrames frames).primCellOf = a.primCellOf := by unfold primCellOf; rfl
  unfold fullSpectrum waveSpectrum phononSpectrum AnalysisInput.vq
  rw [hm, hl, hp, hT]
  cases hn : a.multiples with
  | none => simp
  | some n =>
    simp only [Option.bind_eq_bind, Option.bind_some]
    rw [show (a.withFrames frames).positions = a.positions from rfl, show (a.withFrames frames).cell = a.cell from rfl, show (a.withFrames frames).masses = a.masses from rfl,
      show (a.withFrames frames).dt = a.dt from rfl, show (a.withFrames frames).q = a.q from rfl, show (a.withFrames frames).ev = a.ev from rfl]
    have hlen : (expandSupercell a.labels n).length = (positionsSupercell a.positions a.cell n).length := by rw [C02_length a.labels a.positions a.cell n (by simp [labels, typeLabels])]
    rcases velocities_images hd a hc frames h n hn with ⟨h1, h2⟩ | ⟨vs, vs', h1, h2, hlv, hv⟩
    · rw [h1, h2]; simp
    · rw [h1, h2]
      simp only [Option.bind_some, Option.some.injEq, Option.map_some]
      refine ⟨?_, ?_, ?_⟩
      · unfold summedSpectra
        refine congrArg (fun r => (powerSpectra env alg p r a.dt).map fun r => (r.1, r.2.map List.sum)) ?_
        refine componentRows_congr _ _ _ (by rw [List.length_map, List.length_map, hlv]) ?_
        intro t v v' hv0 hv1 i hi k
        rw [List.getElem?_map, Option.map_eq_some_iff] at hv0 hv1
        obtain ⟨u, hu, rfl⟩ := hv0
        obtain ⟨u', hu', rfl⟩ := hv1
        unfold massWeighted
        rw [hv t u u' hu hu' i hi k]
      · unfold summedSpectra
        refine congrArg (fun r => (powerSpectra env alg p r a.dt).map fun r => (r.1, r.2.map List.sum)) ?_
        refine componentRows_congr _ _ _ (by rw [List.length_map, List.length_map, hlv]) ?_
        intro t v v' hv0 hv1 i hi k
        rw [List.getElem?_map, Option.map_eq_some_iff] at hv0 hv1
        obtain ⟨u, hu, rfl⟩ := hv0
        obtain ⟨u', hu', rfl⟩ := hv1
        exact wave_congr _ _ _ _ hlen _ _ _ (hv t u u' hu hu') i k
      · congr 1
        refine map_eq_map_of vs' vs hlv _ _ fun t u u' hu hu' => ?_
        congr 1
        funext i k
        exact wave_congr _ _ _ _ hlen _ _ _ (hv t u u' hu hu') i k

/-- **C143**: the full spectrum does not depend on the origin of the coordinates, with every algorithm. -/
theorem C143_origin_full (hd : 2 ≤ d) (env : SpecEnv) (alg : ℤ) (p : SpecParams) (a : AnalysisInput d f) (hc : a.mdCell.det ≠ 0) (b : Fin d → ℝ) :
    (a.inFrame 1 b).fullSpectrum env alg p = a.fullSpectrum env alg p := by
  have h1 : (1 : Matrix (Fin d) (Fin d) ℝ) * (1 : Matrix (Fin d) (Fin d) ℝ).transpose = 1 := by simp
  unfold fullSpectrum
  rw [multiples_inFrame a 1 b h1]
  cases a.multiples with
  | none => simp
  | some n =>
    simp only [Option.bind_eq_bind, Option.bind_some]
    rw [show (a.inFrame 1 b).positions = a.positions.map fun x => Matrix.vecMul x 1 + b from rfl, show (a.inFrame 1 b).cell = a.cell * 1 from rfl, positionsSupercell_frame,
      show (a.inFrame 1 b).masses = a.masses from rfl, show (a.inFrame 1 b).dt = a.dt from rfl]
    rcases velocities_inFrame a 1 b hd h1 hc (positionsSupercell a.positions a.cell n) with ⟨h2, h3⟩ | ⟨vs, vs', h2, h3, hl, h⟩
    · rw [h2, h3]; simp
    · rw [h2, h3]
      simp only [Option.bind_some, Option.some.injEq, List.length_map]
      unfold summedSpectra
      refine congrArg (fun r => (powerSpectra env alg p r a.dt).map fun r => (r.1, r.2.map List.sum)) ?_
      refine componentRows_congr _ _ _ (by rw [List.length_map, List.length_map, hl]) ?_
      intro t v v' hv0 hv1 i hi k
      rw [List.getElem?_map, Option.map_eq_some_iff] at hv0 hv1
      obtain ⟨u, hu, rfl⟩ := hv0
      obtain ⟨u', hu', rfl⟩ := hv1
      unfold massWeighted
      rw [h t u u' hu hu' i hi k, sum_mul_one_matrix]

/-- **C143**: with the direct Fourier transform the full spectrum and the wave-vector spectrum do not depend on the Cartesian axes nor on the origin: crystal and trajectory can be rotated, reflected and
translated. -/
theorem C143_axes_fourier (hd : 2 ≤ d) (env : SpecEnv) (p : SpecParams) (hs : 0 < p.step) (hm : p.method = 0 ∨ p.method = 1) (a : AnalysisInput d f) (hf : a.frames.length < env.fuel)
    (hc : a.mdCell.det ≠ 0) (A : Matrix (Fin d) (Fin d) ℝ) (hA : A * A.transpose = 1) (b : Fin d → ℝ) :
    (a.inFrame A b).fullSpectrum env 0 p = a.fullSpectrum env 0 p ∧ (a.inFrame A b).waveSpectrum env 0 p = a.waveSpectrum env 0 p := by
  have hlab := labels_inFrame a A b hA
  have hT : (a.inFrame A b).nPrim = a.nPrim := by unfold nPrim; rw [hlab]
  have hq : qVector (a.inFrame A b).primCellOf (a.inFrame A b).q = Matrix.vecMul (qVector a.primCellOf a.q) A := by
    rw [primCellOf_inFrame, show (a.inFrame A b).q = a.q from rfl, qVector_frame A _ hA]
  unfold fullSpectrum waveSpectrum
  rw [multiples_inFrame a A b hA, hq, hlab, hT]
  cases a.multiples with
  | none => simp
  | some n =>
    simp only [Option.bind_eq_bind, Option.bind_some]
    rw [show (a.inFrame A b).positions = a.positions.map fun x => Matrix.vecMul x A + b from rfl, show (a.inFrame A b).cell = a.cell * A from rfl, positionsSupercell_frame,
      show (a.inFrame A b).masses = a.masses from rfl, show (a.inFrame A b).dt = a.dt from rfl]
    have hlen : (expandSupercell a.labels n).length = (positionsSupercell a.positions a.cell n).length := by rw [C02_length a.labels a.positions a.cell n (by simp [labels, typeLabels])]
    rcases velocities_inFrame a A b hd hA hc (positionsSupercell a.positions a.cell n) with ⟨h2, h3⟩ | ⟨vs, vs', h2, h3, hl, h⟩
    · rw [h2, h3]; simp
    · rw [h2, h3]
      have hvl : vs.length = a.frames.length := by
        unfold velocities at h2
        split at h2
        · exact absurd h2 (by simp)
        · rw [Option.some.injEq] at h2
          rw [← h2]; simp
      simp only [Option.bind_some, Option.some.injEq, List.length_map]
      constructor
      · refine summedSpectra_frame env p hs hm _ _ _ (by simp [hl]) (by simp [hvl, hf]) a.dt A hA 1 (by simp) ?_
        intro t v v' hv0 hv1 i hi k
        rw [List.getElem?_map, Option.map_eq_some_iff] at hv0 hv1
        obtain ⟨u, hu, rfl⟩ := hv0
        obtain ⟨u', hu', rfl⟩ := hv1
        unfold massWeighted
        rw [h t u u' hu hu' i hi k, one_mul, Finset.sum_mul]
        exact Finset.sum_congr rfl fun c _ => by ring
      · refine summedSpectra_frame env p hs hm _ _ _ (by simp [hl]) (by simp [hvl, hf]) a.dt A hA (originPhase (Matrix.vecMul (qVector a.primCellOf a.q) A) b) (originPhase_norm _ _) ?_
        intro t v v' hv0 hv1 i hi k
        rw [List.getElem?_map, Option.map_eq_some_iff] at hv0 hv1
        obtain ⟨u, hu, rfl⟩ := hv0
        obtain ⟨u', hu', rfl⟩ := hv1
        exact waveVector_frame A hA b _ _ _ hlen _ u u' (h t u u' hu hu') _ i k

/-- **C143**: the wave-vector spectrum does not depend on the origin with the fast Fourier transforms either. -/
theorem C143_origin_wave (hd : 2 ≤ d) (env : SpecEnv) (alg : ℤ) (ha : alg ≠ 1) (p : SpecParams) (a : AnalysisInput d f) (h0 : alg = 0 → 0 < p.step ∧ a.frames.length < env.fuel)
    (hc : a.mdCell.det ≠ 0) (b : Fin d → ℝ) : (a.inFrame 1 b).waveSpectrum env alg p = a.waveSpectrum env alg p := by
  have hA : (1 : Matrix (Fin d) (Fin d) ℝ) * (1 : Matrix (Fin d) (Fin d) ℝ).transpose = 1 := by simp
  have hlab := labels_inFrame a 1 b hA
  have hT : (a.inFrame 1 b).nPrim = a.nPrim := by unfold nPrim; rw [hlab]
  have hq : qVector (a.inFrame 1 b).primCellOf (a.inFrame 1 b).q = Matrix.vecMul (qVector a.primCellOf a.q) 1 := by
    rw [primCellOf_inFrame, show (a.inFrame 1 b).q = a.q from rfl, qVector_frame 1 _ hA]
  unfold waveSpectrum
  rw [multiples_inFrame a 1 b hA, hq, hlab, hT]
  cases a.multiples with
  | none => simp
  | some n =>
    simp only [Option.bind_eq_bind, Option.bind_some]
    rw [show (a.inFrame 1 b).positions = a.positions.map fun x => Matrix.vecMul x 1 + b from rfl, show (a.inFrame 1 b).cell = a.cell * 1 from rfl, positionsSupercell_frame,
      show (a.inFrame 1 b).masses = a.masses from rfl, show (a.inFrame 1 b).dt = a.dt from rfl]
    have hlen : (expandSupercell a.labels n).length = (positionsSupercell a.positions a.cell n).length := by rw [C02_length a.labels a.positions a.cell n (by simp [labels, typeLabels])]
    rcases velocities_inFrame a 1 b hd hA hc (positionsSupercell a.positions a.cell n) with ⟨h2, h3⟩ | ⟨vs, vs', h2, h3, hl, h⟩
    · rw [h2, h3]; simp
    · rw [h2, h3]
      have hvl : vs.length = a.frames.length := by
        unfold velocities at h2
        split at h2
        · exact absurd h2 (by simp)
        · rw [Option.some.injEq] at h2
          rw [← h2]; simp
      simp only [Option.bind_some, Option.some.injEq]
      refine summedSpectra_phase env alg ha p _ _ _ (by simp [hl]) a.dt (by simpa [hvl] using h0) (originPhase (Matrix.vecMul (qVector a.primCellOf a.q) 1) b) (originPhase_norm _ _) ?_
      intro t v v' hv0 hv1 i hi k
      rw [List.getElem?_map, Option.map_eq_some_iff] at hv0 hv1
      obtain ⟨u, hu, rfl⟩ := hv0
      obtain ⟨u', hu', rfl⟩ := hv1
      beta_reduce
      rw [waveVector_frame 1 hA b _ _ _ hlen _ u u' (h t u u' hu hu') _ i k]
      rw [sum_mul_one_matrix]

/-- The atom of `oneAtomCrystal` crosses the walls of the box. -/
theorem oneAtom_images : oneAtomCrystal.SameUpToImages [fun _ => ![0, 0], fun _ => ![11, 3], fun _ => ![2, -8]] := by
  refine ⟨by simp [oneAtomCrystal], fun n hn => ?_⟩
  · rw [oneAtom_multiples, Option.some.injEq] at hn
    subst hn
    rw [oneAtom_coords]
    have hinv : oneAtomCrystal.mdCell⁻¹ = !![1 / 10, 0; 0, 1 / 10] := by
      refine Matrix.inv_eq_left_inv ?_
      rw [show oneAtomCrystal.mdCell = !![10, 0; 0, 10] from rfl]
      ext i j; fin_cases i <;> fin_cases j <;> simp [Matrix.mul_apply, Fin.sum_univ_two]
    have hhalf : ∀ (r : ℝ) (m : ℤ), 0 ≤ r → r < 1 / 2 → |r - m| ≠ 1 / 2 := by
      intro r m h0 h1 h
      rcases abs_eq (by norm_num) |>.1 h with h | h
      · have : (m : ℝ) = r - 1 / 2 := by linarith
        have a1 : (-1 : ℝ) < m := by linarith
        have a2 : (m : ℝ) < 0 := by linarith
        have a1 : -1 < m := by exact_mod_cast a1
        have a2 : m < 0 := by exact_mod_cast a2
        omega
      · have : (m : ℝ) = r + 1 / 2 := by linarith
        have a1 : (0 : ℝ) < m := by linarith
        have a2 : (m : ℝ) < 1 := by linarith
        have a1 : 0 < m := by exact_mod_cast a1
        have a2 : m < 1 := by exact_mod_cast a2
        omega
    intro t x x' hx hx' i hi
    have hi0 : i = 0 := by simpa using hi
    subst hi0
    rw [hinv, show oneAtomCrystal.mdCell = !![10, 0; 0, 10] from rfl]
    rw [show oneAtomCrystal.frames = [fun _ => ![0, 0], fun _ => ![1, 3], fun _ => ![2, 2]] from rfl] at hx
    match t with
    | 0 =>
      simp only [List.getElem?_cons_zero, Option.some.injEq] at hx hx'
      subst hx hx'
      refine ⟨⟨![0, 0], fun k => by fin_cases k <;> simp [Fin.sum_univ_two]⟩, fun l m => hhalf _ m ?_ ?_⟩ <;> fin_cases l <;> norm_num [Matrix.vecMul, dotProduct, Fin.sum_univ_two]
    | 1 =>
      simp only [List.getElem?_cons_zero, List.getElem?_cons_succ, Option.some.injEq] at hx hx'
      subst hx hx'
      refine ⟨⟨![1, 0], fun k => by fin_cases k <;> norm_num [Fin.sum_univ_two]⟩, fun l m => hhalf _ m ?_ ?_⟩ <;> fin_cases l <;> norm_num [Matrix.vecMul, dotProduct, Fin.sum_univ_two]
    | 2 =>
      simp only [List.getElem?_cons_zero, List.getElem?_cons_succ, Option.some.injEq] at hx hx'
      subst hx hx'
      refine ⟨⟨![0, -1], fun k => by fin_cases k <;> norm_num [Fin.sum_univ_two]⟩, fun l m => hhalf _ m ?_ ?_⟩ <;> fin_cases l <;> norm_num [Matrix.vecMul, dotProduct, Fin.sum_univ_two]
    | t + 3 => simp at hx

theorem oneAtom_full_isSome (env : SpecEnv) (alg : ℤ) (p : SpecParams) : (oneAtomCrystal.fullSpectrum env alg p).isSome = true := by
  unfold AnalysisInput.fullSpectrum
  rw [oneAtom_multiples]
  simp [velocities, oneAtomCrystal]

/-- Concrete cases: the atom crosses the walls of the box of one atom; the pair of atoms of Props/Chain in other axes. -/
example (env : SpecEnv) (alg : ℤ) (p : SpecParams) : (oneAtomCrystal.withFrames [fun _ => ![0, 0], fun _ => ![11, 3], fun _ => ![2, -8]]).fullSpectrum env alg p = oneAtomCrystal.fullSpectrum env alg p ∧
    (oneAtomCrystal.fullSpectrum env alg p).isSome = true := by
  have hdet : oneAtomCrystal.mdCell.det ≠ 0 := by simp [oneAtomCrystal, Matrix.det_fin_two]
  exact ⟨(C143_images (d := 2) (le_refl 2) env alg p oneAtomCrystal hdet _ oneAtom_images).1, oneAtom_full_isSome env alg p⟩

example (env : SpecEnv) (hf : 100 < env.fuel) (p : SpecParams) (hs : 0 < p.step) (hm : p.method = 0 ∨ p.method = 1) :
    (pairCrystal.inFrame !![0, 1; -1, 0] ![3, 1 / 3]).waveSpectrum env 0 p = pairCrystal.waveSpectrum env 0 p := by
  have hA : (!![0, 1; -1, 0] : Matrix (Fin 2) (Fin 2) ℝ) * (!![0, 1; -1, 0] : Matrix (Fin 2) (Fin 2) ℝ).transpose = 1 := by
    ext i j; fin_cases i <;> fin_cases j <;> simp [Matrix.mul_apply, Fin.sum_univ_two]
  exact (C143_axes_fourier le_rfl env p hs hm _ (by simp [pairCrystal]; omega) pairCrystal_det _ hA _).2

end Verif
