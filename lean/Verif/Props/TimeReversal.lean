import Verif.Props.MemArea
import Verif.Props.Oscillation
import Verif.Props.ChainSum
import Verif.Props.ChainFull
import Verif.Props.ChainWave
import Verif.Props.ChainAxes
import Mathlib.Algebra.Order.Floor.Semifield

/-! # C151: the direction of time -/

set_option autoImplicit false

namespace Verif

open Complex

/-- A series run backwards: opposite order, opposite sign (and complex conjugates). -/
noncomputable def revSeries (a : List ℂ) : List ℂ := a.reverse.map fun z => -star z

theorem length_revSeries (a : List ℂ) : (revSeries a).length = a.length := by simp [revSeries]

theorem revSeries_getD (a : List ℂ) (i : ℕ) (hi : i < a.length) : (revSeries a).getD i 0 = -star (a.getD (a.length - 1 - i) 0) := by
  have h2 : a.length - 1 - i < a.length := by omega
  rw [revSeries, List.getD_eq_getElem?_getD, List.getElem?_map, List.getElem?_reverse hi, List.getD_eq_getElem?_getD, List.getElem?_eq_getElem h2]
  rfl

theorem autocorr_rev (a : List ℂ) (lag : ℤ) : autocorr (revSeries a) lag = autocorr a lag := by
  unfold autocorr
  rw [length_revSeries, Finset.sum_comm, ← Finset.sum_range_reflect]
  refine Finset.sum_congr rfl fun m hm => ?_
  rw [← Finset.sum_range_reflect]
  refine Finset.sum_congr rfl fun m' hm' => ?_
  rw [Finset.mem_range] at hm hm'
  rw [revSeries_getD a _ (by omega), revSeries_getD a _ (by omega), show a.length - 1 - (a.length - 1 - m) = m by omega, show a.length - 1 - (a.length - 1 - m') = m' by omega]
  have hc : (((a.length - 1 - m : ℕ) : ℤ) - ((a.length - 1 - m' : ℕ) : ℤ) = lag) ↔ ((m' : ℤ) - m = lag) := by omega
  by_cases h : (m' : ℤ) - m = lag
  · rw [if_pos h, if_pos (hc.2 h)]
    simp [mul_comm]
  · rw [if_neg h, if_neg (mt hc.1 h)]

theorem piecePower_rev (dt : ℝ) (a : List ℂ) : piecePower dt (revSeries a) = piecePower dt a := by
  have h : correlateSame (revSeries a) = correlateSame a := by
    have hl : (correlateSame (revSeries a)).length = (correlateSame a).length := by simp [correlateSame, length_revSeries]
    refine List.ext_getElem hl fun i h1 h2 => ?_
    have hi : i < a.length := by simpa [correlateSame] using h2
    have e1 := correlateSame_getD (revSeries a) i (by rw [length_revSeries]; exact hi)
    have e2 := correlateSame_getD a i hi
    rw [List.getD_eq_getElem _ _ h1] at e1
    rw [List.getD_eq_getElem _ _ h2] at e2
    rw [e1, e2, autocorr_rev, length_revSeries]
  unfold piecePower
  rw [h, length_revSeries]

theorem slice_rev (l : List ℂ) (q : ℤ × ℤ) (h0 : 0 ≤ q.1) (h1 : q.1 ≤ q.2) (h2 : q.2 ≤ l.length) :
    slice (revSeries l) ((l.length : ℤ) - q.2, (l.length : ℤ) - q.1) = revSeries (slice l q) := by
  obtain ⟨x, y⟩ := q
  lift x to ℕ using h0
  lift y to ℕ using (by simp only at h1; omega)
  simp only at h1 h2
  have e1 : ((l.length : ℤ) - (x : ℤ)).toNat = l.length - x := by omega
  have e2 : ((l.length : ℤ) - (y : ℤ)).toNat = l.length - y := by omega
  simp only [slice, revSeries, e1, e2, Int.toNat_natCast]
  rw [← List.map_take, ← List.map_drop, List.take_reverse, List.drop_reverse, List.length_drop, show l.length - (l.length - x) = x by omega,
    show l.length - x - (l.length - y) = y - x by omega, List.drop_take]

/-- The windows lie symmetrically in the data. -/
def MirrorPieces (N : ℕ) (pieces : List (ℤ × ℤ)) : Prop := pieces.reverse = pieces.map fun q => ((N : ℤ) - q.2, (N : ℤ) - q.1)

theorem averageRows_reverse (nf : ℕ) (ps : List (List ℝ)) : averageRows nf ps.reverse = averageRows nf ps := by
  unfold averageRows
  simp only [List.map_reverse, List.sum_reverse, List.length_reverse]

theorem lastRow_length {L : ℕ} (ps : List (List ℝ)) (h : ∀ r ∈ ps, r.length = L) (hne : ps ≠ []) : (ps.getD (ps.length - 1) []).length = L := by
  have hpos : 0 < ps.length := List.length_pos_iff.2 hne
  rw [List.getD_eq_getElem _ _ (by omega)]
  exact h _ (List.getElem_mem _)

theorem pieces_rev (dt : ℝ) (l : List ℂ) (pieces : List (ℤ × ℤ)) (hmir : MirrorPieces l.length pieces)
    (hin : ∀ q ∈ pieces, 0 ≤ q.1 ∧ q.1 ≤ q.2 ∧ q.2 ≤ l.length) :
    pieces.map (fun q => piecePower dt (slice (revSeries l) q)) = (pieces.map fun q => piecePower dt (slice l q)).reverse := by
  rw [← List.map_reverse, hmir, List.map_map]
  refine List.map_congr_left fun q hq => ?_
  obtain ⟨h0, h1, h2⟩ := hin q hq
  have := slice_rev l ((l.length : ℤ) - q.2, (l.length : ℤ) - q.1) (by simp only; omega) (by simp only; omega) (by simp only; omega)
  simp only [sub_sub_cancel] at this
  rw [Function.comp_apply, ← piecePower_rev dt (slice l ((l.length : ℤ) - q.2, (l.length : ℤ) - q.1)), ← this]

theorem fftAverage_eq (f0 f1 : ℝ) (fs : List ℝ) (a : List ℂ) (dt : ℝ) (ha : a ≠ []) : fftAverage (f0 :: f1 :: fs) a dt = (divisionOfData (f1 - f0) a.length dt).map fun pieces =>
    averageRows ((pieces.map fun p => piecePower dt (slice a p)).getD ((pieces.map fun p => piecePower dt (slice a p)).length - 1) []).length (pieces.map fun p => piecePower dt (slice a p)) := by
  unfold fftAverage
  simp only [if_neg ha]

theorem averageLast_reverse {L : ℕ} (ps : List (List ℝ)) (hps : ∀ r ∈ ps, r.length = L) :
    averageRows (ps.reverse.getD (ps.reverse.length - 1) []).length ps.reverse = averageRows (ps.getD (ps.length - 1) []).length ps := by
  by_cases hne : ps = []
  · rw [hne, List.reverse_nil]
  · rw [lastRow_length ps hps hne, lastRow_length ps.reverse (fun r hr => hps r (List.mem_reverse.1 hr)) (fun h => hne (List.reverse_eq_nil_iff.1 h)), averageRows_reverse]

theorem sliceRows_length {L : ℤ} (dt : ℝ) (l : List ℂ) (pieces : List (ℤ × ℤ)) (hL : ∀ p ∈ pieces, p.2 - p.1 = L)
    (hin : ∀ q ∈ pieces, 0 ≤ q.1 ∧ q.1 ≤ q.2 ∧ q.2 ≤ l.length) : ∀ r ∈ pieces.map fun q => piecePower dt (slice l q), r.length = L.toNat := by
  intro r hr
  obtain ⟨q, hq, rfl⟩ := List.mem_map.1 hr
  obtain ⟨h0, h1, h2⟩ := hin q hq
  have hq1 := hL q hq
  simp only [length_piecePower, slice, List.length_drop, List.length_take]
  omega

theorem fftAverage_rev (f0 f1 : ℝ) (fs : List ℝ) (hf : f0 < f1) (dt : ℝ) (hdt : 0 < dt) (l : List ℂ)
    (hm : l ≠ [] → ∀ pieces, divisionOfData (f1 - f0) l.length dt = some pieces → MirrorPieces l.length pieces) :
    fftAverage (f0 :: f1 :: fs) (revSeries l) dt = fftAverage (f0 :: f1 :: fs) l dt := by
  by_cases hl : l = []
  · have hr : revSeries l = l := by rw [hl]; rfl
    rw [hr]
  have hl' : revSeries l ≠ [] := by
    intro h
    have := congrArg List.length h
    rw [length_revSeries, List.length_nil] at this
    exact hl (List.length_eq_zero_iff.1 this)
  rw [fftAverage_eq _ _ _ _ _ hl, fftAverage_eq _ _ _ _ _ hl', length_revSeries]
  refine Option.map_congr fun pieces hd => ?_
  have hdiv := C27_division (f1 - f0) dt (sub_pos.2 hf) hdt l.length pieces hd
  obtain ⟨L, hL0, -, hL⟩ := hdiv.sameLength
  have hin : ∀ q ∈ pieces, 0 ≤ q.1 ∧ q.1 ≤ q.2 ∧ q.2 ≤ l.length := by
    intro q hq
    obtain ⟨hi0, hi1⟩ := hdiv.inside q hq
    have := hL q hq
    omega
  rw [pieces_rev dt l pieces (hm hl pieces hd) hin]
  exact averageLast_reverse _ (sliceRows_length dt l pieces hL hin)

/-- Windows of `s` points: symmetric if the distance of the windows is a whole number (or there is one window). -/
theorem mirrorPieces_of_dvd (resolution dt : ℝ) (hr : 0 < resolution) (hdt : 0 < dt) (N s : ℕ) (hN : 0 < N) (hs : |1 / (dt * resolution) - s| < 1 / 2) (hdvd : (N - 1) / s ∣ N - s) (pieces : List (ℤ × ℤ))
    (h : divisionOfData resolution N dt = some pieces) : MirrorPieces N pieces := by
  have hpos : 0 < dt * resolution := mul_pos hdt hr
  have hround : roundEven (1 / (dt * resolution)) = (s : ℤ) := by
    have h1 := roundEven_abs_sub (1 / (dt * resolution))
    rw [abs_le] at h1
    rw [abs_lt] at hs
    have h2 : ((roundEven (1 / (dt * resolution)) : ℤ) : ℝ) - ((s : ℤ) : ℝ) < 1 := by push_cast; linarith
    have h3 : -1 < ((roundEven (1 / (dt * resolution)) : ℤ) : ℝ) - ((s : ℤ) : ℝ) := by push_cast; linarith
    have h4 : roundEven (1 / (dt * resolution)) - (s : ℤ) < 1 := by exact_mod_cast h2
    have h5 : -1 < roundEven (1 / (dt * resolution)) - (s : ℤ) := by exact_mod_cast h3
    omega
  unfold divisionOfData divisionPlan at h
  rw [if_neg hpos.ne', hround] at h
  simp only at h
  by_cases hs0 : (s : ℤ) = 0
  · rw [if_pos hs0] at h
    simp at h
  rw [if_neg hs0] at h
  have hs1 : 0 < s := by omega
  have hfl : pyInt (((N : ℝ) - 1) / ((s : ℤ) : ℝ)) = (((N - 1) / s : ℕ) : ℤ) := by
    have e : ((N : ℝ) - 1) / ((s : ℤ) : ℝ) = ((N - 1 : ℕ) : ℝ) / ((s : ℕ) : ℝ) := by
      rw [Nat.cast_sub (by omega)]; simp
    rw [e, pyInt_of_nonneg (by positivity), ← Nat.floor_div_eq_div (K := ℝ), Int.natCast_floor_eq_floor (by positivity)]
  rw [hfl] at h
  split_ifs at h with hp
  · set P := (N - 1) / s with hP
    obtain ⟨k, hk⟩ := hdvd
    have hP0 : 0 < P := by exact_mod_cast hp
    have hsN : s ≤ N := by
      have := Nat.div_mul_le_self (N - 1) s
      have h1 : s ≤ (N - 1) / s * s := Nat.le_mul_of_pos_left s hP0
      omega
    have hint : ((N : ℝ) - ((s : ℤ) : ℝ)) / ((P : ℤ) : ℝ) = k := by
      have hPr : ((P : ℤ) : ℝ) ≠ 0 := by exact_mod_cast hP0.ne'
      rw [div_eq_iff hPr]
      have : ((N - s : ℕ) : ℝ) = (P * k : ℕ) := by rw [hk]
      rw [Nat.cast_sub hsN] at this
      push_cast at this ⊢
      linarith
    rw [hint, Option.map_some, Option.some.injEq] at h
    simp only [Int.toNat_natCast] at h
    have e1 : ∀ i : ℕ, pyInt (((((s : ℤ) : ℝ)) / 2 + i * (k : ℝ)) - (((s : ℤ) : ℝ)) / 2) = ((i * k : ℕ) : ℤ) := by
      intro i
      rw [show ((((s : ℤ) : ℝ)) / 2 + i * (k : ℝ)) - (((s : ℤ) : ℝ)) / 2 = (((i * k : ℕ) : ℤ) : ℝ) by push_cast; ring, pyInt_of_nonneg (by positivity), Int.floor_intCast]
    have e2 : ∀ i : ℕ, pyInt (((((s : ℤ) : ℝ)) / 2 + i * (k : ℝ)) + (((s : ℤ) : ℝ)) / 2) = ((i * k + s : ℕ) : ℤ) := by
      intro i
      rw [show ((((s : ℤ) : ℝ)) / 2 + i * (k : ℝ)) + (((s : ℤ) : ℝ)) / 2 = (((i * k + s : ℕ) : ℤ) : ℝ) by push_cast; ring, pyInt_of_nonneg (by positivity), Int.floor_intCast]
    simp only [e1, e2] at h
    subst h
    unfold MirrorPieces
    refine List.ext_getElem (by simp) fun i h1 h2 => ?_
    have hi : i < P + 1 := by simpa using h2
    simp only [List.getElem_reverse, List.getElem_map, List.getElem_range, List.length_map, List.length_range]
    rw [show P + 1 - 1 - i = P - i by omega]
    have hN' : N = P * k + s := by omega
    have hsub : (P - i) * k + i * k = P * k := by rw [← Nat.add_mul]; congr 1; omega
    refine Prod.ext ?_ ?_ <;> simp only <;> omega
  · rw [Option.map_some, Option.some.injEq] at h
    subst h
    have e1 : ∀ i : ℕ, pyInt ((((N : ℤ) : ℝ) / 2 + i * (0 : ℝ)) - (((N : ℤ) : ℝ)) / 2) = 0 := by
      intro i
      rw [mul_zero, add_zero, sub_self, pyInt_of_nonneg le_rfl, Int.floor_zero]
    have e2 : ∀ i : ℕ, pyInt ((((N : ℤ) : ℝ) / 2 + i * (0 : ℝ)) + (((N : ℤ) : ℝ)) / 2) = (N : ℤ) := by
      intro i
      rw [mul_zero, add_zero, add_halves, pyInt_of_nonneg (by positivity), Int.floor_intCast]
    simp only [e1, e2]
    simp [MirrorPieces, List.range_succ]

/-- **C151**: run backwards, a motion has the same FFT spectra (algorithms 2 to 5; phonons: at the opposite wave vector), if the windows of the data lie symmetrically: `s` points (one over resolution and time step,
rounded) such that their distance, the rest of the data over the number of windows less one, is a whole number. -/
theorem C151_backwards {m : ℕ} (env : SpecEnv) (alg : ℤ) (ha : 2 ≤ alg ∧ alg ≤ 5) (p : SpecParams) (f0 f1 : ℝ) (fs : List ℝ) (hp : p.freqs = f0 :: f1 :: fs) (hf : f0 < f1) (vq : List (Fin m → ℂ)) (dt : ℝ)
    (hdt : 0 < dt) (s : ℕ) (hs : |1 / (dt * (f1 - f0)) - s| < 1 / 2) (hdvd : (vq.length - 1) / s ∣ vq.length - s) :
    powerSpectra env alg p (vq.reverse.map fun row i => -star (row i)) dt = powerSpectra env alg p vq dt := by
  rw [powerSpectra_eq, powerSpectra_eq, List.length_map, List.length_reverse]
  have hcol : ∀ i : Fin m, columnSpec env alg p i (column (vq.reverse.map fun row i => -star (row i)) i) dt = columnSpec env alg p i (column vq i) dt := by
    intro i
    have hc : column (vq.reverse.map fun row i => -star (row i)) i = revSeries (column vq i) := by
      simp [column, revSeries, List.map_reverse, Function.comp_def]
    rw [hc]
    unfold columnSpec numpyPower
    rw [if_neg (by omega), if_neg (by omega), if_neg (by omega), if_neg (by omega), hp]
    rw [fftAverage_rev f0 f1 fs hf dt hdt (column vq i)]
    intro hne pieces h
    have hl : (column vq i).length = vq.length := by simp [column]
    have h0 : 0 < vq.length := by rw [← hl]; exact List.length_pos_iff.2 hne
    rw [hl] at h ⊢
    exact mirrorPieces_of_dvd (f1 - f0) dt (by linarith) hdt vq.length s h0 hs hdvd pieces h
  simp only [hcol]

/-! ## Trajectories -/

theorem reverse_getD (x : List ℝ) (i : ℕ) (hi : i < x.length) : x.reverse.getD i 0 = x.getD (x.length - 1 - i) 0 := by
  rw [List.getD_eq_getElem?_getD, List.getElem?_reverse hi, List.getD_eq_getElem?_getD]

theorem gradAt_reverse (x : List ℝ) (h : ℝ) (hx : 2 ≤ x.length) (t : ℕ) (ht : t < x.length) : gradAt x.reverse h t = -gradAt x h (x.length - 1 - t) := by
  unfold gradAt
  rw [List.length_reverse]
  by_cases h0 : t = 0
  · subst h0
    rw [if_pos rfl, if_neg (by omega), if_pos (by omega), reverse_getD x 1 (by omega), reverse_getD x 0 (by omega), Nat.sub_zero]
    ring
  rw [if_neg h0]
  by_cases h1 : t = x.length - 1
  · rw [if_pos h1, if_pos (by omega), reverse_getD x t ht, reverse_getD x (t - 1) (by omega), show x.length - 1 - (t - 1) = 1 by omega, show x.length - 1 - t = 0 by omega]
    ring
  rw [if_neg h1, if_neg (by omega), if_neg (by omega), reverse_getD x (t + 1) (by omega), reverse_getD x (t - 1) (by omega),
    show x.length - 1 - (t - 1) = x.length - 1 - t + 1 by omega, show x.length - 1 - (t + 1) = x.length - 1 - t - 1 by omega]
  ring

namespace AnalysisInput

variable {d f : ℕ}

theorem velocities_reverse (a : AnalysisInput d f) (coords : List (Fin d → ℝ)) :
    (a.withFrames a.frames.reverse).velocities coords = (a.velocities coords).map fun vs => vs.reverse.map fun v i k => -v i k := by
  unfold velocities
  rw [show (a.withFrames a.frames.reverse).frames = a.frames.reverse from rfl, List.length_reverse]
  by_cases hN : a.frames.length < 2
  · rw [if_pos hN, if_pos hN]; rfl
  rw [if_neg hN, if_neg hN, Option.map_some, Option.some.injEq]
  refine List.ext_getElem (by simp) fun t h1 h2 => ?_
  have ht : t < a.frames.length := by simpa using h1
  simp only [List.getElem_map, List.getElem_range, List.getElem_reverse, List.length_map, List.length_range]
  funext i k
  rw [show (a.withFrames a.frames.reverse).mdCell = a.mdCell from rfl, show (a.withFrames a.frames.reverse).dt = a.dt from rfl]
  unfold columnVelocity cDisplacements
  rw [List.map_reverse, List.map_reverse, List.map_reverse]
  have hl : (((a.frames.map fun fr c => (natVec (fr i) c, (0 : ℝ))).map (cDisplacement d (natCell a.mdCell) (natVec (coords.getD i 0)))).map fun e => (e k).1).length = a.frames.length := by simp
  generalize (((a.frames.map fun fr c => (natVec (fr i) c, (0 : ℝ))).map (cDisplacement d (natCell a.mdCell) (natVec (coords.getD i 0)))).map fun e => (e k).1) = x at hl
  rw [npGradient_getD x.reverse a.dt (by rw [List.length_reverse]; omega) t (by rw [List.length_reverse]; omega), npGradient_getD x a.dt (by omega) _ (by omega), gradAt_reverse x _ (by omega) t (by omega), hl]
  push_cast
  rfl

theorem velocities_length (a : AnalysisInput d f) (coords : List (Fin d → ℝ)) (vs : List (ℕ → Fin d → ℂ)) (h : a.velocities coords = some vs) : vs.length = a.frames.length := by
  unfold velocities at h
  split_ifs at h
  rw [← Option.some.inj h]
  simp

theorem velocities_star (a : AnalysisInput d f) (coords : List (Fin d → ℝ)) (vs : List (ℕ → Fin d → ℂ)) (h : a.velocities coords = some vs) : ∀ v ∈ vs, ∀ i k, star (v i k) = v i k := by
  unfold velocities at h
  split_ifs at h
  rw [← Option.some.inj h]
  intro v hv i k
  obtain ⟨t, -, rfl⟩ := List.mem_map.1 hv
  simp

end AnalysisInput

open AnalysisInput

/-- **C151**: a trajectory whose frames are read in the opposite order has the same full spectrum (algorithms 2 to 5), if the windows of the data lie symmetrically. -/
theorem C151_trajectory {d f : ℕ} (env : SpecEnv) (alg : ℤ) (ha : 2 ≤ alg ∧ alg ≤ 5) (p : SpecParams) (f0 f1 : ℝ) (fs : List ℝ) (hp : p.freqs = f0 :: f1 :: fs) (hf : f0 < f1) (a : AnalysisInput d f)
    (hdt : 0 < a.dt) (s : ℕ) (hs : |1 / (a.dt * (f1 - f0)) - s| < 1 / 2) (hdvd : (a.frames.length - 1) / s ∣ a.frames.length - s) :
    (a.withFrames a.frames.reverse).fullSpectrum env alg p = a.fullSpectrum env alg p := by
  have hm : (a.withFrames a.frames.reverse).multiples = a.multiples := by unfold multiples; rfl
  unfold fullSpectrum
  rw [hm]
  cases hn : a.multiples with
  | none => simp
  | some n =>
    simp only [Option.bind_eq_bind, Option.bind_some]
    rw [show (a.withFrames a.frames.reverse).positions = a.positions from rfl, show (a.withFrames a.frames.reverse).cell = a.cell from rfl, show (a.withFrames a.frames.reverse).masses = a.masses from rfl,
      show (a.withFrames a.frames.reverse).dt = a.dt from rfl, velocities_reverse]
    cases hv : a.velocities (positionsSupercell a.positions a.cell n) with
    | none => rfl
    | some vs =>
      simp only [Option.map_some, Option.bind_some, Option.some.injEq]
      have hl := velocities_length a _ vs hv
      have hst := velocities_star a _ vs hv
      unfold summedSpectra
      refine congrArg (fun r : Except SpecErr (Bool × List (List ℝ)) => r.map fun r => (r.1, r.2.map List.sum)) ?_
      rw [← C151_backwards env alg ha p f0 f1 fs hp hf (componentRows (positionsSupercell a.positions a.cell n).length (vs.map fun v => massWeighted (expandSupercell a.masses n) v)) a.dt hdt s hs
        (by simpa [componentRows, hl] using hdvd)]
      refine congrArg (fun r => powerSpectra env alg p r a.dt) ?_
      unfold componentRows
      rw [← List.map_reverse, ← List.map_reverse, List.map_map, List.map_map, List.map_map, List.map_map]
      refine List.map_congr_left fun v hvm => ?_
      funext c
      simp only [Function.comp_apply, massWeighted, star_mul', hst v (List.mem_reverse.1 hvm)]
      simp

theorem rowOf_neg {d f : ℕ} (a : AnalysisInput d f) (n : List ℕ) (v : ℕ → Fin d → ℂ) (s : Fin f) : a.rowOf n (fun i k => -v i k) s = -a.rowOf n v s := by
  unfold rowOf massWeighted
  simp only [neg_mul, Finset.sum_neg_distrib, neg_div]

theorem rowOf_withFrames {d f : ℕ} (a : AnalysisInput d f) (fr : List (ℕ → Fin d → ℝ)) (n : List ℕ) : (a.withFrames fr).rowOf n = a.rowOf n := by
  have hl : (a.withFrames fr).labels = a.labels := by unfold labels primCellOf; rfl
  have hp : (a.withFrames fr).primCellOf = a.primCellOf := by unfold primCellOf; rfl
  have hT : (a.withFrames fr).nPrim = a.nPrim := by unfold nPrim; rw [hl]
  funext v s
  unfold rowOf
  rw [hl, hp, hT]
  simp only [withFrames]

theorem vq_reverse {d f : ℕ} (a : AnalysisInput d f) : (a.withFrames a.frames.reverse).vq = a.vq.map fun v => v.reverse.map fun row s => -row s := by
  have hm : (a.withFrames a.frames.reverse).multiples = a.multiples := by unfold multiples; rfl
  rw [vq_rows, vq_rows, hm]
  cases a.multiples with
  | none => simp only [Option.bind_none, Option.map_none]
  | some n =>
    simp only [Option.bind_some, rowOf_withFrames]
    rw [show (a.withFrames a.frames.reverse).positions = a.positions by simp only [withFrames], show (a.withFrames a.frames.reverse).cell = a.cell by simp only [withFrames], velocities_reverse, Option.map_map, Option.map_map]
    refine congrArg (fun g => Option.map g (a.velocities (positionsSupercell a.positions a.cell n))) ?_
    funext vs
    simp only [Function.comp_apply]
    rw [← List.map_reverse, List.map_map, List.map_map]
    refine List.map_congr_left fun v _ => ?_
    funext s
    exact rowOf_neg a n v s

theorem vq_opposite {d f : ℕ} (a : AnalysisInput d f) : (a.atWaveVector (fun i => -a.q i) fun s t k => star (a.ev s t k)).vq = a.vq.map (List.map fun row s => star (row s)) :=
  a.vq_atWaveVector _ _ star fun n vs v hvs hv s => rowOf_opposite a n v (velocities_star a _ vs hvs v hv) s

theorem vq_length {d f : ℕ} (a : AnalysisInput d f) (v : List (Fin f → ℂ)) (h : a.vq = some v) : v.length = a.frames.length := by
  rw [vq_rows, Option.bind_eq_some_iff] at h
  obtain ⟨n, -, h⟩ := h
  obtain ⟨vs, hvs, rfl⟩ := Option.map_eq_some_iff.1 h
  rw [List.length_map, velocities_length a _ vs hvs]

/-- **C151**: the spectra of the phonons of a trajectory whose frames are read in the opposite order are those of the original trajectory at the opposite wave vector (with the conjugate eigenvectors), with the
algorithms 2 to 5, if the windows of the data lie symmetrically. -/
theorem C151_phonons {d f : ℕ} (env : SpecEnv) (alg : ℤ) (ha : 2 ≤ alg ∧ alg ≤ 5) (p : SpecParams) (f0 f1 : ℝ) (fs : List ℝ) (hp : p.freqs = f0 :: f1 :: fs) (hf : f0 < f1) (a : AnalysisInput d f)
    (hdt : 0 < a.dt) (s : ℕ) (hs : |1 / (a.dt * (f1 - f0)) - s| < 1 / 2) (hdvd : (a.frames.length - 1) / s ∣ a.frames.length - s) :
    (a.withFrames a.frames.reverse).phononSpectrum env alg p = (a.atWaveVector (fun i => -a.q i) fun s t k => star (a.ev s t k)).phononSpectrum env alg p := by
  unfold phononSpectrum
  rw [vq_reverse, vq_opposite, show (a.withFrames a.frames.reverse).dt = a.dt by simp only [withFrames], show (a.atWaveVector (fun i => -a.q i) fun s t k => star (a.ev s t k)).dt = a.dt by simp only [atWaveVector]]
  cases hv : a.vq with
  | none => simp only [Option.map_none]
  | some v =>
    simp only [Option.map_some, Option.some.injEq]
    have hl := vq_length a v hv
    rw [← C151_backwards env alg ha p f0 f1 fs hp hf (v.map fun row s => star (row s)) a.dt hdt s hs (by rw [List.length_map, hl]; exact hdvd)]
    refine congrArg (fun r => powerSpectra env alg p r a.dt) ?_
    rw [← List.map_reverse, List.map_map]
    refine List.map_congr_left fun row _ => ?_
    funext i
    simp only [Function.comp_apply, star_star]

/-! ## The maximum entropy method -/

theorem columnSpec_three (env : SpecEnv) (he : CleanMemory env) (x y z : ℝ) (hbig : (1 : ℝ) / 25 ≤ y ^ 2 + 2 * z ^ 2) (i : Fin 1) :
    columnSpec env 1 ⟨[0], 1, 1, 1, 0⟩ i (column [fun _ : Fin 1 => (x : ℂ), fun _ => (y : ℂ), fun _ => (z : ℂ)] i) 1 =
      .ok [(y ^ 2 + z ^ 2) / 3 * (1 - (2 * (y * z) / (y ^ 2 + 2 * z ^ 2)) ^ 2) / (1 - 2 * (y * z) / (y ^ 2 + 2 * z ^ 2)) ^ 2] := by
  rw [columnSpec_mem env he _ _ _ (by simp [column])]
  have hz : (fun j => (((column [fun _ : Fin 1 => (x : ℂ), fun _ => (y : ℂ), fun _ => (z : ℂ)] i)).getD j 0).im) = fun _ => 0 := by
    funext j
    match j with
    | 0 => simp [column]
    | 1 => simp [column]
    | 2 => simp [column]
    | j + 3 => simp [column]
  rw [hz]
  simp only [List.map_cons, List.map_nil, zero_mul, mul_one, memPart_zero, add_zero]
  rw [show (column [fun _ : Fin 1 => (x : ℂ), fun _ => (y : ℂ), fun _ => (z : ℂ)] i).length = 3 by simp [column],
    memPart_three _ y z (by simp [column]) (by simp [column]) (by simp [column]) hbig]

/-- **C151** (violated by the maximum entropy method): it never reads the first frame, and so the spectrum of a motion that starts from rest is ten times that of the same motion run backwards. -/
theorem C151_mem_violated (env : SpecEnv) (he : CleanMemory env) :
    let vq : List (Fin 1 → ℂ) := [fun _ => 0, fun _ => 1, fun _ => 1]
    ∃ S : ℝ, S ≠ 0 ∧ powerSpectra env 1 ⟨[0], 1, 1, 1, 0⟩ vq 1 = .ok (false, [[10 * S]]) ∧
      powerSpectra env 1 ⟨[0], 1, 1, 1, 0⟩ (vq.reverse.map fun row i => -star (row i)) 1 = .ok (false, [[S]]) := by
  intro vq
  have h1 := fun i => columnSpec_three env he 0 1 1 (by norm_num) i
  have h2 := fun i => columnSpec_three env he (-1) (-1) 0 (by norm_num) i
  have e1 : vq = [fun _ : Fin 1 => ((0 : ℝ) : ℂ), fun _ => ((1 : ℝ) : ℂ), fun _ => ((1 : ℝ) : ℂ)] := by simp [vq]
  have e2 : (vq.reverse.map fun row i => -star (row i)) = [fun _ : Fin 1 => ((-1 : ℝ) : ℂ), fun _ => ((-1 : ℝ) : ℂ), fun _ => ((0 : ℝ) : ℂ)] := by simp [vq]
  have g1 := powerSpectra_intro (env := env) (alg := 1) (w := false) (p := ⟨[0], 1, 1, 1, 0⟩) (dt := 1) (vq := [fun _ : Fin 1 => ((0 : ℝ) : ℂ), fun _ => ((1 : ℝ) : ℂ), fun _ => ((1 : ℝ) : ℂ)]) (by simp [specCheck]) _ h1
  have g2 := powerSpectra_intro (env := env) (alg := 1) (w := false) (p := ⟨[0], 1, 1, 1, 0⟩) (dt := 1) (vq := [fun _ : Fin 1 => ((-1 : ℝ) : ℂ), fun _ => ((-1 : ℝ) : ℂ), fun _ => ((0 : ℝ) : ℂ)]) (by simp [specCheck]) _ h2
  refine ⟨1 / 3 * unitConversion, by unfold unitConversion; norm_num, ?_, ?_⟩
  · rw [e1, g1]
    norm_num [psdRows]
    ring
  · rw [e2, g2]
    norm_num [psdRows]

/-- **C151** (violated by the direct Fourier method): at zero frequency it does not read the last frame of two; a motion that starts from rest has no spectrum, but has one when run backwards. -/
theorem C151_fourier_violated (env : SpecEnv) (hf : 2 < env.fuel) :
    let vq : List (Fin 1 → ℂ) := [fun _ => 0, fun _ => 1]
    ∃ S : ℝ, 0 < S ∧ powerSpectra env 0 ⟨[0], 1, 1, 1, 1⟩ vq 1 = .ok (false, [[0]]) ∧
      powerSpectra env 0 ⟨[0], 1, 1, 1, 1⟩ (vq.reverse.map fun row i => -star (row i)) 1 = .ok (false, [[S]]) := by
  intro vq
  have h : ∀ (w : List (Fin 1 → ℂ)) (hw : w.length = 2) (i : Fin 1), columnSpec env 0 ⟨[0], 1, 1, 1, 1⟩ i (column w i) 1 = .ok [corrValue (column w i) 2 0 1 1 1] := by
    intro w hw i
    rw [columnSpec_fourier env _ i _ 1 one_pos (by simp [column, hw, hf]) (Or.inr rfl)]
    simp [column, hw]
  have g1 := powerSpectra_intro (w := false) (by simp [specCheck]) _ (h vq (by simp [vq]))
  have g2 := powerSpectra_intro (w := false) (by simp [specCheck]) _ (h (vq.reverse.map fun row i => -star (row i)) (by simp [vq]))
  have hval : ∀ x y : ℂ, corrValue [x, y] 2 0 1 1 1 = ‖x‖ ^ 2 * Real.cos 1 := by
    intro x y
    have hfil : (Finset.range 2).filter (fun l => l * 1 < 2) = Finset.range 2 := by decide
    have hx : (starRingEnd ℂ) x * x = ((‖x‖ ^ 2 : ℝ) : ℂ) := by rw [mul_comm, mul_conj, normSq_eq_norm_sq]
    have he : (exp I).re = Real.cos 1 := by rw [exp_re]; simp
    unfold corrValue
    rw [hfil]
    simp [Finset.sum_range_succ, corrVal, hx, he]
    rw [← ofReal_pow, ofReal_re, ofReal_im]
    ring
  refine ⟨Real.cos 1 * unitConversion, mul_pos Real.cos_one_pos (by unfold unitConversion; norm_num), ?_, ?_⟩
  · rw [g1]
    simp [psdRows, hval, vq, column]
  · rw [g2]
    simp [psdRows, hval, vq, column]

/-! ## Windows at distances that are not whole numbers -/

theorem piecePower_two (a b : ℂ) : ∃ u, piecePower 1 [a, b] = [‖(a * starRingEnd ℂ b + (a * starRingEnd ℂ a + b * starRingEnd ℂ b)) / 2‖, u] := by
  have h : correlateSame [a, b] = [a * starRingEnd ℂ b, a * starRingEnd ℂ a + b * starRingEnd ℂ b] := by
    unfold correlateSame
    simp [List.range_succ, Finset.sum_filter, Finset.sum_range_succ]
  unfold piecePower
  rw [h]
  simp [dft, List.range_succ, Finset.sum_range_succ, -Complex.norm_div, -norm_div]
  congr 1
  ring

theorem division_five : divisionOfData (1 / 2 - 0 : ℝ) 5 1 = some [(0, 2), (1, 3), (3, 5)] := by
  have hr : roundEven (1 / ((1 : ℝ) * (1 / 2 - 0))) = 2 := by
    rw [show 1 / ((1 : ℝ) * (1 / 2 - 0)) = ((2 : ℤ) : ℝ) by norm_num, roundEven_intCast]
  have hp : ∀ (x : ℝ) (m : ℤ), (m : ℝ) ≤ x → x < m + 1 → 0 ≤ m → pyInt x = m := by
    intro x m h1 h2 h3
    rw [pyInt_of_nonneg (le_trans (by exact_mod_cast h3) h1), Int.floor_eq_iff]
    exact ⟨h1, h2⟩
  unfold divisionOfData divisionPlan
  rw [if_neg (by norm_num), hr]
  simp only
  rw [if_neg (by norm_num), hp _ 2 (by norm_num) (by norm_num) (by norm_num), if_pos (by norm_num)]
  rw [Option.map_some, Option.some.injEq]
  simp only
  rw [show List.range ((2 : ℤ).toNat + 1) = [0, 1, 2] from rfl]
  simp only [List.map_cons, List.map_nil]
  rw [hp _ 0 (by norm_num) (by norm_num) (by norm_num), hp _ 2 (by norm_num) (by norm_num) (by norm_num), hp _ 1 (by norm_num) (by norm_num) (by norm_num),
    hp _ 3 (by norm_num) (by norm_num) (by norm_num), hp _ 3 (by norm_num) (by norm_num) (by norm_num), hp _ 5 (by norm_num) (by norm_num) (by norm_num)]

theorem numpyPower_five (x0 x1 x2 x3 x4 : ℝ) : ∃ S, numpyPower [0, 1 / 2] [(x0 : ℂ), x1, x2, x3, x4] 1 = some [S, S] ∧
    S = (|x0 * x1 + (x0 * x0 + x1 * x1)| / 2 + |x1 * x2 + (x1 * x1 + x2 * x2)| / 2 + |x3 * x4 + (x3 * x3 + x4 * x4)| / 2) / 3 := by
  have hn : ∀ x y : ℝ, ‖((x : ℂ) * starRingEnd ℂ (y : ℂ) + ((x : ℂ) * starRingEnd ℂ (x : ℂ) + (y : ℂ) * starRingEnd ℂ (y : ℂ))) / 2‖ = |x * y + (x * x + y * y)| / 2 := by
    intro x y
    rw [conj_ofReal, conj_ofReal, show ((x : ℂ) * y + (x * x + y * y)) / 2 = (((x * y + (x * x + y * y)) / 2 : ℝ) : ℂ) by push_cast; ring, norm_real, Real.norm_eq_abs, abs_div]
    norm_num
  refine ⟨_, ?_, rfl⟩
  unfold numpyPower
  rw [fftAverage_eq 0 (1 / 2) [] _ 1 (by simp)]
  simp only [List.length_cons, List.length_nil]
  rw [division_five]
  have hs : ([(0, 2), (1, 3), (3, 5)] : List (ℤ × ℤ)).map (fun q => piecePower 1 (slice [(x0 : ℂ), x1, x2, x3, x4] q)) =
      [piecePower 1 [(x0 : ℂ), x1], piecePower 1 [(x1 : ℂ), x2], piecePower 1 [(x3 : ℂ), x4]] := by
    simp only [List.map_cons, List.map_nil]
    rfl
  simp only [Option.map_some, hs]
  obtain ⟨u, hu⟩ := piecePower_two (x0 : ℂ) x1
  obtain ⟨v, hv⟩ := piecePower_two (x1 : ℂ) x2
  obtain ⟨w, hw⟩ := piecePower_two (x3 : ℂ) x4
  rw [hu, hv, hw, hn, hn, hn]
  simp [averageRows, List.range_succ, sortedSpectrum, interp, add_assoc]
  norm_num

/-- **C151** (the condition on the windows is needed): five frames in three windows of two, one and a half frames apart. The windows start at 0, 1 and 3, those of the reversed data at 0, 2 and 3 of the
original; the spectrum of the motion is twice that of the reversed motion. -/
theorem C151_windows_violated (env : SpecEnv) (alg : ℤ) (ha : alg = 3 ∨ alg = 4) :
    let vq : List (Fin 1 → ℂ) := [fun _ => 0, fun _ => 1, fun _ => 1, fun _ => 0, fun _ => 0]
    ∃ S : ℝ, 0 < S ∧ powerSpectra env alg ⟨[0, 1 / 2], 1, 1, 1, 0⟩ vq 1 = .ok (false, [[2 * S], [2 * S]]) ∧
      powerSpectra env alg ⟨[0, 1 / 2], 1, 1, 1, 0⟩ (vq.reverse.map fun row i => -star (row i)) 1 = .ok (false, [[S], [S]]) := by
  intro vq
  have h : ∀ (x0 x1 x2 x3 x4 S : ℝ), S = (|x0 * x1 + (x0 * x0 + x1 * x1)| / 2 + |x1 * x2 + (x1 * x1 + x2 * x2)| / 2 + |x3 * x4 + (x3 * x3 + x4 * x4)| / 2) / 3 →
      powerSpectra env alg ⟨[0, 1 / 2], 1, 1, 1, 0⟩ [fun _ : Fin 1 => (x0 : ℂ), fun _ => (x1 : ℂ), fun _ => (x2 : ℂ), fun _ => (x3 : ℂ), fun _ => (x4 : ℂ)] 1 =
        .ok (false, [[S * unitConversion], [S * unitConversion]]) := by
    intro x0 x1 x2 x3 x4 S hS
    obtain ⟨S', h1, h2⟩ := numpyPower_five x0 x1 x2 x3 x4
    rw [powerSpectra_intro (w := false) (by unfold specCheck; rw [if_neg (by omega), if_neg (by omega), if_neg (by omega)]) fun _ => [S', S']]
    · simp [psdRows, List.range_succ, hS, h2]
    · intro i
      unfold columnSpec
      rw [if_neg (by omega), if_neg (by omega)]
      simp only [column, List.map_cons, List.map_nil, h1]
  refine ⟨1 / 3 * unitConversion, by unfold unitConversion; norm_num, ?_, ?_⟩
  · have := h 0 1 1 0 0 (2 / 3) (by norm_num)
    simp only [vq]
    push_cast at this
    rw [this]
    norm_num
    ring
  · have := h 0 0 (-1) (-1) 0 (1 / 3) (by norm_num)
    simp only [vq]
    push_cast at this
    simpa using this

/-- The hypotheses of C151 hold for six frames in three windows of two; the spectrum is returned. -/
example : let vq : List (Fin 1 → ℂ) := [![1], ![I], ![2], ![0], ![3], ![1 + I]]
    |1 / ((1 : ℝ) * (1 / 2 - 0)) - (2 : ℕ)| < 1 / 2 ∧ (vq.length - 1) / 2 ∣ vq.length - 2 ∧ (∃ psd w, powerSpectra exampleEnv 2 ⟨[0, 1 / 2], 1, 1, 1, 0⟩ vq 1 = .ok (w, psd)) ∧
    powerSpectra exampleEnv 2 ⟨[0, 1 / 2], 1, 1, 1, 0⟩ (vq.reverse.map fun row i => -star (row i)) 1 = powerSpectra exampleEnv 2 ⟨[0, 1 / 2], 1, 1, 1, 0⟩ vq 1 := by
  intro vq
  refine ⟨by norm_num, by simp [vq], ?_, ?_⟩
  · obtain ⟨psd, w, h, -⟩ := C105_fft_returns exampleEnv 2 (by norm_num) ⟨[0, 1 / 2], 1, 1, 1, 0⟩ 0 (1 / 2) [] rfl (by norm_num) vq (by simp [vq]) 1 one_pos (by norm_num)
    exact ⟨psd, w, h⟩
  · exact C151_backwards exampleEnv 2 (by norm_num) ⟨[0, 1 / 2], 1, 1, 1, 0⟩ 0 (1 / 2) [] rfl (by norm_num) vq 1 one_pos 2 (by norm_num) (by simp [vq])

/-- The hypotheses of `C151_trajectory` and `C151_phonons` hold for a crystal and five frames in two windows of three which overlap; the spectrum is returned. -/
example : (∃ psd w, zigzagCrystal.fullSpectrum exampleEnv 2 ⟨[0, 1 / 3], 1, 1, 1, 0⟩ = some (.ok (w, psd))) ∧
    (zigzagCrystal.withFrames zigzagCrystal.frames.reverse).fullSpectrum exampleEnv 2 ⟨[0, 1 / 3], 1, 1, 1, 0⟩ = zigzagCrystal.fullSpectrum exampleEnv 2 ⟨[0, 1 / 3], 1, 1, 1, 0⟩ ∧
    (zigzagCrystal.withFrames zigzagCrystal.frames.reverse).phononSpectrum exampleEnv 2 ⟨[0, 1 / 3], 1, 1, 1, 0⟩ =
      (zigzagCrystal.atWaveVector (fun i => -zigzagCrystal.q i) fun s t k => star (zigzagCrystal.ev s t k)).phononSpectrum exampleEnv 2 ⟨[0, 1 / 3], 1, 1, 1, 0⟩ := by
  have hdt : zigzagCrystal.dt = 1 := by simp only [zigzagCrystal]
  have hfr : zigzagCrystal.frames.length = 5 := by simp [zigzagCrystal]
  have hs : |1 / (zigzagCrystal.dt * (1 / 3 - 0)) - (3 : ℕ)| < 1 / 2 := by rw [hdt]; norm_num
  have hdvd : (zigzagCrystal.frames.length - 1) / 3 ∣ zigzagCrystal.frames.length - 3 := by rw [hfr]; norm_num
  refine ⟨?_, C151_trajectory exampleEnv 2 (by norm_num) _ 0 (1 / 3) [] rfl (by norm_num) zigzagCrystal (by rw [hdt]; exact one_pos) 3 hs hdvd,
    C151_phonons exampleEnv 2 (by norm_num) _ 0 (1 / 3) [] rfl (by norm_num) zigzagCrystal (by rw [hdt]; exact one_pos) 3 hs hdvd⟩
  obtain ⟨vs, hv, -⟩ := zigzag_velocities
  have hl := velocities_length zigzagCrystal _ vs hv
  have hne : vs ≠ [] := by
    intro h
    rw [h, hfr] at hl
    simp at hl
  unfold fullSpectrum summedSpectra
  rw [zigzag_multiples]
  simp only [Option.bind_eq_bind, Option.bind_some]
  rw [zigzag_coords, hv, Option.bind_some, hdt]
  obtain ⟨psd, w, h, -⟩ := C105_fft_returns exampleEnv 2 (by norm_num) ⟨[0, 1 / 3], 1, 1, 1, 0⟩ 0 (1 / 3) [] rfl (by norm_num)
    (componentRows ([0] : List (Fin 2 → ℝ)).length (vs.map fun v => massWeighted (expandSupercell zigzagCrystal.masses [1, 1]) v)) (by simpa [componentRows] using hne) 1 one_pos (by norm_num)
  rw [h]
  exact ⟨_, w, rfl⟩

end Verif
