import Verif.Model.FFTBackends
import Verif.Props.FFTPower
import Verif.Props.Fitdata
import Mathlib.Data.List.GetD
import Mathlib.Data.List.Nodup

/-! # C121: the FFT algorithms give the same spectra -/

set_option autoImplicit false

namespace Verif

/-! ## Specification -/

/-- A library that computes what its functions are documented to compute: autocorrelation of mode `same`, discrete Fourier
transform, and an order that sorts. -/
structure FftLib.Correct (lib : FftLib) : Prop where
  correlate : ∀ a, lib.correlate a = correlateSame a
  fft : ∀ a, lib.fft a = dft a
  perm : ∀ l, (lib.argsort l).Perm (List.range l.length)
  sorted : ∀ l, ((lib.argsort l).map fun i => l.getD i 0).Pairwise (· ≤ ·)

/-! ## Frequencies -/

theorem fftfreq_length (n : ℕ) (hn : 0 < n) (d : ℝ) : (fftfreq n d).length = n := by
  unfold fftfreq
  rw [List.length_append, List.length_map, List.length_map, List.length_range, List.length_range]
  omega

theorem fftfreq_get (n : ℕ) (d : ℝ) (p : ℕ) (hp : p < n) :
    (fftfreq n d).getD ((p + (n + 1) / 2) % n) 0 = ((p : ℝ) - (n / 2 : ℕ)) / (n * d) := by
  unfold fftfreq
  by_cases h : p + (n + 1) / 2 < n
  · rw [Nat.mod_eq_of_lt h, List.getD_append_right _ _ _ _ (by rw [List.length_map, List.length_range]; omega)]
    rw [List.length_map, List.length_range]
    have h1 : p + (n + 1) / 2 - ((n - 1) / 2 + 1) = p := by omega
    rw [h1, List.getD_eq_getElem _ _ (by rw [List.length_map, List.length_range]; omega), List.getElem_map, List.getElem_range]
    ring
  · have h2 : (p + (n + 1) / 2) % n = p - n / 2 := by
      rw [Nat.mod_eq_sub_mod (by omega), Nat.mod_eq_of_lt (by omega)]
      omega
    rw [h2, List.getD_append _ _ _ _ (by rw [List.length_map, List.length_range]; omega),
      List.getD_eq_getElem _ _ (by rw [List.length_map, List.length_range]; omega), List.getElem_map, List.getElem_range]
    rw [Nat.cast_sub (by omega)]
    ring

theorem table_eq (lib : FftLib) (hl : lib.Correct) (dt : ℝ) (hdt : 0 < dt) (ps : List ℝ) (hps : ps ≠ []) :
    (((lib.argsort (fftfreq ps.length dt)).map fun i => (fftfreq ps.length dt).getD i 0).zip
      ((lib.argsort (fftfreq ps.length dt)).map fun i => ps.getD i 0)) = sortedSpectrum dt ps := by
  set n := ps.length with hn
  have hn0 : 0 < n := List.length_pos_of_ne_nil hps
  set fr := fftfreq n dt with hfr
  have hlen : fr.length = n := fftfreq_length n hn0 dt
  let idx0 := (List.range n).map fun p => (p + (n + 1) / 2) % n
  have hget : ∀ p, p < n → fr.getD ((p + (n + 1) / 2) % n) 0 = ((p : ℝ) - (n / 2 : ℕ)) / (n * dt) := fun p hp => fftfreq_get n dt p hp
  have hpos : (0 : ℝ) < n * dt := by have : (0 : ℝ) < n := by exact_mod_cast hn0
                                     positivity
  -- the order `idx0` is a permutation
  have hinj : Set.InjOn (fun p => (p + (n + 1) / 2) % n) {p | p < n} := by
    intro p hp q hq h
    have h1 := hget p hp
    have h2 := hget q hq
    have h' : (p + (n + 1) / 2) % n = (q + (n + 1) / 2) % n := h
    rw [h', h2, div_left_inj' hpos.ne', sub_left_inj] at h1
    exact_mod_cast h1.symm
  have hnd0 : idx0.Nodup := by
    apply List.Nodup.map_on _ List.nodup_range
    intro p hp q hq h
    exact hinj (List.mem_range.1 hp) (List.mem_range.1 hq) h
  have hsub : idx0 ⊆ List.range n := by
    intro i hi
    obtain ⟨p, _, rfl⟩ := List.mem_map.1 hi
    exact List.mem_range.2 (Nat.mod_lt _ hn0)
  have hperm0 : idx0.Perm (List.range n) :=
    (hnd0.subperm hsub).perm_of_length_le (by simp [idx0])
  have hperm : (lib.argsort fr).Perm idx0 := by
    have := hl.perm fr
    rw [hlen] at this
    exact this.trans hperm0.symm
  have hs0 : (idx0.map fun i => fr.getD i 0).Pairwise (· ≤ ·) := by
    rw [List.map_map]
    apply List.pairwise_map.2
    apply List.Pairwise.imp_of_mem _ List.pairwise_lt_range
    intro p q hp hq hpq
    show fr.getD _ 0 ≤ fr.getD _ 0
    rw [hget p (List.mem_range.1 hp), hget q (List.mem_range.1 hq)]
    apply div_le_div_of_nonneg_right _ hpos.le
    have : (p : ℝ) < q := by exact_mod_cast hpq
    linarith
  have heq : (lib.argsort fr).map (fun i => fr.getD i 0) = idx0.map fun i => fr.getD i 0 :=
    List.Perm.eq_of_pairwise (fun a b _ _ h1 h2 => le_antisymm h1 h2) (hl.sorted fr) hs0 (hperm.map _)
  have hidx : lib.argsort fr = idx0 := by
    have hfrinj : ∀ i j, i < n → j < n → fr.getD i 0 = fr.getD j 0 → i = j := by
      intro i j hi hj hij
      obtain ⟨p, hp, rfl⟩ := List.mem_map.1 (hperm0.mem_iff.2 (List.mem_range.2 hi))
      obtain ⟨q, hq, rfl⟩ := List.mem_map.1 (hperm0.mem_iff.2 (List.mem_range.2 hj))
      have hp := List.mem_range.1 hp
      have hq := List.mem_range.1 hq
      rw [hget p hp, hget q hq, div_left_inj' hpos.ne', sub_left_inj] at hij
      have : p = q := by exact_mod_cast hij
      rw [this]
    have hlt : ∀ i ∈ idx0, i < n := fun i hi => List.mem_range.1 (hsub hi)
    apply List.ext_getElem hperm.length_eq
    intro k h1 h2
    apply hfrinj _ _ (hlt _ (hperm.mem_iff.1 (List.getElem_mem h1))) (hlt _ (List.getElem_mem h2))
    have := congrArg (fun l : List ℝ => l.getD k 0) heq
    simpa [List.getD_eq_getElem?_getD, h1, h2] using this
  rw [hidx]
  unfold sortedSpectrum
  rw [← hn]
  apply List.ext_getElem
  · simp [idx0]
  · intro p h1 h2
    have hp : p < n := by simpa [idx0] using h1
    simp only [List.getElem_zip, List.getElem_map, List.getElem_range, idx0]
    rw [hget p hp]

/-! ## C121 -/

theorem correlateSame_length (a : List ℂ) : (correlateSame a).length = a.length := by
  unfold correlateSame; rw [List.length_map, List.length_range]

theorem numpyRoutine_eq (lib : FftLib) (hl : lib.Correct) (freqRange : List ℝ) (data : List ℂ) (dt : ℝ) (hdt : 0 < dt)
    (hne : ∀ ps, fftAverage freqRange data dt = some ps → ps ≠ []) : numpyRoutine lib freqRange data dt = numpyPower freqRange data dt := by
  unfold numpyRoutine numpyPower
  match freqRange with
  | [] => rfl
  | [_] => rfl
  | f0 :: f1 :: t =>
    unfold fftAverage at hne ⊢
    dsimp only at hne ⊢
    by_cases hd : data = []
    · rw [if_pos hd, if_pos hd]; rfl
    · rw [if_neg hd] at hne
      rw [if_neg hd, if_neg hd]
      cases hdiv : divisionOfData (f1 - f0) data.length dt with
      | none => rfl
      | some pieces =>
        rw [hdiv] at hne
        simp only [Option.map_some, Option.some.injEq] at hne ⊢
        have hrow : (pieces.map fun p => (lib.fft ((lib.correlate (slice data p)).map fun c => c / ((slice data p).length : ℂ))).map fun x => ‖x‖ * dt) =
            pieces.map fun p => piecePower dt (slice data p) := by
          apply List.map_congr_left
          intro p _
          rw [hl.fft, hl.correlate]; rfl
        rw [hrow]
        have hne' := hne _ rfl
        generalize (pieces.map fun p => piecePower dt (slice data p)) = ps at hne' ⊢
        generalize hn : (ps.getD (ps.length - 1) []).length = n at hne' ⊢
        have hlen : (averageRows n ps).length = n := by unfold averageRows; rw [List.length_map, List.length_range]
        unfold interpSorted
        dsimp only
        have ht := table_eq lib hl dt hdt (averageRows n ps) hne'
        rw [hlen] at ht
        rw [ht]

theorem fftAverage_ne_nil (f0 f1 : ℝ) (fs : List ℝ) (hf : f0 < f1) (data : List ℂ) (dt : ℝ) (hdt : 0 < dt) (av : List ℝ)
    (h1 : fftAverage (f0 :: f1 :: fs) data dt = some av) : av ≠ [] := by
  unfold fftAverage at h1
  simp only at h1
  split_ifs at h1 with hd
  rw [Option.map_eq_some_iff] at h1
  obtain ⟨pieces, hp, rfl⟩ := h1
  have hdiv := C27_division (f1 - f0) dt (by linarith) hdt data.length pieces hp
  have hlen : 0 < data.length := List.length_pos_iff.2 hd
  obtain ⟨p, hl, hp2⟩ := hdiv.ends
  obtain ⟨L, -, hL, hall⟩ := hdiv.sameLength
  have hpm : p ∈ pieces := List.mem_of_getLast? hl
  have h3 := hall p hpm
  have h4 := hL hlen
  have h5 := hdiv.inside p hpm
  rw [List.getLast?_eq_getElem?] at hl
  have : (pieces.map fun p => piecePower dt (slice data p)).getD
      ((pieces.map fun p => piecePower dt (slice data p)).length - 1) [] = piecePower dt (slice data p) := by
    rw [List.getD_eq_getElem?_getD, List.getElem?_map, List.length_map, hl]; rfl
  rw [this, length_piecePower]
  unfold averageRows
  have : 0 < (slice data p).length := by
    unfold slice
    simp only [List.length_drop, List.length_take]
    omega
  intro he
  rw [List.map_eq_nil_iff, List.range_eq_nil] at he
  omega

theorem cudaRoutine_eq (lib : FftLib) (freqRange : List ℝ) (data : List ℂ) (dt : ℝ) (hdt : 0 < dt) :
    cudaRoutine lib freqRange data dt = numpyRoutine lib freqRange data dt := by
  unfold cudaRoutine numpyRoutine
  have : (fun x : ℂ => ‖x * (dt : ℂ)‖) = fun x => ‖x‖ * dt := by
    funext x
    rw [norm_mul, Complex.norm_real, Real.norm_of_nonneg hdt.le]
  rw [this]

/-- C121: for every increasing pair of first frequencies, every data and positive time step, each FFT routine, with any
library that computes what it documents, gives the same spectrum of a column: the interpolated one of C31. -/
theorem C121_column (alg : FftAlgorithm) (lib : FftLib) (hl : lib.Correct) (f0 f1 : ℝ) (fs : List ℝ) (hf : f0 < f1) (data : List ℂ)
    (dt : ℝ) (hdt : 0 < dt) : alg.routine lib (f0 :: f1 :: fs) data dt = numpyPower (f0 :: f1 :: fs) data dt := by
  have h := numpyRoutine_eq lib hl (f0 :: f1 :: fs) data dt hdt (fun ps h => fftAverage_ne_nil f0 f1 fs hf data dt hdt ps h)
  cases alg with
  | numpy => exact h
  | fftw => exact h
  | cuda => exact (cudaRoutine_eq lib _ data dt hdt).trans h
  | cupy => exact h

/-- C121: whichever two FFT algorithms are chosen, each with its own correct library, the matrices of spectra are equal: both
calls end, or both fail. -/
theorem C121_same (a b : FftAlgorithm) (la lb : FftLib) (ha : la.Correct) (hb : lb.Correct) (f0 f1 : ℝ) (fs : List ℝ) (hf : f0 < f1)
    (steps : ℕ) (cols : List (List ℂ)) (dt padding unit : ℝ) (hdt : 0 < dt) :
    (fftMatrix a la (f0 :: f1 :: fs) steps cols dt padding unit).map Prod.snd =
      (fftMatrix b lb (f0 :: f1 :: fs) steps cols dt padding unit).map Prod.snd := by
  have hr : ∀ c : FftAlgorithm, ∀ l : FftLib, l.Correct →
      (fftMatrix c l (f0 :: f1 :: fs) steps cols dt padding unit).map Prod.snd =
        cols.mapM fun d => (numpyPower (f0 :: f1 :: fs) d dt).map fun ps => ps.map fun x => x * unit := by
    intro c l hc
    have hcol : ∀ d, c.routine l (f0 :: f1 :: fs) d dt = numpyPower (f0 :: f1 :: fs) d dt := fun d => C121_column c l hc f0 f1 fs hf d dt hdt
    unfold fftMatrix
    simp only [hcol]
    generalize (cols.mapM fun d => (numpyPower (f0 :: f1 :: fs) d dt).map fun ps => ps.map fun x => x * unit) = r
    cases c <;> cases r <;> rfl
  rw [hr a la ha, hr b lb hb]

/-- C121: a call that ends gives one spectrum for each column, in the order of the columns, and each has one value for each
requested frequency, in their order: the spectrum of that column (C31) times the unit. -/
theorem C121_shape (alg : FftAlgorithm) (lib : FftLib) (hl : lib.Correct) (f0 f1 : ℝ) (fs : List ℝ) (hf : f0 < f1) (steps : ℕ)
    (cols : List (List ℂ)) (dt padding unit : ℝ) (hdt : 0 < dt) (w : Option ℝ) (m : List (List ℝ))
    (h : fftMatrix alg lib (f0 :: f1 :: fs) steps cols dt padding unit = some (w, m)) :
    m.length = cols.length ∧ ∀ i (hi : i < cols.length), ∃ ps, numpyPower (f0 :: f1 :: fs) cols[i] dt = some ps ∧
      ps.length = (f0 :: f1 :: fs).length ∧ m[i]? = some (ps.map fun x => x * unit) := by
  have hcol : ∀ d, alg.routine lib (f0 :: f1 :: fs) d dt = numpyPower (f0 :: f1 :: fs) d dt := fun d => C121_column alg lib hl f0 f1 fs hf d dt hdt
  have hm : (cols.mapM fun d => (numpyPower (f0 :: f1 :: fs) d dt).map fun ps => ps.map fun x => x * unit) = some m := by
    unfold fftMatrix at h
    simp only [hcol] at h
    rw [Option.bind_eq_some_iff] at h
    obtain ⟨w', -, h⟩ := h
    rw [Option.map_eq_some_iff] at h
    obtain ⟨m', h, he⟩ := h
    rw [Prod.mk.injEq] at he
    rw [h, he.2]
  clear h hcol
  rw [mapM_eq_some_iff] at hm
  refine ⟨hm.length_eq.symm, ?_⟩
  intro i hi
  have hi' : i < m.length := by rw [← hm.length_eq]; exact hi
  have := List.Forall₂.get hm hi hi'
  simp only [List.get_eq_getElem, Option.map_eq_some_iff] at this
  obtain ⟨ps, h1, h2⟩ := this
  exact ⟨ps, h1, (C31_nonneg _ _ dt hdt ps h1).1, by rw [List.getElem?_eq_getElem hi', h2]⟩

/-- C121: when the columns are not empty, the call ends exactly when a period of the resolution, in steps, is more than a half
(C27), whichever algorithm is chosen. -/
theorem C121_ends (alg : FftAlgorithm) (lib : FftLib) (f0 f1 : ℝ) (fs : List ℝ) (hf : f0 < f1) (steps : ℕ) (cols : List (List ℂ))
    (hc : cols ≠ []) (hcols : ∀ c ∈ cols, c ≠ []) (dt padding unit : ℝ) (hdt : 0 < dt) :
    (fftMatrix alg lib (f0 :: f1 :: fs) steps cols dt padding unit).isSome ↔ 1 / 2 < 1 / (dt * (f1 - f0)) := by
  have hcol : ∀ c, c ≠ [] → ((alg.routine lib (f0 :: f1 :: fs) c dt).isSome ↔ 1 / 2 < 1 / (dt * (f1 - f0))) := by
    intro c hc
    rw [← C27_returns (f1 - f0) dt (by linarith) hdt c.length]
    have hn : (numpyRoutine lib (f0 :: f1 :: fs) c dt).isSome ↔ (divisionOfData (f1 - f0) c.length dt).isSome := by
      unfold numpyRoutine
      simp only [if_neg hc, Option.isSome_map]
    cases alg with
    | numpy => exact hn
    | fftw => exact hn
    | cuda =>
      show (cudaRoutine lib (f0 :: f1 :: fs) c dt).isSome ↔ _
      rw [cudaRoutine_eq lib _ c dt hdt]; exact hn
    | cupy => exact hn
  have hsome : (fftMatrix alg lib (f0 :: f1 :: fs) steps cols dt padding unit).isSome ↔
      (cols.mapM fun c => (alg.routine lib (f0 :: f1 :: fs) c dt).map fun ps => ps.map fun x => x * unit).isSome := by
    unfold fftMatrix
    cases alg <;> simp
  rw [hsome]
  constructor
  · intro h
    obtain ⟨m, hm⟩ := Option.isSome_iff_exists.1 h
    rw [mapM_eq_some_iff] at hm
    cases cols with
    | nil => exact absurd rfl hc
    | cons c t =>
      cases hm with
      | cons h1 _ =>
        refine (hcol c (hcols c (by simp))).1 ?_
        rw [← Option.isSome_map (f := fun ps : List ℝ => ps.map fun x => x * unit), h1]; rfl
  · intro h
    clear hsome hc
    induction cols with
    | nil => rfl
    | cons c t ih =>
      have h1 := (hcol c (hcols c (by simp))).2 h
      obtain ⟨x, hx⟩ := Option.isSome_iff_exists.1 h1
      obtain ⟨y, hy⟩ := Option.isSome_iff_exists.1 (ih (fun c hc => hcols c (by simp [hc])))
      rw [List.mapM_cons, hx, hy]; rfl

/-- C121: with the Numpy and CuPy routines the user is told when the resolution asked for is not available, and told the
largest available one; and only then. -/
theorem C121_warning (alg : FftAlgorithm) (ha : alg = .numpy ∨ alg = .cupy) (lib : FftLib) (f0 f1 : ℝ) (fs : List ℝ) (steps : ℕ)
    (cols : List (List ℂ)) (dt padding unit : ℝ) (w : Option ℝ) (m : List (List ℝ))
    (h : fftMatrix alg lib (f0 :: f1 :: fs) steps cols dt padding unit = some (w, m)) (r : ℝ) :
    w = some r ↔ f1 - f0 < r ∧ r = 1 / (dt * (steps + padding)) := by
  have hw : w = if f1 - f0 < 1 / (dt * (steps + padding)) then some (1 / (dt * (steps + padding))) else none := by
    unfold fftMatrix at h
    rw [Option.bind_eq_some_iff] at h
    obtain ⟨w', h1, h2⟩ := h
    rw [Option.map_eq_some_iff] at h2
    obtain ⟨m', -, he⟩ := h2
    rw [Prod.mk.injEq] at he
    rcases ha with rfl | rfl <;> (rw [← he.1]; exact (Option.some.inj h1).symm)
  rw [hw]
  split_ifs with hlt
  · constructor
    · intro e
      have e := (Option.some.inj e).symm
      subst e
      exact ⟨hlt, rfl⟩
    · rintro ⟨-, rfl⟩; rfl
  · constructor
    · intro e; cases e
    · rintro ⟨h1, rfl⟩; exact absurd h1 hlt

/-- C121 violated for the warning: with the FFTW and CUDA routines no call warns, whatever resolution was asked for. -/
theorem C121_warning_violated (alg : FftAlgorithm) (ha : alg = .fftw ∨ alg = .cuda) (lib : FftLib) (freqRange : List ℝ) (steps : ℕ)
    (cols : List (List ℂ)) (dt padding unit : ℝ) (w : Option ℝ) (m : List (List ℝ))
    (h : fftMatrix alg lib freqRange steps cols dt padding unit = some (w, m)) : w = none := by
  unfold fftMatrix at h
  rw [Option.bind_eq_some_iff] at h
  obtain ⟨w', h1, h2⟩ := h
  rw [Option.map_eq_some_iff] at h2
  obtain ⟨m', -, he⟩ := h2
  rw [Prod.mk.injEq] at he
  rcases ha with rfl | rfl <;> (rw [← he.1]; exact (Option.some.inj h1).symm)

/-- A correct library exists: the order of sorting the positions by their values. -/
noncomputable def exampleFftLib : FftLib where
  correlate := correlateSame
  fft := dft
  argsort l := (List.range l.length).mergeSort fun i j => l.getD i 0 ≤ l.getD j 0

theorem exampleFftLib_correct : exampleFftLib.Correct where
  correlate _ := rfl
  fft _ := rfl
  perm l := List.mergeSort_perm _ _
  sorted l := by
    rw [List.pairwise_map]
    have := List.pairwise_mergeSort (le := fun i j => decide (l.getD i 0 ≤ l.getD j 0))
      (fun a b c h1 h2 => by simp only [decide_eq_true_eq] at *; exact h1.trans h2)
      (fun a b => by simp only [Bool.or_eq_true, decide_eq_true_eq]; exact le_total _ _) (List.range l.length)
    exact this.imp (fun h => by simpa using h)

/-- Non-vacuity: a call with CUDA on two columns that asks for a resolution the eight steps cannot give. -/
example : (∃ w m, fftMatrix .cuda exampleFftLib [0, 1 / 100] 2 [[1, 2], [3, 4]] 1 0 1 = some (w, m)) := by
  have h : ∀ d : List ℂ, d.length = 2 → ∃ ps, cudaRoutine exampleFftLib [0, 1 / 100] d 1 = some ps := by
    intro d hd
    have hne : d ≠ [] := by rintro rfl; simp at hd
    unfold cudaRoutine
    simp only [if_neg hne, hd]
    cases hdiv : divisionOfData (1 / 100 - 0 : ℝ) 2 1 with
    | some p => exact ⟨_, rfl⟩
    | none =>
      have := (C27_returns (1 / 100 - 0 : ℝ) 1 (by norm_num) (by norm_num) 2).2 (by norm_num)
      rw [hdiv] at this
      cases this
  obtain ⟨p, hp⟩ := h [1, 2] rfl
  obtain ⟨q, hq⟩ := h [3, 4] rfl
  exact ⟨none, [p.map fun x => x * 1, q.map fun x => x * 1], by
    unfold fftMatrix
    simp only [FftAlgorithm.routine, List.mapM_cons, List.mapM_nil, hp, hq]; rfl⟩

end Verif
