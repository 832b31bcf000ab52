import Verif.Model.Mem
import Verif.Util
import Mathlib.Tactic.Linarith
import Mathlib.Analysis.Complex.Norm

/-! # C29, C30 -/

set_option autoImplicit false

namespace Verif

open Complex

/-! ## The recursion that the loops compute -/

/-- Sum of products over `1..n`. -/
noncomputable def mNum (f b : ℕ → ℝ) (n : ℕ) : ℝ := ∑ j ∈ Finset.range n, f (j + 1) * b (j + 1)
noncomputable def mDen (f b : ℕ → ℝ) (n : ℕ) : ℝ := ∑ j ∈ Finset.range n, (f (j + 1) ^ 2 + b (j + 1) ^ 2)

/-- Reflection coefficient. -/
noncomputable def mRefl (f b : ℕ → ℝ) (n : ℕ) : ℝ := 2 * mNum f b n / mDen f b n

/-- Burg's recursion on the data `d 1, ..., d N`: forward errors, backward errors, prediction coefficients and mean square
discrepancy after `k` steps. -/
structure Burg where
  f : ℕ → ℝ
  b : ℕ → ℝ
  a : ℕ → ℝ
  msd : ℝ

noncomputable def burg (d : ℕ → ℝ) (N : ℕ) : ℕ → Burg
  | 0 => { f := d, b := fun j => d (j + 1), a := fun _ => 0, msd := (∑ j ∈ Finset.range N, d (j + 1) ^ 2) / N }
  | k + 1 =>
    let s := burg d N k
    let c := mRefl s.f s.b (N - (k + 1))
    { f := fun j => s.f j - c * s.b j
      b := fun j => s.b (j + 1) - c * s.f (j + 1)
      a := fun i => if i = k + 1 then c else if 1 ≤ i ∧ i ≤ k then s.a i - c * s.a (k + 1 - i) else 0
      msd := s.msd * (1 - c ^ 2) }

/-- Denominator of step `k + 1`. -/
noncomputable def burgDen (d : ℕ → ℝ) (N k : ℕ) : ℝ := mDen (burg d N k).f (burg d N k).b (N - (k + 1))

theorem foldlM_ok {σ ι : Type*} (Inv : ℕ → σ → Prop) (f : σ → ι → Except CErr σ) (l : List ι) (s : σ) (h0 : Inv 0 s)
    (hstep : ∀ (n : ℕ) (h : n < l.length) (s : σ), Inv n s → ∃ s', f s l[n] = .ok s' ∧ Inv (n + 1) s') :
    ∃ s', l.foldlM f s = .ok s' ∧ Inv l.length s' := by
  induction l generalizing s Inv with
  | nil => exact ⟨s, rfl, h0⟩
  | cons x l ih =>
    obtain ⟨s1, h1, h2⟩ := hstep 0 (by simp) s h0
    obtain ⟨s', h3, h4⟩ := ih (fun n => Inv (n + 1)) s1 h2 (fun n hn s hs => by
      have := hstep (n + 1) (by simpa using hn) s hs
      simpa using this)
    refine ⟨s', ?_, h4⟩
    rw [List.foldlM_cons]
    simp only [List.getElem_cons_zero] at h1
    rw [h1]; exact h3

theorem foldlM_range_ok {σ : Type*} (Inv : ℕ → σ → Prop) (f : σ → ℕ → Except CErr σ) (n : ℕ) (s : σ) (h0 : Inv 0 s)
    (hstep : ∀ (i : ℕ), i < n → ∀ (s : σ), Inv i s → ∃ s', f s i = .ok s' ∧ Inv (i + 1) s') :
    ∃ s', (List.range n).foldlM f s = .ok s' ∧ Inv n s' := by
  have := foldlM_ok Inv f (List.range n) s h0 (fun i hi s hs => by
    have := hstep i (by simpa using hi) s hs
    simpa using this)
  simpa using this

theorem CArr.get_ok {a : CArr ℝ} {i : ℕ} (h : i < a.size) : a.get i = .ok (a.val i) := if_pos h
theorem CArr.set_ok {a : CArr ℝ} {i : ℕ} (h : i < a.size) (x : ℝ) :
    a.set i x = .ok ⟨a.size, Function.update a.val i x⟩ := if_pos h

theorem memSumSq_ok (data : CArr ℝ) (N : ℕ) (h : N < data.size) :
    memSumSq data N = .ok (∑ j ∈ Finset.range N, data.val (j + 1) ^ 2) := by
  obtain ⟨s, h1, h2⟩ := foldlM_range_ok (fun n p => p = ∑ j ∈ Finset.range n, data.val (j + 1) ^ 2)
    (fun p j => do return p + (← data.get (j + 1)) ^ 2) N 0 (by simp) (by
      intro i hi s hs
      rw [CArr.get_ok (by omega)]
      exact ⟨_, rfl, by rw [Finset.sum_range_succ, hs]⟩)
  unfold memSumSq
  rw [h1, h2]

theorem memFill_ok (data wk1 wk2 : CArr ℝ) (N : ℕ) (hN : 2 ≤ N) (h : N < data.size) (h1 : wk1.size = N)
    (h2 : wk2.size = N) : ∃ w1 w2 : CArr ℝ, memFill data N wk1 wk2 = .ok (w1, w2) ∧ w1.size = N ∧ w2.size = N ∧
      (∀ j, 1 ≤ j → j < N → w1.val j = data.val j) ∧ (∀ j, 1 ≤ j → j < N → w2.val j = data.val (j + 1)) := by
  unfold memFill
  rw [CArr.get_ok (by omega), CArr.get_ok (by omega)]
  simp only [bind, Except.bind, CArr.set_ok (by omega : 1 < wk1.size), CArr.set_ok (by omega : N - 1 < wk2.size)]
  obtain ⟨⟨w1, w2⟩, e, hw⟩ := foldlM_range_ok
    (fun n (w : CArr ℝ × CArr ℝ) => w.1.size = N ∧ w.2.size = N ∧
      (∀ j, 1 ≤ j → j < n + 2 → w.1.val j = data.val j) ∧
      (∀ j, 1 ≤ j → (j < n + 1 ∨ j = N - 1) → w.2.val j = data.val (j + 1)))
    (fun (w : CArr ℝ × CArr ℝ) j => do
      let w1 ← w.1.set (j + 2) (← data.get (j + 2))
      let w2 ← w.2.set (j + 1) (← data.get (j + 2))
      return (w1, w2)) (N - 2) (⟨wk1.size, Function.update wk1.val 1 (data.val 1)⟩,
        ⟨wk2.size, Function.update wk2.val (N - 1) (data.val N)⟩)
    ⟨h1, h2, by
      intro j hj hj'
      have : j = 1 := by omega
      subst this; simp, by
      intro j hj hj'
      have : j = N - 1 := by omega
      subst this
      simp only [Function.update_self]
      congr 1; omega⟩ (by
      rintro i hi ⟨w1, w2⟩ ⟨hs1, hs2, hv1, hv2⟩
      simp only at hs1 hs2 hv1 hv2 ⊢
      rw [CArr.get_ok (by omega)]
      simp only [bind, Except.bind, CArr.set_ok (by omega : i + 2 < w1.size), CArr.set_ok (by omega : i + 1 < w2.size)]
      refine ⟨_, rfl, hs1, hs2, ?_, ?_⟩
      · intro j hj hj'
        by_cases hji : j = i + 2
        · subst hji; simp
        · simp only [Function.update_of_ne hji]; exact hv1 j hj (by omega)
      · intro j hj hj'
        by_cases hji : j = i + 1
        · subst hji; simp
        · simp only [Function.update_of_ne hji]; exact hv2 j hj (by omega))
  exact ⟨w1, w2, e, hw.1, hw.2.1, fun j hj hj' => hw.2.2.1 j hj (by omega), fun j hj hj' => hw.2.2.2 j hj (by omega)⟩

theorem memNumDen_ok (w1 w2 : CArr ℝ) (n : ℕ) (h1 : n < w1.size) (h2 : n < w2.size) :
    memNumDen w1 w2 n = .ok (mNum w1.val w2.val n, mDen w1.val w2.val n) := by
  obtain ⟨s, e, hs⟩ := foldlM_range_ok (fun n p => p = (mNum w1.val w2.val n, mDen w1.val w2.val n))
    (fun (a : ℝ × ℝ) j => do
      let x ← w1.get (j + 1)
      let y ← w2.get (j + 1)
      return (a.1 + x * y, a.2 + (x ^ 2 + y ^ 2))) n (0, 0) (by simp [mNum, mDen]) (by
      intro i hi s hs
      rw [CArr.get_ok (by omega), CArr.get_ok (by omega)]
      exact ⟨_, rfl, by simp [mNum, mDen, Finset.sum_range_succ, hs]⟩)
  unfold memNumDen
  rw [e, hs]

theorem memLevinson_ok (wkm coef : CArr ℝ) (k : ℕ) (hk : 1 ≤ k) (h1 : k ≤ wkm.size) (h2 : k < coef.size) :
    ∃ c', memLevinson wkm coef k = .ok c' ∧ c'.size = coef.size ∧ c'.val k = coef.val k ∧
      ∀ i, 1 ≤ i → i < k → c'.val i = wkm.val i - coef.val k * wkm.val (k - i) := by
  obtain ⟨c', e, hc⟩ := foldlM_range_ok
    (fun n (c : CArr ℝ) => c.size = coef.size ∧ c.val k = coef.val k ∧
      ∀ i, 1 ≤ i → i < n + 1 → c.val i = wkm.val i - coef.val k * wkm.val (k - i))
    (fun (coef : CArr ℝ) i => do
      let x ← wkm.get (i + 1)
      let c ← coef.get k
      let y ← wkm.get (k - (i + 1))
      coef.set (i + 1) (x - c * y)) (k - 1) coef ⟨rfl, rfl, by intro i h h'; omega⟩ (by
      rintro i hi c ⟨hs, hck, hv⟩
      rw [CArr.get_ok (by omega), CArr.get_ok (by omega), CArr.get_ok (by omega)]
      simp only [bind, Except.bind]
      rw [CArr.set_ok (by omega)]
      refine ⟨_, rfl, hs, ?_, ?_⟩
      · simp only; rw [Function.update_of_ne (by omega), hck]
      · intro j hj hj'
        by_cases hji : j = i + 1
        · subst hji; simp [hck]
        · simp only [Function.update_of_ne hji]; exact hv j hj (by omega))
  exact ⟨c', e, hc.1, hc.2.1, fun i hi hi' => hc.2.2 i hi (by omega)⟩

theorem memCopy_ok (coef wkm : CArr ℝ) (k : ℕ) (h1 : k < wkm.size) (h2 : k < coef.size) :
    ∃ w', memCopy coef wkm k = .ok w' ∧ w'.size = wkm.size ∧ ∀ i, 1 ≤ i → i ≤ k → w'.val i = coef.val i := by
  obtain ⟨w', e, hw⟩ := foldlM_range_ok
    (fun n (w : CArr ℝ) => w.size = wkm.size ∧ ∀ i, 1 ≤ i → i ≤ n → w.val i = coef.val i)
    (fun (wkm : CArr ℝ) i => do wkm.set (i + 1) (← coef.get (i + 1))) k wkm ⟨rfl, by intro i h h'; omega⟩ (by
      rintro i hi w ⟨hs, hv⟩
      rw [CArr.get_ok (by omega)]
      simp only [bind, Except.bind]
      rw [CArr.set_ok (by omega)]
      refine ⟨_, rfl, hs, ?_⟩
      intro j hj hj'
      by_cases hji : j = i + 1
      · subst hji; simp
      · simp only [Function.update_of_ne hji]; exact hv j hj (by omega))
  exact ⟨w', e, hw.1, hw.2⟩

theorem memErrors_ok (wkm wk1 wk2 : CArr ℝ) (k n : ℕ) (h1 : k < wkm.size) (h2 : n + 1 < wk1.size ∨ n = 0)
    (h3 : n + 1 < wk2.size ∨ n = 0) :
    ∃ w1 w2 : CArr ℝ, memErrors wkm k n wk1 wk2 = .ok (w1, w2) ∧ w1.size = wk1.size ∧ w2.size = wk2.size ∧
      (∀ j, 1 ≤ j → j ≤ n → w1.val j = wk1.val j - wkm.val k * wk2.val j) ∧
      (∀ j, 1 ≤ j → j ≤ n → w2.val j = wk2.val (j + 1) - wkm.val k * wk1.val (j + 1)) := by
  obtain ⟨⟨w1, w2⟩, e, hw⟩ := foldlM_range_ok
    (fun m (w : CArr ℝ × CArr ℝ) => w.1.size = wk1.size ∧ w.2.size = wk2.size ∧
      (∀ j, 1 ≤ j → j ≤ m → w.1.val j = wk1.val j - wkm.val k * wk2.val j) ∧
      (∀ j, 1 ≤ j → j ≤ m → w.2.val j = wk2.val (j + 1) - wkm.val k * wk1.val (j + 1)) ∧
      (∀ j, m < j → w.1.val j = wk1.val j ∧ w.2.val j = wk2.val j))
    (fun (w : CArr ℝ × CArr ℝ) j => do
      let w1 ← w.1.set (j + 1) ((← w.1.get (j + 1)) - (← wkm.get k) * (← w.2.get (j + 1)))
      let w2 ← w.2.set (j + 1) ((← w.2.get (j + 2)) - (← wkm.get k) * (← w1.get (j + 2)))
      return (w1, w2)) n (wk1, wk2)
    ⟨rfl, rfl, by intro i h h'; omega, by intro i h h'; omega, fun _ _ => ⟨rfl, rfl⟩⟩ (by
      rintro i hi ⟨w1, w2⟩ ⟨hs1, hs2, hv1, hv2, hv3⟩
      simp only at hs1 hs2 hv1 hv2 hv3 ⊢
      rw [CArr.get_ok (by omega), CArr.get_ok (by omega), CArr.get_ok (by omega)]
      simp only [bind, Except.bind]
      rw [CArr.set_ok (by omega), CArr.get_ok (by omega)]
      simp only
      rw [CArr.get_ok (by simp only; omega)]
      simp only
      rw [CArr.set_ok (by omega)]
      refine ⟨_, rfl, hs1, hs2, ?_, ?_, ?_⟩
      · intro j hj hj'
        by_cases hji : j = i + 1
        · subst hji; simp [(hv3 (i + 1) (by omega)).1, (hv3 (i + 1) (by omega)).2]
        · simp only [Function.update_of_ne hji]; exact hv1 j hj (by omega)
      · intro j hj hj'
        by_cases hji : j = i + 1
        · subst hji
          simp only [Function.update_self]
          rw [Function.update_of_ne (by omega), (hv3 (i + 2) (by omega)).1, (hv3 (i + 2) (by omega)).2]
        · simp only [Function.update_of_ne hji]; exact hv2 j hj (by omega)
      · intro j hj
        simp only
        rw [Function.update_of_ne (by omega), Function.update_of_ne (by omega)]
        exact hv3 j (by omega))
  exact ⟨w1, w2, e, hw.1, hw.2.1, hw.2.2.1, hw.2.2.2.1⟩

theorem mNum_congr {f f' b b' : ℕ → ℝ} {n : ℕ} (hf : ∀ j, 1 ≤ j → j ≤ n → f j = f' j)
    (hb : ∀ j, 1 ≤ j → j ≤ n → b j = b' j) : mNum f b n = mNum f' b' n ∧ mDen f b n = mDen f' b' n := by
  constructor <;>
  · apply Finset.sum_congr rfl
    intro j hj
    rw [Finset.mem_range] at hj
    rw [hf (j + 1) (by omega) (by omega), hb (j + 1) (by omega) (by omega)]

/-- State of the loop before pass `k + 1`. -/
structure MemInv (d : ℕ → ℝ) (N M k : ℕ) (s : MemState) : Prop where
  s1 : s.wk1.size = N
  s2 : s.wk2.size = N
  s3 : s.wkm.size = M
  s4 : s.coef.size = M + 1
  v1 : k < M → ∀ j, 1 ≤ j → j ≤ N - (k + 1) → s.wk1.val j = (burg d N k).f j
  v2 : k < M → ∀ j, 1 ≤ j → j ≤ N - (k + 1) → s.wk2.val j = (burg d N k).b j
  v3 : k < M → ∀ i, 1 ≤ i → i ≤ k → s.wkm.val i = (burg d N k).a i
  v4 : ∀ i, 1 ≤ i → i ≤ k → s.coef.val i = (burg d N k).a i
  msd : s.msd = (burg d N k).msd

theorem memLoop_ok (d : ℕ → ℝ) (N M : ℕ) (hN : 1 ≤ N) (n : ℕ) : ∀ (k : ℕ) (s : MemState), k + n = M →
    MemInv d N M k s →
    ∃ r coef, memLoop N M ((List.range' (k + 1) n)) s = .ok (r, coef) ∧ coef.size = M + 1 ∧
      (((∃ m, k ≤ m ∧ m < M ∧ |burgDen d N m| < 1e-6) ∧ r = 0) ∨
       ((∀ m, k ≤ m → m < M → ¬ |burgDen d N m| < 1e-6) ∧ r = (burg d N M).msd ∧
          ∀ i, 1 ≤ i → i ≤ M → coef.val i = (burg d N M).a i)) := by
  induction n with
  | zero =>
    intro k s hk h
    obtain rfl : k = M := by omega
    exact ⟨s.msd, s.coef, rfl, h.s4, Or.inr ⟨by intro m; omega, h.msd, h.v4⟩⟩
  | succ n ih =>
    intro k s hk h
    have hkM : k < M := by omega
    rw [List.range'_succ, memLoop, memNumDen_ok _ _ _ (by rw [h.s1]; omega) (by rw [h.s2]; omega)]
    simp only [bind, Except.bind]
    obtain ⟨e1, e2⟩ := mNum_congr (h.v1 hkM) (h.v2 hkM)
    rw [e1, e2]
    change ∃ r coef, (if |burgDen d N k| < 1e-6 then _ else _) = _ ∧ _
    split_ifs with hsmall hlast
    · exact ⟨0, s.coef, rfl, h.s4, Or.inl ⟨⟨k, le_rfl, hkM, hsmall⟩, rfl⟩⟩
    all_goals
      rw [CArr.set_ok (by rw [h.s4]; omega)]
      simp only
      rw [CArr.get_ok (by simp only [h.s4]; omega)]
      simp only [Function.update_self]
      obtain ⟨c', hc1, hc2, hc3, hc4⟩ := memLevinson_ok s.wkm ⟨s.coef.size, Function.update s.coef.val (k + 1)
        (2 * mNum (burg d N k).f (burg d N k).b (N - (k + 1)) / mDen (burg d N k).f (burg d N k).b (N - (k + 1)))⟩ (k + 1)
        (by omega) (by rw [h.s3]; omega) (by simp only [h.s4]; omega)
      rw [hc1]
      simp only [Function.update_self] at hc3 hc4
      have hcv : ∀ i, 1 ≤ i → i ≤ k + 1 → c'.val i = (burg d N (k + 1)).a i := by
        intro i hi hi'
        by_cases hik : i = k + 1
        · subst hik; rw [hc3]; simp [burg, mRefl]
        · rw [hc4 i hi (by omega), h.v3 hkM i hi (by omega), h.v3 hkM (k + 1 - i) (by omega) (by omega)]
          simp only [burg, hik, if_false]
          rw [if_pos ⟨hi, by omega⟩]; rfl
      have hmsd : s.msd * (1 - (2 * mNum (burg d N k).f (burg d N k).b (N - (k + 1)) /
          mDen (burg d N k).f (burg d N k).b (N - (k + 1))) ^ 2) = (burg d N (k + 1)).msd := by
        rw [h.msd]; rfl
    · simp only
      subst hlast
      obtain ⟨r, coef, hr1, hr2, hr3⟩ := ih (k + 1) { s with coef := c', msd := _ } (by omega)
        { s1 := h.s1, s2 := h.s2, s3 := h.s3, s4 := by simp only [hc2, h.s4],
          v1 := fun hlt => absurd hlt (lt_irrefl _), v2 := fun hlt => absurd hlt (lt_irrefl _),
          v3 := fun hlt => absurd hlt (lt_irrefl _), v4 := hcv, msd := hmsd }
      refine ⟨r, coef, hr1, hr2, ?_⟩
      rcases hr3 with ⟨⟨m, hm, hm', hm''⟩, hr⟩ | ⟨hall, hr, hcoef⟩
      · omega
      · refine Or.inr ⟨?_, hr, hcoef⟩
        intro m hm hm'
        obtain rfl : m = k := by omega
        exact hsmall
    · simp only
      obtain ⟨w', hw1, hw2, hw3⟩ := memCopy_ok c' s.wkm (k + 1) (by rw [h.s3]; omega) (by rw [hc2]; simp only [h.s4]; omega)
      rw [hw1]
      simp only
      obtain ⟨u1, u2, hu1, hu2, hu3, hu4, hu5⟩ := memErrors_ok w' s.wk1 s.wk2 (k + 1) (N - (k + 1) - 1)
        (by rw [hw2, h.s3]; omega) (by rw [h.s1]; omega) (by rw [h.s2]; omega)
      rw [hu1]
      simp only
      have hwk : w'.val (k + 1) = mRefl (burg d N k).f (burg d N k).b (N - (k + 1)) := by
        rw [hw3 (k + 1) (by omega) le_rfl, hc3]; rfl
      obtain ⟨r, coef, hr1, hr2, hr3⟩ := ih (k + 1) { wk1 := u1, wk2 := u2, wkm := w', coef := c', msd := _ } (by omega)
        { s1 := by simp only [hu2, h.s1], s2 := by simp only [hu3, h.s2], s3 := by simp only [hw2, h.s3],
          s4 := by simp only [hc2, h.s4],
          v1 := fun _ j hj hj' => by
            simp only
            rw [hu4 j hj (by omega), hwk, h.v1 hkM j hj (by omega), h.v2 hkM j hj (by omega)]; rfl
          v2 := fun _ j hj hj' => by
            simp only
            rw [hu5 j hj (by omega), hwk, h.v1 hkM (j + 1) (by omega) (by omega),
              h.v2 hkM (j + 1) (by omega) (by omega)]; rfl
          v3 := fun _ i hi hi' => by simp only; rw [hw3 i hi hi', hcv i hi hi']
          v4 := hcv, msd := hmsd }
      refine ⟨r, coef, hr1, hr2, ?_⟩
      rcases hr3 with ⟨⟨m, hm, hm', hm''⟩, hr⟩ | ⟨hall, hr, hcoef⟩
      · exact Or.inl ⟨⟨m, by omega, hm', hm''⟩, hr⟩
      · refine Or.inr ⟨?_, hr, hcoef⟩
        intro m hm hm'
        by_cases hmk : m = k
        · subst hmk; exact hsmall
        · exact hall m (by omega) hm'

theorem getCoefficients_ok (junk : ℕ → ℕ → ℝ) (data coef0 : CArr ℝ) (N M : ℕ) (hN : 2 ≤ N) (hd : N < data.size)
    (hc : coef0.size = M + 1) :
    ∃ r coef, getCoefficients junk data N M coef0 = .ok (r, coef) ∧ coef.size = M + 1 ∧
      (((∃ m, m < M ∧ |burgDen data.val N m| < 1e-6) ∧ r = 0) ∨
       ((∀ m, m < M → ¬ |burgDen data.val N m| < 1e-6) ∧ r = (burg data.val N M).msd ∧
          ∀ i, 1 ≤ i → i ≤ M → coef.val i = (burg data.val N M).a i)) := by
  unfold getCoefficients
  rw [memSumSq_ok data N hd]
  obtain ⟨w1, w2, e, h1, h2, h3, h4⟩ := memFill_ok data ⟨N, junk 0⟩ ⟨N, junk 1⟩ N hN hd rfl rfl
  simp only [bind, Except.bind]
  rw [e]
  simp only
  have hr : (List.range M).map (· + 1) = List.range' (0 + 1) M := by
    have := List.map_add_range' (a := 1) (s := 0) (n := M) (step := 1)
    rw [List.range_eq_range', ← this]
    apply List.map_congr_left
    intro x _; omega
  rw [hr]
  obtain ⟨r, coef, hr1, hr2, hr3⟩ := memLoop_ok data.val N M (by omega) M 0 ⟨w1, w2, ⟨M, junk 2⟩, coef0, _⟩ (by omega)
    { s1 := h1, s2 := h2, s3 := rfl, s4 := hc, v1 := fun _ j hj hj' => h3 j hj (by omega),
      v2 := fun _ j hj hj' => h4 j hj (by omega), v3 := fun _ i hi hi' => by omega, v4 := fun i hi hi' => by omega,
      msd := rfl }
  refine ⟨r, coef, hr1, hr2, ?_⟩
  simpa using hr3

/-! ## Bounds -/

theorem mDen_nonneg (f b : ℕ → ℝ) (n : ℕ) : 0 ≤ mDen f b n := Finset.sum_nonneg fun _ _ => by positivity

theorem abs_mRefl_le (f b : ℕ → ℝ) (n : ℕ) : |mRefl f b n| ≤ 1 := by
  unfold mRefl
  rcases (mDen_nonneg f b n).eq_or_lt with h | h
  · rw [← h]; simp
  · rw [abs_div, abs_of_pos h, div_le_one h, abs_le]
    unfold mNum mDen
    rw [Finset.mul_sum, ← Finset.sum_neg_distrib]
    constructor <;> apply Finset.sum_le_sum <;> intro i _
    · nlinarith [sq_nonneg (f (i + 1) + b (i + 1))]
    · nlinarith [sq_nonneg (f (i + 1) - b (i + 1))]

theorem burg_msd_nonneg (d : ℕ → ℝ) (N k : ℕ) : 0 ≤ (burg d N k).msd := by
  induction k with
  | zero => exact div_nonneg (Finset.sum_nonneg fun _ _ => by positivity) (Nat.cast_nonneg _)
  | succ k ih =>
    refine mul_nonneg ih ?_
    have := abs_mRefl_le (burg d N k).f (burg d N k).b (N - (k + 1))
    have := (sq_le_one_iff_abs_le_one _).2 this
    linarith

theorem burg_msd_succ_le (d : ℕ → ℝ) (N k : ℕ) : (burg d N (k + 1)).msd ≤ (burg d N k).msd :=
  mul_le_of_le_one_right (burg_msd_nonneg d N k) (by
    have := sq_nonneg (mRefl (burg d N k).f (burg d N k).b (N - (k + 1)))
    linarith)

/-- The prediction polynomial `1 - Σ_{i=1}^{n} a_i z^i`. -/
noncomputable def predPoly (a : ℕ → ℝ) (n : ℕ) (z : ℂ) : ℂ := 1 - ∑ i ∈ Finset.range n, (a (i + 1) : ℂ) * z ^ (i + 1)

theorem predPoly_succ (d : ℕ → ℝ) (N k : ℕ) (z : ℂ) (hz : ‖z‖ = 1) :
    predPoly (burg d N (k + 1)).a (k + 1) z = predPoly (burg d N k).a k z
      - (mRefl (burg d N k).f (burg d N k).b (N - (k + 1)) : ℂ) * z ^ (k + 1)
        * starRingEnd ℂ (predPoly (burg d N k).a k z) := by
  have hz0 : z ≠ 0 := by rintro rfl; simp at hz
  have hconj : starRingEnd ℂ z * z = 1 := by rw [conj_mul', hz]; simp
  set c := mRefl (burg d N k).f (burg d N k).b (N - (k + 1)) with hc
  unfold predPoly
  rw [Finset.sum_range_succ]
  have e1 : ((burg d N (k + 1)).a (k + 1) : ℂ) = c := by simp [burg, hc]
  have e2 : ∑ i ∈ Finset.range k, ((burg d N (k + 1)).a (i + 1) : ℂ) * z ^ (i + 1)
      = ∑ i ∈ Finset.range k, ((burg d N k).a (i + 1) : ℂ) * z ^ (i + 1)
        - (c : ℂ) * ∑ i ∈ Finset.range k, ((burg d N k).a (k - i) : ℂ) * z ^ (i + 1) := by
    rw [Finset.mul_sum, ← Finset.sum_sub_distrib]
    apply Finset.sum_congr rfl
    intro i hi
    rw [Finset.mem_range] at hi
    have h1 : ¬ i + 1 = k + 1 := by omega
    have h2 : k + 1 - (i + 1) = k - i := by omega
    simp only [burg, h1, if_false, ← hc]
    rw [if_pos ⟨by omega, by omega⟩, h2]
    push_cast
    ring
  have e3 : ∑ i ∈ Finset.range k, ((burg d N k).a (k - i) : ℂ) * z ^ (i + 1)
      = z ^ (k + 1) * starRingEnd ℂ (∑ i ∈ Finset.range k, ((burg d N k).a (i + 1) : ℂ) * z ^ (i + 1)) := by
    rw [map_sum, Finset.mul_sum, ← Finset.sum_range_reflect]
    apply Finset.sum_congr rfl
    intro i hi
    rw [Finset.mem_range] at hi
    have h1 : k - (k - 1 - i) = i + 1 := by omega
    have h2 : k - 1 - i + 1 = k - i := by omega
    rw [h1, h2, map_mul, map_pow, conj_ofReal]
    have h3 : z ^ (k + 1) = z ^ (k - i) * z ^ (i + 1) := by rw [← pow_add]; congr 1; omega
    rw [h3, show z ^ (k - i) * z ^ (i + 1) * (((burg d N k).a (i + 1) : ℂ) * starRingEnd ℂ z ^ (i + 1))
      = ((burg d N k).a (i + 1) : ℂ) * z ^ (k - i) * (starRingEnd ℂ z * z) ^ (i + 1) by rw [mul_pow]; ring, hconj]
    simp
  rw [e1, e2, e3, map_sub, map_one]
  ring

theorem predPoly_ne_zero (d : ℕ → ℝ) (N k : ℕ) (z : ℂ) (hz : ‖z‖ = 1) (h : (burg d N k).msd ≠ 0) :
    predPoly (burg d N k).a k z ≠ 0 := by
  induction k with
  | zero => simp [predPoly]
  | succ k ih =>
    have hm : (burg d N (k + 1)).msd
        = (burg d N k).msd * (1 - mRefl (burg d N k).f (burg d N k).b (N - (k + 1)) ^ 2) := rfl
    rw [hm, mul_ne_zero_iff] at h
    have h0 := ih h.1
    rw [predPoly_succ d N k z hz]
    set c := mRefl (burg d N k).f (burg d N k).b (N - (k + 1))
    have hc : |c| < 1 := by
      refine lt_of_le_of_ne (abs_mRefl_le _ _ _) ?_
      intro he
      apply h.2
      rw [← sq_abs, he]; norm_num
    intro hzero
    rw [sub_eq_zero] at hzero
    have hn := congrArg norm hzero
    rw [norm_mul, norm_mul, norm_pow, hz, one_pow, mul_one, norm_conj, norm_real, Real.norm_eq_abs] at hn
    have hp : 0 < ‖predPoly (burg d N k).a k z‖ := norm_pos_iff.2 h0
    nlinarith

theorem predPoly_congr {a a' : ℕ → ℝ} {n : ℕ} (h : ∀ i, 1 ≤ i → i ≤ n → a i = a' i) (z : ℂ) :
    predPoly a n z = predPoly a' n z := by
  unfold predPoly
  congr 1
  apply Finset.sum_congr rfl
  intro i hi
  rw [Finset.mem_range] at hi
  rw [h (i + 1) (by omega) (by omega)]

theorem frequencyEvaluation_ok (δ : ℝ) (coef : CArr ℝ) (M : ℕ) (msd : ℝ) (h : coef.size = M + 1) :
    frequencyEvaluation δ coef M msd = .ok (msd / ‖predPoly coef.val M (exp (δ * I))‖ ^ 2) := by
  unfold frequencyEvaluation
  obtain ⟨s, e, hs⟩ := foldlM_range_ok (fun n (p : ℂ) => p = predPoly coef.val n (exp (δ * I)))
    (fun (s : ℂ) i => do return s - ((← coef.get (i + 1) : ℝ) : ℂ) * exp (δ * I) ^ (i + 1)) M 1
    (by simp [predPoly]) (by
      intro i hi s hs
      rw [CArr.get_ok (by omega)]
      refine ⟨_, rfl, ?_⟩
      rw [hs]
      simp only [predPoly, Finset.sum_range_succ]
      ring)
  simp only
  rw [e, hs]
  simp only [bind, Except.bind, pure, Except.pure]
  rw [mul_conj, ofReal_re, normSq_eq_norm_sq]

/-! ## C29 -/

/-- C29, about `GetCoefficients`, for every data (whatever lies behind the array), every number of coefficients `M` and all
uninitialised memory: it returns a mean square discrepancy between 0 and the mean square of the data; if this is not 0, the
last (reflection) coefficient is at most 1 in absolute value and the denominator
`|1 - Σ_{i=1}^{M} coef[i] e^{i δ}|` vanishes at no frequency `δ`. -/
theorem C29_coefficients (junk : ℕ → ℕ → ℝ) (data coef0 : CArr ℝ) (N M : ℕ) (hN : 2 ≤ N) (hd : N < data.size)
    (hc : coef0.size = M + 1) :
    ∃ r coef, getCoefficients junk data N M coef0 = .ok (r, coef) ∧ 0 ≤ r ∧
      r ≤ (∑ j ∈ Finset.range N, data.val (j + 1) ^ 2) / N ∧
      (r ≠ 0 → (1 ≤ M → |coef.val M| ≤ 1) ∧
        ∀ δ : ℝ, (1 - ∑ i ∈ Finset.range M, (coef.val (i + 1) : ℂ) * exp (δ * I) ^ (i + 1)) ≠ 0) := by
  obtain ⟨r, coef, h1, h2, h3⟩ := getCoefficients_ok junk data coef0 N M hN hd hc
  have hp : 0 ≤ (∑ j ∈ Finset.range N, data.val (j + 1) ^ 2) / N := burg_msd_nonneg data.val N 0
  refine ⟨r, coef, h1, ?_⟩
  rcases h3 with ⟨-, rfl⟩ | ⟨-, rfl, hcoef⟩
  · exact ⟨le_rfl, hp, fun h => absurd rfl h⟩
  · refine ⟨burg_msd_nonneg _ _ _, ?_, fun hr => ⟨fun hM => ?_, fun δ => ?_⟩⟩
    · have : ∀ k, (burg data.val N k).msd ≤ (burg data.val N 0).msd := by
        intro k
        induction k with
        | zero => exact le_rfl
        | succ k ih => exact (burg_msd_succ_le data.val N k).trans ih
      exact this M
    · obtain ⟨k, rfl⟩ : ∃ k, M = k + 1 := ⟨M - 1, by omega⟩
      rw [hcoef (k + 1) (by omega) le_rfl]
      simp only [burg, if_true]
      exact abs_mRefl_le _ _ _
    · have := predPoly_ne_zero data.val N M (exp (δ * I)) (norm_exp_ofReal_mul_I δ) hr
      rw [← predPoly_congr hcoef] at this
      exact this

/-- C29: the mean square discrepancy does not increase with the number of coefficients. -/
theorem C29_monotone (junk junk' : ℕ → ℕ → ℝ) (data coef0 coef0' : CArr ℝ) (N M : ℕ) (hN : 2 ≤ N) (hd : N < data.size)
    (hc : coef0.size = M + 1) (hc' : coef0'.size = M + 1 + 1) :
    ∃ r r' coef coef', getCoefficients junk data N M coef0 = .ok (r, coef) ∧
      getCoefficients junk' data N (M + 1) coef0' = .ok (r', coef') ∧ r' ≤ r := by
  obtain ⟨r, coef, h1, -, h3⟩ := getCoefficients_ok junk data coef0 N M hN hd hc
  obtain ⟨r', coef', h1', -, h3'⟩ := getCoefficients_ok junk' data coef0' N (M + 1) hN hd hc'
  refine ⟨r, r', coef, coef', h1, h1', ?_⟩
  rcases h3' with ⟨-, rfl⟩ | ⟨hall, rfl, -⟩
  · rcases h3 with ⟨-, rfl⟩ | ⟨-, rfl, -⟩
    · exact le_rfl
    · exact burg_msd_nonneg _ _ _
  · rcases h3 with ⟨⟨m, hm, hm'⟩, -⟩ | ⟨-, rfl, -⟩
    · exact absurd hm' (hall m (by omega))
    · exact burg_msd_succ_le _ _ _

/-- What `mem.mem` returns, for at least two data (`slack` = readable elements behind the copied data, at least one). -/
theorem mem_ok (slack : ℕ) (hs : 1 ≤ slack) (junk : ℕ → ℕ → ℕ → ℝ) (freqs : List ℝ) (v : List ℂ) (hv : 2 ≤ v.length)
    (dt : ℝ) (M : ℕ) : ∃ (r r' : ℝ) (c c' : ℕ → ℝ), 0 ≤ r ∧ 0 ≤ r' ∧
      (r ≠ 0 → ∀ δ : ℝ, predPoly c M (exp (δ * I)) ≠ 0) ∧ (r' ≠ 0 → ∀ δ : ℝ, predPoly c' M (exp (δ * I)) ≠ 0) ∧
      mem slack junk freqs v dt M = .ok (freqs.map fun f =>
        ((if r ≠ 0 then r / ‖predPoly c M (exp ((f * 2 * Real.pi * dt : ℝ) * I))‖ ^ 2 else 0)
          + (if r' ≠ 0 then r' / ‖predPoly c' M (exp ((f * 2 * Real.pi * dt : ℝ) * I))‖ ^ 2 else 0)) * dt) := by
  obtain ⟨r, c, h1, h2, -, h3⟩ := C29_coefficients (junk 0)
    ⟨v.length + slack, fun i => if i < v.length then (v.getD i 0).re else junk 0 3 i⟩ ⟨M + 1, junk 0 4⟩ v.length M hv
    (by simp only; omega) rfl
  obtain ⟨r', c', h1', h2', -, h3'⟩ := C29_coefficients (junk 1)
    ⟨v.length + slack, fun i => if i < v.length then (v.getD i 0).im else junk 1 3 i⟩ ⟨M + 1, junk 1 4⟩ v.length M hv
    (by simp only; omega) rfl
  have hsz : c.size = M + 1 := by
    obtain ⟨_, _, e, hh, -⟩ := getCoefficients_ok (junk 0)
      ⟨v.length + slack, fun i => if i < v.length then (v.getD i 0).re else junk 0 3 i⟩ ⟨M + 1, junk 0 4⟩ v.length M hv
      (by simp only; omega) rfl
    rw [h1] at e
    simp only [Except.ok.injEq, Prod.mk.injEq] at e
    rw [e.2]; exact hh
  have hsz' : c'.size = M + 1 := by
    obtain ⟨_, _, e, hh, -⟩ := getCoefficients_ok (junk 1)
      ⟨v.length + slack, fun i => if i < v.length then (v.getD i 0).im else junk 1 3 i⟩ ⟨M + 1, junk 1 4⟩ v.length M hv
      (by simp only; omega) rfl
    rw [h1'] at e
    simp only [Except.ok.injEq, Prod.mk.injEq] at e
    rw [e.2]; exact hh
  refine ⟨r, r', c.val, c'.val, h2, h2', fun h => (h3 h).2, fun h => (h3' h).2, ?_⟩
  unfold mem
  simp only [bind, Except.bind]
  rw [h1, h1']
  simp only
  induction freqs with
  | nil => rfl
  | cons f fs ih =>
    rw [List.mapM_cons, ih]
    simp only [frequencyEvaluation_ok _ _ _ _ hsz, frequencyEvaluation_ok _ _ _ _ hsz', bind, Except.bind, pure,
      Except.pure, List.map_cons]
    by_cases ha : r = 0 <;> by_cases hb : r' = 0 <;> simp [ha, hb]

/-- C29: every value returned by `mem.mem` is non-negative and it returns one (finite) value per frequency, for every
velocity series of at least two data, every non-negative time step, every number of coefficients, every frequency and
whatever the memory contains. (One readable element behind the copied data, see C30.) -/
theorem C29_nonneg (slack : ℕ) (hs : 1 ≤ slack) (junk : ℕ → ℕ → ℕ → ℝ) (freqs : List ℝ) (v : List ℂ) (hv : 2 ≤ v.length)
    (dt : ℝ) (hdt : 0 ≤ dt) (M : ℕ) :
    ∃ ps, mem slack junk freqs v dt M = .ok ps ∧ ps.length = freqs.length ∧ ∀ p ∈ ps, 0 ≤ p := by
  obtain ⟨r, r', c, c', h1, h2, -, -, h⟩ := mem_ok slack hs junk freqs v hv dt M
  refine ⟨_, h, by simp, ?_⟩
  intro p hp
  obtain ⟨f, -, rfl⟩ := List.mem_map.1 hp
  apply mul_nonneg _ hdt
  apply add_nonneg <;> split_ifs <;> positivity

/-- A case with three data and two coefficients. -/
example : ∃ ps, mem 1 (fun _ _ _ => 0) [1, 2] [1, I, -1] 0.1 2 = .ok ps ∧ ps.length = 2 ∧ ∀ p ∈ ps, 0 ≤ p :=
  C29_nonneg 1 le_rfl _ [1, 2] [1, I, -1] (by simp) _ (by norm_num) 2

/-! ## C30 -/

/-- C30, negation: with the memory that C promises (exactly `NumberOfData` elements) every call of `mem.mem`, with any
velocity, frequencies, time step and number of coefficients, reads outside its copy of the velocity. -/
theorem C30_violated (junk : ℕ → ℕ → ℕ → ℝ) (freqs : List ℝ) (v : List ℂ) (dt : ℝ) (M : ℕ) :
    mem 0 junk freqs v dt M = .error .outOfBounds := by
  have key : ∀ data : CArr ℝ, data.size = v.length → ∀ c0, getCoefficients (junk 0) data v.length M c0
      = .error .outOfBounds := by
    intro data hd c0
    unfold getCoefficients
    rcases Nat.eq_zero_or_pos v.length with h0 | hpos
    · have hf : memFill data v.length ⟨v.length, junk 0 0⟩ ⟨v.length, junk 0 1⟩ = .error .outOfBounds := by
        unfold memFill
        simp [CArr.get, hd, h0, bind, Except.bind]
      rw [hf]
      simp only [bind, Except.bind]
      have hs : memSumSq data v.length = .ok 0 := by unfold memSumSq; rw [h0]; rfl
      rw [hs]
    · have hs : memSumSq data v.length = .error .outOfBounds := by
        unfold memSumSq
        obtain ⟨n, hn⟩ : ∃ n, v.length = n + 1 := ⟨v.length - 1, by omega⟩
        rw [hn, List.range_succ, List.foldlM_append]
        obtain ⟨p, e, -⟩ := foldlM_range_ok (fun _ _ => True)
          (fun (p : ℝ) j => do return p + (← data.get (j + 1)) ^ 2) n 0 trivial (by
            intro i hi s _
            rw [CArr.get_ok (by omega)]
            exact ⟨_, rfl, trivial⟩)
        rw [e]
        simp [bind, Except.bind, CArr.get, hd, hn]
      rw [hs]; rfl
  unfold mem
  simp only [Nat.add_zero, bind, Except.bind]
  rw [key _ rfl]

/-- C30, partial: the element right behind the copied data is the only one outside the arrays that is ever touched: if it is
readable (`slack = 1`), every call with at least two data completes without any out-of-bounds access. -/
theorem C30_bounds_partial (junk : ℕ → ℕ → ℕ → ℝ) (freqs : List ℝ) (v : List ℂ) (hv : 2 ≤ v.length) (dt : ℝ) (M : ℕ) :
    ∃ ps, mem 1 junk freqs v dt M = .ok ps := by
  obtain ⟨_, _, _, _, -, -, -, -, h⟩ := mem_ok 1 le_rfl junk freqs v hv dt M
  exact ⟨_, h⟩

/-- C30, negation: the result is not a function of the given velocity, it depends on what lies behind it in memory; a
velocity at rest can have a non-zero spectrum. -/
theorem C30_garbage_violated : ∃ junk junk' : ℕ → ℕ → ℕ → ℝ,
    mem 1 junk [1] [0, 0] 1 0 = .ok [0] ∧ mem 1 junk' [1] [0, 0] 1 0 = .ok [1] := by
  have key : ∀ x : ℝ, mem 1 (fun a _ _ => if a = 0 then x else 0) [1] [0, 0] 1 0 = .ok [x ^ 2 / 2] := by
    intro x
    simp only [mem, getCoefficients, memSumSq, memFill, CArr.get, CArr.set, memLoop, frequencyEvaluation, bind, Except.bind,
      pure, Except.pure, List.range_succ, List.foldlM, List.mapM_cons, List.mapM_nil, List.length_cons, List.length_nil]
    by_cases hx : x = 0 <;> simp [List.range_succ, List.foldlM, Except.pure, Except.bind, bind, pure, hx, memLoop]
  refine ⟨fun a _ _ => if a = 0 then 0 else 0, fun a _ _ => if a = 0 then Real.sqrt 2 else 0, ?_, ?_⟩
  · rw [key]; simp
  · rw [key, Real.sq_sqrt (by norm_num)]; norm_num

/-- C30, negation: the first element of the velocity is never used. -/
theorem C30_first_violated (slack : ℕ) (junk : ℕ → ℕ → ℕ → ℝ) (freqs : List ℝ) (a b : ℂ) (t : List ℂ) (dt : ℝ) (M : ℕ) :
    mem slack junk freqs (a :: t) dt M = mem slack junk freqs (b :: t) dt M := by
  have key : ∀ (J : ℕ → ℕ → ℝ) (data data' c0 : CArr ℝ) (N : ℕ), 0 < N → data.size = data'.size →
      (∀ i, data.val (i + 1) = data'.val (i + 1)) → getCoefficients J data N M c0 = getCoefficients J data' N M c0 := by
    intro J data data' c0 N hN hs hv
    have hg : ∀ i, data.get (i + 1) = data'.get (i + 1) := by
      intro i; unfold CArr.get; rw [hs, hv]
    obtain ⟨n, rfl⟩ : ∃ n, N = n + 1 := ⟨N - 1, by omega⟩
    have e1 : memSumSq data (n + 1) = memSumSq data' (n + 1) := by simp only [memSumSq, hg]
    have e2 : ∀ w1 w2, memFill data (n + 1) w1 w2 = memFill data' (n + 1) w1 w2 := by
      intro w1 w2
      simp only [memFill, show data.get 1 = data'.get 1 from hg 0, hg]
    unfold getCoefficients
    simp only [e1, e2]
  unfold mem
  simp only [List.length_cons]
  rw [key (junk 0) _ _ _ (t.length + 1) (by omega) rfl (fun i => by simp only [List.getD_cons_succ]),
    key (junk 1) _ _ _ (t.length + 1) (by omega) rfl (fun i => by simp only [List.getD_cons_succ])]
  rfl

end Verif
