import Verif.Model.Settings
import Mathlib.Tactic.Linarith
import Mathlib.Tactic.FieldSimp
import Mathlib.Tactic.Ring
import Mathlib.Tactic.NormNum
import Mathlib.Data.Rat.Floor

/-! # C39 -/

set_option autoImplicit false
set_option linter.unusedSectionVars false

namespace Verif

variable {K : Type*} [Field K] [LinearOrder K] [IsStrictOrderedRing K] [FloorRing K]

/-- Specification: `l` is the grid `a, a+r, ..., a+(n-1)r`, `n ≥ 1`, that reaches `b` with an excess below one step. -/
def IsGrid (l : List K) (a b r : K) : Prop :=
  ∃ n : ℕ, l = (List.range (n + 1)).map (fun (i : ℕ) => a + i * r) ∧ b ≤ a + n * r ∧ a + n * r < b + r

theorem isGrid_arange (a b r : K) (hr : 0 < r) (hab : a ≤ b) : IsGrid (arange a (b + r) r) a b r := by
  have h1 := Int.le_ceil ((b + r - a) / r)
  have h2 := Int.ceil_lt_add_one ((b + r - a) / r)
  have h3 : (1 : K) ≤ (b + r - a) / r := by rw [le_div_iff₀ hr]; linarith
  have hpos : 1 ≤ ⌈(b + r - a) / r⌉ := by
    have : (1 : K) ≤ (⌈(b + r - a) / r⌉ : K) := by linarith
    exact_mod_cast this
  obtain ⟨n, hn⟩ : ∃ n : ℕ, ⌈(b + r - a) / r⌉ = n + 1 := ⟨(⌈(b + r - a) / r⌉ - 1).toNat, by omega⟩
  refine ⟨n, ?_, ?_, ?_⟩
  · unfold arange; rw [hn]; rfl
  · rw [hn, div_le_iff₀ hr] at h1
    push_cast at h1
    linarith [add_mul (n : K) 1 r, one_mul r]
  · rw [hn] at h2
    have h4 : ((n : K)) < (b + r - a) / r := by push_cast at h2; linarith
    rw [lt_div_iff₀ hr] at h4
    linarith

theorem IsGrid.unique {l l' : List K} {a b r : K} (hr : 0 < r) (h : IsGrid l a b r) (h' : IsGrid l' a b r) : l = l' := by
  obtain ⟨n, rfl, h1, h2⟩ := h
  obtain ⟨m, rfl, h3, h4⟩ := h'
  have e1 : (n : K) < m + 1 := by
    have : (n : K) * r < (m + 1) * r := by rw [add_mul]; linarith
    exact lt_of_mul_lt_mul_right this hr.le
  have e2 : (m : K) < n + 1 := by
    have : (m : K) * r < (n + 1) * r := by rw [add_mul]; linarith
    exact lt_of_mul_lt_mul_right this hr.le
  have e1' : n < m + 1 := by exact_mod_cast e1
  have e2' : m < n + 1 := by exact_mod_cast e2
  obtain rfl : n = m := by omega
  rfl

theorem IsGrid.head {l : List K} {a b r : K} (h : IsGrid l a b r) : l.head? = some a := by
  obtain ⟨n, rfl, -, -⟩ := h
  rw [List.range_succ_eq_map]; simp

theorem IsGrid.last {l : List K} {a b r : K} (h : IsGrid l a b r) :
    ∃ n : ℕ, l.getLast? = some (a + n * r) ∧ b ≤ a + n * r ∧ a + n * r < b + r ∧
      l = (List.range (n + 1)).map (fun (i : ℕ) => a + i * r) := by
  obtain ⟨n, rfl, h1, h2⟩ := h
  refine ⟨n, ?_, h1, h2, rfl⟩
  rw [List.range_succ, List.map_append, List.getLast?_append]; simp

/-- A strictly increasing non-empty list: what a frequency range is. -/
def Increasing (l : List K) : Prop := l ≠ [] ∧ l.Pairwise (· < ·)

theorem IsGrid.increasing {l : List K} {a b r : K} (hr : 0 < r) (h : IsGrid l a b r) : Increasing l := by
  obtain ⟨n, rfl, -, -⟩ := h
  refine ⟨by simp, ?_⟩
  rw [List.pairwise_map]
  refine List.pairwise_lt_range.imp ?_
  intro i j hij
  have : (i : K) < j := by exact_mod_cast hij
  have := mul_lt_mul_of_pos_right this hr
  linarith

theorem arrayEquiv_iff {l l' : List K} (h : Increasing l) (h' : Increasing l') : arrayEquiv l l' = true ↔ l = l' := by
  have key : ∀ {l l' : List K}, Increasing l → Increasing l' → (∃ x ∈ l, l = [x] ∧ ∀ y ∈ l', y = x) → l = l' := by
    rintro l l' h h' ⟨x, -, rfl, hy⟩
    match l', h', hy with
    | [], h', _ => exact absurd rfl h'.1
    | [y], _, hy => rw [hy y (by simp)]
    | y :: z :: t, h', hy =>
      have h1 := hy y (by simp)
      have h2 := hy z (by simp)
      have := (List.pairwise_cons.1 h'.2).1 z (by simp)
      rw [h1, h2] at this
      exact absurd this (lt_irrefl _)
  unfold arrayEquiv
  simp only [decide_eq_true_eq]
  constructor
  · rintro (h1 | h1 | h1)
    · exact h1
    · exact key h h' h1
    · exact (key h' h h1).symm
  · exact fun h1 => Or.inl h1

/-- The objects a user can reach: a positive resolution and an increasing range. -/
def FreqSettings.Valid (s : FreqSettings K) : Prop := 0 < s.resolution ∧ Increasing s.range

theorem FreqSettings.setRange_range (s : FreqSettings K) (h : Increasing s.range) (r : List K) (hr : Increasing r) :
    (s.setRange r).1 = { s with range := r } ∧ ((s.setRange r).2 = true ↔ s.range ≠ r) := by
  unfold FreqSettings.setRange
  by_cases he : r = s.range
  · rw [if_pos ((arrayEquiv_iff hr h).2 he)]
    subst he; simp
  · rw [if_neg (fun hh => he ((arrayEquiv_iff hr h).1 hh))]
    simp [Ne.symm he]

/-- C39: `set_frequency_limits([a, b])` makes the range the evenly spaced grid with the current resolution that starts at
`a` and reaches `b` with an excess below one step; the resolution is kept; the caches are cleared iff the range changed. -/
theorem C39_limits (s : FreqSettings K) (hs : s.Valid) (a b : K) (hab : a ≤ b) :
    IsGrid (s.setLimits a b).1.range a b s.resolution ∧ (s.setLimits a b).1.resolution = s.resolution ∧
    ((s.setLimits a b).2 = true ↔ (s.setLimits a b).1.range ≠ s.range) := by
  have hg := isGrid_arange a b s.resolution hs.1 hab
  have := s.setRange_range hs.2 _ (hg.increasing hs.1)
  unfold FreqSettings.setLimits
  rw [this.1]
  exact ⟨hg, rfl, by rw [this.2]; exact ne_comm⟩

/-- C39: `set_spectra_resolution(r)` makes the range the grid with step `r` that starts where the old range started and
reaches its end (the upper limit is not lost). -/
theorem C39_resolution (s : FreqSettings K) (hs : s.Valid) (r : K) (hr : 0 < r) :
    ∃ s' c a b, s.setResolution r = some (s', c) ∧ s.range.head? = some a ∧ s.range.getLast? = some b ∧
      IsGrid s'.range a b r ∧ s'.resolution = r ∧ (c = true ↔ s'.range ≠ s.range) := by
  obtain ⟨hne, hp⟩ := hs.2
  obtain ⟨a, t, hat⟩ := List.exists_cons_of_ne_nil hne
  have hb : s.range.getLast? = some (s.range.getLast hne) := List.getLast?_eq_some_getLast hne
  set b := s.range.getLast hne with hbdef
  have hab : a ≤ b := by
    have hmem : b ∈ s.range := List.getLast_mem hne
    rw [hat] at hmem hp
    rcases List.mem_cons.1 hmem with h | h
    · exact h.ge
    · exact ((List.pairwise_cons.1 hp).1 b h).le
  have ha : s.range.head? = some a := by rw [hat]; rfl
  have hg := isGrid_arange a b r hr hab
  have := FreqSettings.setRange_range { s with resolution := r } hs.2 _ (hg.increasing hr)
  refine ⟨_, _, a, b, by unfold FreqSettings.setResolution; rw [ha, hb], ha, hb, ?_, ?_, ?_⟩
  · rw [this.1]; exact hg
  · rw [this.1]
  · rw [this.2, this.1]; exact ne_comm

/-- C39: setting the same resolution twice changes nothing the second time. -/
theorem C39_repeat (s s' s'' : FreqSettings K) (hs : s.Valid) (r : K) (hr : 0 < r) (c c' : Bool)
    (h1 : s.setResolution r = some (s', c)) (h2 : s'.setResolution r = some (s'', c')) : s'' = s' ∧ c' = false := by
  obtain ⟨t, d, a, b, e1, -, -, hg, hres, -⟩ := C39_resolution s hs r hr
  rw [h1] at e1
  simp only [Option.some.injEq, Prod.mk.injEq] at e1
  obtain ⟨rfl, rfl⟩ := e1
  have hv : s'.Valid := ⟨by rw [hres]; exact hr, hg.increasing hr⟩
  obtain ⟨t, d, a', b', e2, ha', hb', hg', hres', hc'⟩ := C39_resolution s' hv r hr
  rw [h2] at e2
  simp only [Option.some.injEq, Prod.mk.injEq] at e2
  obtain ⟨rfl, rfl⟩ := e2
  rw [hg.head] at ha'
  obtain ⟨n, hl, -, -, hrange⟩ := hg.last
  rw [hl] at hb'
  simp only [Option.some.injEq] at ha' hb'
  subst ha' hb'
  have hself : IsGrid s'.range a (a + n * r) r := ⟨n, hrange, le_rfl, by linarith⟩
  have heq : s''.range = s'.range := hg'.unique hr hself
  refine ⟨?_, ?_⟩
  · cases s'; cases s''; simp_all
  · rw [← Bool.not_eq_true, hc']; simpa using heq

/-- The default settings (a shorter range) are valid, and a non-trivial change of limits. -/
example : (⟨1 / 2, [0, 1 / 2, 1]⟩ : FreqSettings ℚ).Valid := by
  refine ⟨by norm_num, by simp, by decide +kernel⟩
example : ((⟨1 / 2, [0, 1 / 2, 1]⟩ : FreqSettings ℚ).setLimits 0 (7 / 5)).1.range = [0, 1 / 2, 1, 3 / 2] := by
  decide +kernel

/-- C39, why limits must be in order: after `set_frequency_limits` with reversed limits left the range empty, a
one-frequency range is refused (an array of one element broadcasts to the empty array, so the two count as equal). -/
theorem C39_empty_violated : ∃ s : FreqSettings ℚ, 0 < s.resolution ∧ s.range = [] ∧ (s.setLimits 3 3).1.range = [] :=
  ⟨⟨1, []⟩, by norm_num, rfl, by decide +kernel⟩

end Verif
