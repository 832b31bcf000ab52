import Verif.Model.Arrangement
import Verif.Model.Parsers
import Verif.Props.Supercell
import Verif.Util
import Mathlib.Tactic.Linarith
import Mathlib.Tactic.Positivity
import Mathlib.Tactic.NormNum
import Mathlib.Data.Rat.Floor
import Mathlib.Tactic.IntervalCases
import Mathlib.Tactic.FinCases

/-! # C54: automatic order of the atoms -/

set_option autoImplicit false
set_option linter.unusedSectionVars false

namespace Verif

section argsortBasic
variable {K : Type*} [Zero K] [LinearOrder K]

theorem argsort_perm (t : List K) : (argsort t).Perm (List.range t.length) := List.perm_insertionSort _ _

/-- C54: whatever the template is, `np.argsort` of it is a permutation of the atoms: no atom is lost or duplicated. -/
theorem C54_permutation (t : List K) : (argsort t).Perm (List.range t.length) ∧ (argsort t).Nodup ∧ ∀ i, i ∈ argsort t ↔ i < t.length :=
  ⟨argsort_perm t, (argsort_perm t).nodup_iff.2 List.nodup_range, fun i => by rw [(argsort_perm t).mem_iff, List.mem_range]⟩

theorem argsort_sorted (t : List K) : (argsort t).Pairwise fun i j => t.getD i 0 ≤ t.getD j 0 := by
  haveI : Std.Total fun i j : ℕ => t.getD i 0 ≤ t.getD j 0 := ⟨fun a b => le_total _ _⟩
  haveI : IsTrans ℕ fun i j : ℕ => t.getD i 0 ≤ t.getD j 0 := ⟨fun a b c h1 h2 => le_trans h1 h2⟩
  exact List.pairwise_insertionSort _ _

end argsortBasic

section argsort
variable {K : Type*} [Field K] [LinearOrder K] [IsStrictOrderedRing K]

/-- For a template that is a permutation `σ` of `0, ..., n-1`, `np.argsort` is the inverse permutation. -/
theorem argsort_inverse (n : ℕ) (σ : ℕ → ℕ) (hlt : ∀ i < n, σ i < n) (hinj : ∀ i < n, ∀ j < n, σ i = σ j → i = j) (i : ℕ) (hi : i < n) :
    (argsort ((List.range n).map fun i => (σ i : K)))[σ i]? = some i := by
  set t := (List.range n).map fun i => (σ i : K) with ht
  have htl : t.length = n := by simp [ht]
  have htd : ∀ i < n, t.getD i 0 = (σ i : K) := by
    intro i hi; simp [ht, List.getD_eq_getElem?_getD, hi]
  have hp := argsort_perm t
  have hs := argsort_sorted t
  rw [htl] at hp
  -- the values in the new order are 0, 1, 2, ...
  have hmem : ∀ j ∈ argsort t, j < n := fun j hj => by rw [hp.mem_iff, List.mem_range] at hj; exact hj
  have h1 : ((argsort t).map σ).Pairwise (· ≤ ·) := by
    rw [List.pairwise_map]
    refine hs.imp_of_mem fun {a b} ha hb hab => ?_
    rw [htd a (hmem a ha), htd b (hmem b hb)] at hab
    exact_mod_cast hab
  have h2 : ((argsort t).map σ).Perm (List.range n) := by
    have hp2 : ((argsort t).map σ).Perm ((List.range n).map σ) := hp.map σ
    refine hp2.trans ?_
    have hnd : ((List.range n).map σ).Nodup := by
      refine List.Nodup.map_on ?_ List.nodup_range
      intro x hx y hy hxy
      exact hinj x (List.mem_range.1 hx) y (List.mem_range.1 hy) hxy
    have hsub : (List.range n).map σ ⊆ List.range n := by
      intro x hx
      obtain ⟨y, hy, rfl⟩ := List.mem_map.1 hx
      exact List.mem_range.2 (hlt y (List.mem_range.1 hy))
    exact (hnd.subperm hsub).perm_of_length_le (by simp)
  have h3 : (argsort t).map σ = List.range n := by
    refine List.Perm.eq_of_pairwise' ?_ ?_ h2 (r := (· ≤ ·))
    · exact h1
    · exact List.pairwise_le_range
  obtain ⟨m, hm, hmi⟩ := List.mem_iff_getElem.1 (hp.mem_iff.2 (List.mem_range.2 hi))
  have h4 : ((argsort t).map σ)[m]'(by simpa using hm) = m := by
    simp only [h3]
    exact List.getElem_range _
  rw [List.getElem_map, hmi] at h4
  rw [h4, List.getElem?_eq_getElem hm, hmi]

/-- Reordering a frame with `np.argsort(template)` puts atom `i` at place `σ i`. -/
theorem reorder_argsort {R : Type*} (n : ℕ) (σ : ℕ → ℕ) (hlt : ∀ i < n, σ i < n) (hinj : ∀ i < n, ∀ j < n, σ i = σ j → i = j)
    (frame : Frame R) (hf : frame.length = n) :
    ∃ f', reorder (some (argsort ((List.range n).map fun i => (σ i : K)))) frame = some f' ∧ f'.length = n ∧ ∀ i < n, f'[σ i]? = frame[i]? := by
  set ix := argsort ((List.range n).map fun i => (σ i : K)) with hix
  have hmem : ∀ j ∈ ix, j < n := by
    intro j hj
    have := ((C54_permutation ((List.range n).map fun i => (σ i : K))).2.2 j).1 hj
    simpa using this
  have hlen : ix.length = n := by
    have := (argsort_perm ((List.range n).map fun i => (σ i : K))).length_eq
    simpa using this
  have key : ∀ (l : List ℕ), (∀ j ∈ l, j < n) → ∃ f', l.mapM (fun i => frame[i]?) = some f' ∧ f'.length = l.length ∧
      ∀ m i : ℕ, l[m]? = some i → f'[m]? = frame[i]? := by
    intro l
    induction l with
    | nil => intro _; exact ⟨[], by simp, rfl, by simp⟩
    | cons a l ih =>
      intro hl
      obtain ⟨f', h1, h2, h3⟩ := ih fun j hj => hl j (by simp [hj])
      have ha : a < frame.length := by rw [hf]; exact hl a (by simp)
      refine ⟨frame[a] :: f', ?_, by simp [h2], ?_⟩
      · rw [List.mapM_cons]; simp [ha, h1]
      · intro m i hm
        cases m with
        | zero => simp only [List.getElem?_cons_zero, Option.some.injEq] at hm ⊢; subst hm; simp [ha]
        | succ m => simpa using h3 m i (by simpa using hm)
  obtain ⟨f', h1, h2, h3⟩ := key ix hmem
  exact ⟨f', h1, h2.trans hlen, fun i hi => h3 (σ i) i (argsort_inverse n σ hlt hinj i hi)⟩

end argsort

section argmin
variable {K : Type*} [Field K] [LinearOrder K] [IsStrictOrderedRing K]

/-- The first index of the smallest value. -/
theorem argmin_eq (n : ℕ) (f : ℕ → K) (m : ℕ) (hm : m < n) (h1 : ∀ i < n, f m ≤ f i) (h2 : ∀ i < m, f m < f i) : argmin n f = m := by
  unfold argmin
  have key : ∀ k, k ≤ n → ((List.range k).foldl (fun best i => if f i < f best then i else best) 0 < n) ∧
      (m < k → (List.range k).foldl (fun best i => if f i < f best then i else best) 0 = m) ∧
      (k ≤ m → (List.range k).foldl (fun best i => if f i < f best then i else best) 0 < m ∨
        (List.range k).foldl (fun best i => if f i < f best then i else best) 0 = 0) := by
    intro k
    induction k with
    | zero => intro _; exact ⟨by simp; omega, by simp, by simp⟩
    | succ k ih =>
      intro hk
      obtain ⟨a, b, c⟩ := ih (by omega)
      rw [List.range_succ, List.foldl_append, List.foldl_cons, List.foldl_nil]
      set v := (List.range k).foldl (fun best i => if f i < f best then i else best) 0
      by_cases hf : f k < f v
      · rw [if_pos hf]
        refine ⟨by omega, fun h => ?_, fun h => Or.inl (by omega)⟩
        rcases lt_or_eq_of_le (Nat.lt_succ_iff.1 h) with h' | h'
        · have := b h'
          rw [this] at hf
          exact absurd (h1 k (by omega)) (not_le.2 hf)
        · exact h'.symm
      · rw [if_neg hf]
        refine ⟨a, fun h => ?_, fun h => c (by omega)⟩
        rcases lt_or_eq_of_le (Nat.lt_succ_iff.1 h) with h' | h'
        · exact b h'
        · subst h'
          rcases c le_rfl with h'' | h''
          · exact absurd (h2 v h'') hf
          · by_contra hne
            have : 0 < m := by omega
            exact hf (h''.symm ▸ h2 0 this)
  exact (key n le_rfl).2.1 hm

end argmin

section template
variable {K : Type*} [Field K] [LinearOrder K] [IsStrictOrderedRing K] [FloorRing K]

theorem wrapDiff_match (u p δ : K) (m : ℤ) (h : u - p = δ + m) (h1 : |δ| < 1 / 4) (h2 : -(3 / 2) < u - p) (h3 : u - p < 1) :
    wrapDiff u p ^ 2 = δ ^ 2 := by
  rw [abs_lt] at h1
  have hm1 : (-2 : K) < m := by linarith
  have hm2 : (m : K) < 2 := by linarith
  have hm1' : (-2 : ℤ) < m := by exact_mod_cast hm1
  have hm2' : m < 2 := by exact_mod_cast hm2
  have hc : m = -1 ∨ m = 0 ∨ m = 1 := by omega
  unfold wrapDiff
  simp only [h]
  rcases hc with rfl | rfl | rfl
  · have e : |δ + ((-1 : ℤ) : K)| = 1 - δ := by
      push_cast; rw [abs_of_neg (by linarith)]; ring
    rw [e, if_pos (show (1 / 2 : K) ≤ 1 - δ by linarith), if_neg (by linarith)]; ring
  · simp only [Int.cast_zero, add_zero]
    have : |δ| < 1 / 4 := abs_lt.2 h1
    have h0 := abs_nonneg δ
    rw [if_neg (show ¬ (1 / 2 : K) ≤ |δ| by linarith), if_neg (by linarith), sq_abs]
  · have e : |δ + ((1 : ℤ) : K)| = 1 + δ := by
      push_cast; rw [abs_of_pos (by linarith)]; ring
    rw [e, if_pos (show (1 / 2 : K) ≤ 1 + δ by linarith), if_neg (by linarith)]; ring

theorem wrapDiff_far (u p c : K) (hc : 0 ≤ c) (h : ∀ m : ℤ, c ≤ |u - p + m|) : c ^ 2 ≤ wrapDiff u p ^ 2 := by
  have key : ∃ m : ℤ, |wrapDiff u p| = |u - p + m| := by
    unfold wrapDiff
    simp only
    rcases abs_choice (u - p) with e | e <;> rw [e] <;> split_ifs
    · exact ⟨0, by congr 1; push_cast; ring⟩
    · exact ⟨-1, by congr 1; push_cast; ring⟩
    · exact ⟨1, by congr 1; push_cast; ring⟩
    · exact ⟨0, by congr 1; push_cast; ring⟩
    · exact ⟨0, by rw [← abs_neg]; congr 1; push_cast; ring⟩
    · exact ⟨1, by rw [← abs_neg]; congr 1; push_cast; ring⟩
    · exact ⟨-1, by rw [← abs_neg]; congr 1; push_cast; ring⟩
    · exact ⟨0, by rw [← abs_neg]; congr 1; push_cast; ring⟩
  obtain ⟨m, hm⟩ := key
  rw [← sq_abs (wrapDiff u p), hm]
  exact pow_le_pow_left₀ hc (h m) 2

/-- The closest atom of the unit cell is the right one, for displacements smaller than `ε` when different atoms of the cell are at least `3 ε` apart. -/
theorem unitCellIndex_eq (nc : ℕ) (sp : ℕ → Fin 3 → K) (x : Fin 3 → K) (κ : ℕ) (hκ : κ < nc) (ε : K) (hε : ε ≤ 1 / 4)
    (hsp : ∀ k, 0 ≤ sp κ k ∧ sp κ k < 1) (δ : Fin 3 → K) (a : Fin 3 → ℤ) (hx : ∀ k, x k = sp κ k + δ k + a k) (hδ : ∀ k, |δ k| < ε)
    (hlow : ∀ k, -(1 / 2) < x k) (hsep : ∀ j < nc, j ≠ κ → ∃ k, ∀ m : ℤ, 3 * ε ≤ |sp κ k - sp j k + m|) :
    unitCellIndex nc sp x = κ := by
  have hε0 : 0 < ε := lt_of_le_of_lt (abs_nonneg _) (hδ 0)
  have hlt : ∀ j < nc, j ≠ κ → ∑ k : Fin 3, wrapDiff (x k - truncZero (x k)) (sp κ k) ^ 2 < ∑ k : Fin 3, wrapDiff (x k - truncZero (x k)) (sp j k) ^ 2 := by
    intro j hj hne
    have h1 : ∀ k, wrapDiff (x k - truncZero (x k)) (sp κ k) ^ 2 ≤ ε ^ 2 := by
      intro k
      have hb : -(1 / 2) < x k - truncZero (x k) ∧ x k - truncZero (x k) < 1 := by
        unfold truncZero
        split_ifs with h0
        · have := Int.floor_le (x k); have := Int.lt_floor_add_one (x k)
          exact ⟨by linarith, by linarith⟩
        · have hc : ⌈x k⌉ = 0 := by
            rw [Int.ceil_eq_iff]
            have := hlow k
            exact ⟨by push_cast; linarith, by push_cast; exact (not_le.1 h0).le⟩
          rw [hc]
          have := hlow k
          exact ⟨by push_cast; linarith, by push_cast; linarith [not_le.1 h0]⟩
      have := wrapDiff_match (x k - truncZero (x k)) (sp κ k) (δ k) (a k - truncZero (x k)) (by rw [hx k]; push_cast; ring)
        (lt_of_lt_of_le (hδ k) hε) (by linarith [(hsp k).2, hb.1]) (by linarith [(hsp k).1, hb.2])
      rw [this, ← sq_abs]
      exact pow_le_pow_left₀ (abs_nonneg _) (hδ k).le 2
    have h2 : ∑ k : Fin 3, wrapDiff (x k - truncZero (x k)) (sp κ k) ^ 2 ≤ 3 * ε ^ 2 := by
      rw [Fin.sum_univ_three]; linarith [h1 0, h1 1, h1 2]
    obtain ⟨k, hk⟩ := hsep j hj hne
    have h3 : (2 * ε) ^ 2 ≤ wrapDiff (x k - truncZero (x k)) (sp j k) ^ 2 := by
      refine wrapDiff_far _ _ _ (by linarith) fun m => ?_
      have e : x k - truncZero (x k) - sp j k + m = (sp κ k - sp j k + ((a k - truncZero (x k) + m : ℤ) : K)) + δ k := by
        rw [hx k]; push_cast; ring
      rw [e]
      have t := abs_sub_abs_le_abs_sub (sp κ k - sp j k + ((a k - truncZero (x k) + m : ℤ) : K)) (-(δ k))
      rw [abs_neg, sub_neg_eq_add] at t
      have := hk (a k - truncZero (x k) + m)
      linarith [hδ k]
    have h4 : wrapDiff (x k - truncZero (x k)) (sp j k) ^ 2 ≤ ∑ k : Fin 3, wrapDiff (x k - truncZero (x k)) (sp j k) ^ 2 :=
      Finset.single_le_sum (f := fun k => wrapDiff (x k - truncZero (x k)) (sp j k) ^ 2) (fun i _ => sq_nonneg _) (Finset.mem_univ k)
    have h5 : 0 < ε ^ 2 := by positivity
    linarith [show (2 * ε) ^ 2 = 4 * ε ^ 2 by ring]
  refine argmin_eq nc _ κ hκ (fun i hi => ?_) (fun i hi => hlt i (by omega) (by omega))
  rcases eq_or_ne i κ with rfl | h
  · exact le_rfl
  · exact (hlt i hi h).le

theorem argmin_least (n : ℕ) (hn : 0 < n) (f : ℕ → K) : argmin n f < n ∧ ∀ i < n, f (argmin n f) ≤ f i := by
  suffices h : ∀ l : List ℕ, ∀ b, (∀ i ∈ l, i < n) → b < n → (l.foldl (fun best i => if f i < f best then i else best) b) < n ∧
      f (l.foldl (fun best i => if f i < f best then i else best) b) ≤ f b ∧ ∀ i ∈ l, f (l.foldl (fun best i => if f i < f best then i else best) b) ≤ f i by
    have := h (List.range n) 0 (fun i hi => List.mem_range.1 hi) hn
    exact ⟨this.1, fun i hi => this.2.2 i (List.mem_range.2 hi)⟩
  intro l
  induction l with
  | nil => intro b _ hb; exact ⟨hb, le_refl _, by simp⟩
  | cons a l ih =>
    intro b hl hb
    rw [List.foldl_cons]
    have hb' : (if f a < f b then a else b) < n := by split; exacts [hl a List.mem_cons_self, hb]
    obtain ⟨h1, h2, h3⟩ := ih _ (fun i hi => hl i (List.mem_cons_of_mem _ hi)) hb'
    refine ⟨h1, h2.trans ?_, fun i hi => ?_⟩
    · split
      · rename_i h; exact h.le
      · exact le_refl _
    · rcases List.mem_cons.1 hi with rfl | hi
      · refine h2.trans ?_
        split
        · exact le_refl _
        · rename_i h; exact not_lt.1 h
      · exact h3 i hi

/-- The wrapped difference is the distance to the closest integer. -/
theorem wrapDiff_least (u p : K) (h : |u - p| ≤ 3 / 2) : (∃ m : ℤ, wrapDiff u p ^ 2 = (u - p + m) ^ 2) ∧ ∀ m : ℤ, wrapDiff u p ^ 2 ≤ (u - p + m) ^ 2 := by
  have hw : |wrapDiff u p| ≤ 1 / 2 ∧ ∃ m : ℤ, |wrapDiff u p| = |u - p + m| := by
    have h0 := abs_nonneg (u - p)
    unfold wrapDiff
    simp only
    by_cases h1 : 1 / 2 ≤ |u - p|
    · rw [if_pos h1, if_neg (by linarith)]
      refine ⟨by rw [abs_le]; constructor <;> linarith, ?_⟩
      rcases abs_cases (u - p) with ⟨e, -⟩ | ⟨e, -⟩
      · exact ⟨-1, by rw [e]; push_cast; rw [sub_eq_add_neg (u - p) 1]⟩
      · exact ⟨1, by rw [e, ← abs_neg]; congr 1; push_cast; ring⟩
    · rw [if_neg h1, if_neg (by linarith)]
      refine ⟨by rw [abs_abs]; linarith, 0, by rw [abs_abs]; simp⟩
  obtain ⟨hb, m0, hm0⟩ := hw
  refine ⟨⟨m0, by rw [← sq_abs, hm0, sq_abs]⟩, fun m => ?_⟩
  rw [← sq_abs (wrapDiff u p), ← sq_abs (u - p + m)]
  refine pow_le_pow_left₀ (abs_nonneg _) ?_ 2
  rcases eq_or_ne m m0 with rfl | hne
  · exact hm0.le
  · have hi : (1 : K) ≤ |((m - m0 : ℤ) : K)| := by
      rw [← Int.cast_abs]
      exact_mod_cast Int.one_le_abs (sub_ne_zero.mpr hne)
    have t := abs_sub_abs_le_abs_sub ((m - m0 : ℤ) : K) (-(u - p + m0))
    rw [abs_neg, ← hm0, sub_neg_eq_add, show ((m - m0 : ℤ) : K) + (u - p + m0) = u - p + m by push_cast; ring] at t
    linarith

/-- C54: whatever the displacements are, an atom of the trajectory that is not more than half a cell below the origin is assigned to the atom of the unit cell that is closest to it when all the
periodic images are considered (distance in scaled coordinates). -/
theorem C54_nearest (nc : ℕ) (sp : ℕ → Fin 3 → K) (x : Fin 3 → K) (hnc : 0 < nc) (hsp : ∀ j < nc, ∀ k, 0 ≤ sp j k ∧ sp j k ≤ 1) (hlow : ∀ k, -(1 / 2) ≤ x k) :
    unitCellIndex nc sp x < nc ∧ ∃ image : Fin 3 → ℤ, ∀ j < nc, ∀ m : Fin 3 → ℤ,
      ∑ k, (x k - (sp (unitCellIndex nc sp x) k + image k)) ^ 2 ≤ ∑ k, (x k - (sp j k + m k)) ^ 2 := by
  obtain ⟨h1, h2⟩ := argmin_least nc hnc fun j => ∑ k : Fin 3, wrapDiff (x k - truncZero (x k)) (sp j k) ^ 2
  have hb : ∀ j < nc, ∀ k, |x k - truncZero (x k) - sp j k| ≤ 3 / 2 := by
    intro j hj k
    have hu : -(1 / 2) ≤ x k - truncZero (x k) ∧ x k - truncZero (x k) < 1 := by
      unfold truncZero
      split_ifs with h0
      · have := Int.floor_le (x k); have := Int.lt_floor_add_one (x k)
        exact ⟨by linarith, by linarith⟩
      · have hc : ⌈x k⌉ = 0 := by
          rw [Int.ceil_eq_iff]
          have := hlow k
          exact ⟨by push_cast; linarith, by push_cast; exact (not_le.1 h0).le⟩
        rw [hc]
        have := hlow k
        exact ⟨by push_cast; linarith, by push_cast; linarith [not_le.1 h0]⟩
    have := hsp j hj k
    rw [abs_le]; constructor <;> linarith
  refine ⟨h1, ?_⟩
  change unitCellIndex nc sp x < nc at h1
  choose image himage using fun k => (wrapDiff_least _ _ (hb _ h1 k)).1
  refine ⟨fun k => truncZero (x k) - image k, fun j hj m => ?_⟩
  have e1 : ∑ k, (x k - (sp (unitCellIndex nc sp x) k + ((truncZero (x k) - image k : ℤ) : K))) ^ 2 =
      ∑ k, wrapDiff (x k - truncZero (x k)) (sp (unitCellIndex nc sp x) k) ^ 2 :=
    Finset.sum_congr rfl fun k _ => by rw [himage k]; push_cast; ring
  rw [e1]
  refine (h2 j hj).trans (Finset.sum_le_sum fun k _ => ?_)
  refine ((wrapDiff_least _ _ (hb j hj k)).2 (truncZero (x k) - m k)).trans (le_of_eq ?_)
  push_cast; ring

/-- Two atoms in the cell: an atom at the far end of the supercell belongs to the first one. -/
example : unitCellIndex 2 (fun j => if j = 0 then ![0, 0, 0] else ![2 / 5, 2 / 5, 2 / 5]) ![(39 / 10 : ℚ), 0, 1 / 10] = 0 := by decide +kernel

theorem latticePoint_eq (dim : Fin 3 → ℕ) (x p : Fin 3 → K) (k : Fin 3) (l : ℕ) (hl : l < dim k) (δ : K) (hδ : |δ| < 1 / 4) (w : ℤ)
    (hw : w = -1 ∨ w = 0 ∨ w = 1) (hx : x k = p k + l + δ + w * dim k) : latticePoint dim x p k = l + δ := by
  rw [abs_lt] at hδ
  have h1 : (l : K) + 1 ≤ dim k := by exact_mod_cast hl
  have h0 : (0 : K) ≤ l := by positivity
  unfold latticePoint
  simp only [hx]
  rcases hw with rfl | rfl | rfl
  · have e : p k + l + δ + ((-1 : ℤ) : K) * dim k - p k = l + δ - dim k := by push_cast; ring
    rw [e, if_neg (show ¬ (dim k : K) - 1 / 2 < l + δ - dim k by linarith), if_pos (by linarith)]; ring
  · have e : p k + l + δ + ((0 : ℤ) : K) * dim k - p k = l + δ := by push_cast; ring
    rw [e, if_neg (show ¬ (dim k : K) - 1 / 2 < l + δ by linarith), if_neg (by linarith)]
  · have e : p k + l + δ + ((1 : ℤ) : K) * dim k - p k = l + δ + dim k := by push_cast; ring
    rw [e, if_pos (show (dim k : K) - 1 / 2 < l + δ + dim k by linarith), if_neg (by linarith)]; ring

theorem latticeIndex_eq (N : ℕ) (dim : Fin 3 → ℕ) (l : Fin 3 → ℕ) (hl : ∀ k, l k < dim k) (δ : Fin 3 → K) (hδ : ∀ k, |δ k| < 1 / 4)
    (hN : dim 0 * dim 1 * dim 2 ≤ N) :
    latticeIndex N dim (fun k => (l k : K) + δ k) = l 0 + dim 0 * l 1 + dim 0 * dim 1 * l 2 := by
  have hdim : ∀ k, dim k ≠ 0 := fun k => by have := hl k; omega
  unfold latticeIndex
  rw [if_neg (by push Not; exact hdim)]
  have term : ∀ (c : ℕ) (k : Fin 3), (δ k / dim k) ^ 2 ≤ (((l k : K) + δ k) / dim k - (c : K) / dim k) ^ 2 ∧
      (c ≠ l k → (δ k / dim k) ^ 2 < (((l k : K) + δ k) / dim k - (c : K) / dim k) ^ 2) := by
    intro c k
    have hd : (0 : K) < dim k := by exact_mod_cast Nat.pos_of_ne_zero (hdim k)
    have hlt : c ≠ l k → (δ k / dim k) ^ 2 < (((l k : K) + δ k) / dim k - (c : K) / dim k) ^ 2 := by
      intro hc
      rw [← sub_div, div_pow, div_pow]
      refine div_lt_div_of_pos_right ?_ (by positivity)
      rw [sq_lt_sq]
      have h1 : (1 : K) ≤ |(l k : K) - c| := by
        have : (1 : ℤ) ≤ |(l k : ℤ) - c| := Int.one_le_abs (by omega)
        exact_mod_cast this
      have h2 := abs_sub_abs_le_abs_sub ((l k : K) - c) (-(δ k))
      rw [abs_neg, sub_neg_eq_add, show (l k : K) - c + δ k = l k + δ k - c by ring] at h2
      linarith [hδ k]
    refine ⟨?_, hlt⟩
    rcases eq_or_ne c (l k) with rfl | h
    · rw [← sub_div]; simp
    · exact (hlt h).le
  have hval : originalConf dim (l 0 + dim 0 * l 1 + dim 0 * dim 1 * l 2) = l := by
    have := C03_decode (l 0) (l 1) (l 2) 0 (dim 0) (dim 1) (dim 2) (hl 0) (hl 1) (hl 2)
    rw [zero_mul, zero_add] at this
    funext k
    simp only [originalConf, this]
    fin_cases k <;> rfl
  have hm : l 0 + dim 0 * l 1 + dim 0 * dim 1 * l 2 < N := by
    have h0 := hl 0; have h1 := hl 1; have h2 := hl 2
    have e1 : l 0 + dim 0 * l 1 < dim 0 * dim 1 := by nlinarith
    have e2 : dim 0 * dim 1 * (l 2 + 1) ≤ dim 0 * dim 1 * dim 2 := Nat.mul_le_mul_left _ h2
    have e3 : dim 0 * dim 1 * (l 2 + 1) = dim 0 * dim 1 * l 2 + dim 0 * dim 1 := by ring
    omega
  have hatm : ∑ k : Fin 3, (((l k : K) + δ k) / dim k - (originalConf dim (l 0 + dim 0 * l 1 + dim 0 * dim 1 * l 2) k : K) / dim k) ^ 2
      = ∑ k : Fin 3, (δ k / dim k) ^ 2 := by
    rw [hval]
    refine Finset.sum_congr rfl fun k _ => ?_
    rw [← sub_div]; congr 2; ring
  refine argmin_eq N _ _ hm (fun i hi => ?_) (fun i hi => ?_)
  · rw [hatm]
    exact Finset.sum_le_sum fun k _ => (term _ k).1
  · rw [hatm]
    have hne : ∃ k, originalConf dim i k ≠ l k := by
      by_contra hcon
      push Not at hcon
      have hr := C03_reconstruct i (dim 0) (dim 1) (dim 2)
      simp only at hr
      have e0 := hcon 0; have e1 := hcon 1; have e2 := hcon 2
      simp only [originalConf, Matrix.cons_val_zero, Matrix.cons_val_one] at e0 e1
      have e2' : (dynaphopyOrder i (dim 0) (dim 1) (dim 2)).2.2.1 = l 2 := e2
      rw [e0, e1, e2'] at hr
      have : 0 ≤ (dynaphopyOrder i (dim 0) (dim 1) (dim 2)).2.2.2 * (dim 0 * dim 1 * dim 2) := Nat.zero_le _
      omega
    obtain ⟨k, hk⟩ := hne
    exact Finset.sum_lt_sum (fun k _ => (term _ k).1) ⟨k, Finset.mem_univ k, (term _ k).2 hk⟩

theorem maxOf_eq (n : ℕ) (f : ℕ → K) (hn : 0 < n) : (∀ i < n, f i ≤ maxOf n f) ∧ ∃ i < n, maxOf n f = f i := by
  unfold maxOf
  have key : ∀ k ≤ n, (∀ i < k, f i ≤ (List.range k).foldl (fun m i => max m (f i)) (f 0)) ∧
      ∃ i < n, (List.range k).foldl (fun m i => max m (f i)) (f 0) = f i := by
    intro k
    induction k with
    | zero => intro _; exact ⟨by simp, 0, hn, rfl⟩
    | succ k ih =>
      intro hk
      obtain ⟨h1, i, hi, h2⟩ := ih (by omega)
      rw [List.range_succ, List.foldl_append, List.foldl_cons, List.foldl_nil]
      refine ⟨fun j hj => ?_, ?_⟩
      · rcases Nat.lt_succ_iff_lt_or_eq.1 hj with h | rfl
        · exact (h1 j h).trans (le_max_left _ _)
        · exact le_max_right _ _
      · rcases max_choice ((List.range k).foldl (fun m i => max m (f i)) (f 0)) (f k) with h | h
        · exact ⟨i, hi, h.trans h2⟩
        · exact ⟨k, by omega, h⟩
  exact key n le_rfl

theorem supercellDim_eq (N : ℕ) (scaled : ℕ → Fin 3 → K) (k : Fin 3) (n : ℕ) (hup : ∀ i < N, scaled i k < n + 1 / 2)
    (hlow : ∃ i < N, n - 1 / 2 < scaled i k) : supercellDim N scaled k = n := by
  obtain ⟨i, hi, h1⟩ := hlow
  obtain ⟨h2, j, hj, h3⟩ := maxOf_eq N (fun i => scaled i k) (by omega)
  unfold supercellDim
  have := roundEven_eq_of_near (x := maxOf N fun i => scaled i k) (m := (n : ℤ)) (by
    have a := h2 i hi
    have b := hup j hj
    rw [abs_lt]
    push_cast
    exact ⟨by linarith, by rw [h3]; linarith⟩)
  rw [this]; simp

end template

section order
variable {K : Type*} [Field K] [LinearOrder K] [IsStrictOrderedRing K] [FloorRing K]

/-- One entry of the template: the row of `get_positions` the atom belongs to. -/
theorem templateEntry_eq (N nc : ℕ) (sp scaled : ℕ → Fin 3 → K) (n : Fin 3 → ℕ) (hN : N = nc * (n 0 * n 1 * n 2))
    (hup : ∀ k, ∀ i < N, scaled i k < n k + 1 / 2) (hreach : ∀ k, ∃ i < N, n k - 1 / 2 < scaled i k)
    (ε : K) (hε : ε ≤ 1 / 4) (i κ : ℕ) (hκ : κ < nc) (l : Fin 3 → ℕ) (hl : ∀ k, l k < n k) (δ : Fin 3 → K) (hδ : ∀ k, |δ k| < ε)
    (w : Fin 3 → ℤ) (hw : ∀ k, w k = -1 ∨ w k = 0 ∨ w k = 1) (hx : ∀ k, scaled i k = sp κ k + l k + δ k + w k * n k)
    (hlow : ∀ k, -(1 / 2) < scaled i k) (hsp : ∀ k, 0 ≤ sp κ k ∧ sp κ k < 1)
    (hsep : ∀ j < nc, j ≠ κ → ∃ k, ∀ m : ℤ, 3 * ε ≤ |sp κ k - sp j k + m|) :
    templateEntry N nc sp scaled i = ((κ * (n 0 * n 1 * n 2) + (l 0 + n 0 * l 1 + n 0 * n 1 * l 2) : ℕ) : K) := by
  have h1 : supercellDim N scaled = n := funext fun k => supercellDim_eq N scaled k (n k) (hup k) (hreach k)
  have h2 : unitCellIndex nc sp (scaled i) = κ :=
    unitCellIndex_eq nc sp (scaled i) κ hκ ε hε hsp δ (fun k => l k + w k * n k) (fun k => by rw [hx k]; push_cast; ring) hδ hlow hsep
  have h3 : latticePoint n (scaled i) (sp κ) = fun k => (l k : K) + δ k :=
    funext fun k => latticePoint_eq n (scaled i) (sp κ) k (l k) (hl k) (δ k) (lt_of_lt_of_le (hδ k) hε) (w k) (hw k) (hx k)
  have h4 : n 0 * n 1 * n 2 ≤ N := by rw [hN]; exact Nat.le_mul_of_pos_left _ (by omega)
  unfold templateEntry
  simp only [h1, h2, h3]
  rw [latticeIndex_eq N n l hl δ (fun k => lt_of_lt_of_le (hδ k) hε) h4, hN]
  have hnc : (nc : K) ≠ 0 := by exact_mod_cast (by omega : nc ≠ 0)
  push_cast
  field_simp
  ring

/-- **C54**: the frame `reference` is a supercell `n` of the structure with the atoms in any order `σ` (atom `i` of the file is row `σ i` of
`get_positions(supercell)`), displaced by less than `ε` (in units of the cell vectors) and possibly moved by a supercell vector through the periodic boundary. If different
atoms of the unit cell are `3 ε` apart, all coordinates are inside the box within half a cell, and the outermost atom in each direction is in the outer half of the last cell,
the template is `σ`, and reordering any frame with `np.argsort(template)` puts atom `i` in row `σ i`. -/
theorem C54_order_partial {R : Type*} (positions : List (Fin 3 → K)) (cell : Matrix (Fin 3) (Fin 3) K) (hcell : IsUnit cell.det)
    (n : Fin 3 → ℕ) (N : ℕ) (hN : N = (positionsSupercell positions cell [n 0, n 1, n 2]).length)
    (reference : ℕ → Fin 3 → K) (σ : ℕ → ℕ) (hlt : ∀ i < N, σ i < N) (hinj : ∀ i < N, ∀ j < N, σ i = σ j → i = j)
    (δ : ℕ → Fin 3 → K) (w : ℕ → Fin 3 → ℤ)
    (href : ∀ i < N, ∀ r, (positionsSupercell positions cell [n 0, n 1, n 2])[σ i]? = some r →
      ∀ j, reference i j = r j + ∑ k, (δ i k + w i k * n k) * cell k j)
    (ε : K) (hε : ε ≤ 1 / 4) (hδ : ∀ i < N, ∀ k, |δ i k| < ε) (hw : ∀ i < N, ∀ k, w i k = -1 ∨ w i k = 0 ∨ w i k = 1)
    (sp scaled : ℕ → Fin 3 → K) (hspdef : sp = scaledCoordinates cell fun j => positions.getD j 0) (hsdef : scaled = scaledCoordinates cell reference)
    (hsp : ∀ κ < positions.length, ∀ k, 0 ≤ sp κ k ∧ sp κ k < 1)
    (hsep : ∀ κ < positions.length, ∀ j < positions.length, j ≠ κ → ∃ k, ∀ m : ℤ, 3 * ε ≤ |sp κ k - sp j k + m|)
    (hbox : ∀ i < N, ∀ k, -(1 / 2) < scaled i k ∧ scaled i k < n k + 1 / 2) (hreach : ∀ k, ∃ i < N, n k - 1 / 2 < scaled i k) :
    correctArrangement N positions.length sp scaled = (List.range N).map (fun i => (σ i : K)) ∧
    ∀ frame : Frame R, frame.length = N → ∃ f', reorder (some (argsort (correctArrangement N positions.length sp scaled))) frame = some f' ∧
      f'.length = N ∧ ∀ i < N, f'[σ i]? = frame[i]? := by
  have hN' : N = positions.length * (n 0 * n 1 * n 2) := by
    rw [hN, C01_count]; simp [mul_assoc]
  have htemp : (List.range N).map (templateEntry N positions.length sp scaled) = (List.range N).map (fun i => (σ i : K)) := by
    refine List.map_congr_left fun i hi => ?_
    have hi' := List.mem_range.1 hi
    have hrow := C03_row positions cell (n 0) (n 1) (n 2) (σ i) (by rw [← hN]; exact hlt i hi')
    obtain ⟨p, hp, hr⟩ := hrow
    set o := dynaphopyOrder (σ i) (n 0) (n 1) (n 2) with ho
    have hpos : 0 < n 0 * n 1 * n 2 := by
      rcases Nat.eq_zero_or_pos (n 0 * n 1 * n 2) with h | h
      · rw [h, mul_zero] at hN'; omega
      · exact h
    have hn : ∀ k, 0 < n k := by
      intro k
      by_contra h
      have h0 : n k = 0 := by omega
      have : n 0 * n 1 * n 2 = 0 := by fin_cases k <;> simp at h0 <;> simp [h0]
      omega
    have hrange := C03_range (σ i) (n 0) (n 1) (n 2) (hn 0) (hn 1) (hn 2)
    have hκ : o.2.2.2 < positions.length := by
      by_contra h
      rw [List.getElem?_eq_none (by omega)] at hp
      simp at hp
    have hget : positions.getD o.2.2.2 0 = p := by rw [List.getD_eq_getElem?_getD, hp]; rfl
    have hrec := C03_reconstruct (σ i) (n 0) (n 1) (n 2)
    simp only at hrec
    rw [← ho] at hrec hrange
    have hx : ∀ k, scaled i k = sp o.2.2.2 k + ((![o.1, o.2.1, o.2.2.1] : Fin 3 → ℕ) k : K) + δ i k + w i k * n k := by
      have e : reference i = p + Matrix.vecMul (fun k => ((![o.1, o.2.1, o.2.2.1] : Fin 3 → ℕ) k : K) + (δ i k + w i k * n k)) cell := by
        funext j
        rw [href i hi' _ hr j]
        simp only [Pi.add_apply, Matrix.vecMul, dotProduct, Fin.sum_univ_three]
        simp
        ring
      intro k
      rw [hsdef, hspdef]
      simp only [scaledCoordinates]
      rw [e, hget, Matrix.add_vecMul, Matrix.vecMul_vecMul, Matrix.mul_nonsing_inv _ hcell, Matrix.vecMul_one, Pi.add_apply]
      ring
    rw [templateEntry_eq N positions.length sp scaled n hN' (fun k i hi => (hbox i hi k).2) hreach ε hε i o.2.2.2 hκ ![o.1, o.2.1, o.2.2.1]
      (fun k => by fin_cases k <;> simp [hrange]) (δ i) (hδ i hi') (w i) (hw i hi') hx (fun k => (hbox i hi' k).1) (hsp _ hκ) (hsep _ hκ)]
    norm_cast
    rw [hrec]
    rfl
  have hres : correctArrangement N positions.length sp scaled = (List.range N).map (fun i => (σ i : K)) := by
    unfold correctArrangement
    simp only [htemp]
    rw [if_pos]
    refine List.Nodup.map_on ?_ List.nodup_range
    intro x hx y hy hxy
    exact hinj x (List.mem_range.1 hx) y (List.mem_range.1 hy) (by exact_mod_cast hxy)
  refine ⟨hres, fun frame hf => ?_⟩
  rw [hres]
  exact reorder_argsort N σ hlt hinj frame hf

end order

section orderExamples

/-- Two atoms per cell, supercell 2 × 1 × 1, atoms written in the opposite order, one displaced and one moved through the boundary: C54 applies. -/
example : correctArrangement (K := ℚ) 4 2
      (fun j => [![0, 0, 0], ![3 / 4, 3 / 4, 3 / 4]].getD j ![0, 0, 0])
      (fun i => [![7 / 4, 3 / 4, 3 / 4], ![3 / 4 + 1 / 100, 3 / 4, 3 / 4], ![1, 0, 99 / 100], ![1 / 100, 0, 0]].getD i ![0, 0, 0])
    = [3, 2, 1, 0] := by decide +kernel

/-- The hypotheses of `C54_order_partial` for a cubic cell with two atoms, repeated twice, with the four atoms in the opposite order, displaced. -/
example : ∀ frame : Frame ℚ, frame.length = 4 → ∃ f', reorder (some (argsort (correctArrangement 4 2
      (scaledCoordinates 1 fun j => ([![0, 0, 0], ![3 / 4, 3 / 4, 3 / 4]] : List (Fin 3 → ℚ)).getD j 0)
      (scaledCoordinates 1 fun i => ([![7 / 4, 3 / 4, 3 / 4], ![3 / 4 + 1 / 100, 3 / 4, 3 / 4], ![1, 0, 99 / 100], ![1 / 100, 0, 0]] : List (Fin 3 → ℚ)).getD i 0))))
      frame = some f' ∧ f'.length = 4 ∧ ∀ i < 4, f'[3 - i]? = frame[i]? := by
  have hid : ∀ f : ℕ → Fin 3 → ℚ, scaledCoordinates 1 f = f := by intro f; funext i; simp [scaledCoordinates]
  refine (C54_order_partial (positions := [![0, 0, 0], ![3 / 4, 3 / 4, 3 / 4]]) (cell := 1) (by simp) (![2, 1, 1]) 4 (by rw [C01_count]; simp)
    _ (fun i => 3 - i) (by intro i hi; omega) (by intro i hi j hj h; omega)
    (fun i => ([0, ![1 / 100, 0, 0], ![0, 0, -1 / 100], ![1 / 100, 0, 0]] : List (Fin 3 → ℚ)).getD i 0) (fun i => ([0, 0, ![0, 0, 1], 0] : List (Fin 3 → ℤ)).getD i 0) ?_ (1 / 20) (by norm_num) ?_ ?_ _ _ rfl rfl ?_ ?_ ?_ ?_).2
  · intro i hi r hr j
    have : r = ([![7 / 4, 3 / 4, 3 / 4], ![3 / 4, 3 / 4, 3 / 4], ![1, 0, 0], 0] : List (Fin 3 → ℚ)).getD i 0 := by
      have e : positionsSupercell ([![0, 0, 0], ![3 / 4, 3 / 4, 3 / 4]] : List (Fin 3 → ℚ)) 1 [2, 1, 1] =
          [0, ![1, 0, 0], ![3 / 4, 3 / 4, 3 / 4], ![7 / 4, 3 / 4, 3 / 4]] := by decide +kernel
      simp only [Matrix.cons_val_zero, Matrix.cons_val_one, Matrix.cons_val] at hr
      rw [e] at hr
      interval_cases i <;> simp at hr ⊢ <;> exact hr.symm
    subst this
    interval_cases i <;> fin_cases j <;> decide +kernel
  · intro i hi k
    interval_cases i <;> fin_cases k <;> decide +kernel
  · intro i hi k
    interval_cases i <;> fin_cases k <;> decide +kernel
  · rw [hid]; intro i hi k
    simp only [List.length_cons, List.length_nil] at hi
    interval_cases i <;> fin_cases k <;> decide +kernel
  · rw [hid]; intro i hi j hj hne
    simp only [List.length_cons, List.length_nil] at hi hj
    refine ⟨0, fun m => ?_⟩
    interval_cases i <;> interval_cases j <;> first | (exact absurd rfl hne) | skip
    · simp only [List.getD_cons_zero, List.getD_cons_succ, Matrix.cons_val_zero]
      rcases le_or_gt m 0 with h | h
      · have : (m : ℚ) ≤ 0 := by exact_mod_cast h
        rw [abs_of_nonpos (by linarith)]; linarith
      · have : (1 : ℚ) ≤ m := by exact_mod_cast h
        rw [abs_of_nonneg (by linarith)]; linarith
    · simp only [List.getD_cons_zero, List.getD_cons_succ, Matrix.cons_val_zero]
      rcases lt_or_ge m 0 with h | h
      · have : (m : ℚ) ≤ -1 := by exact_mod_cast (by omega : m ≤ -1)
        rw [abs_of_nonpos (by linarith)]; linarith
      · have : (0 : ℚ) ≤ m := by exact_mod_cast h
        rw [abs_of_nonneg (by linarith)]; linarith
  · rw [hid]; intro i hi k
    interval_cases i <;> fin_cases k <;> decide +kernel
  · rw [hid]; intro k
    fin_cases k
    · exact ⟨0, by omega, by decide +kernel⟩
    · exact ⟨0, by omega, by decide +kernel⟩
    · exact ⟨2, by omega, by decide +kernel⟩

/-- **C54 fails without the last hypothesis**: for a structure with one atom at the origin of a cubic cell, a supercell of 2 × 1 × 1 with its two atoms exactly at their lattice positions
but exchanged is not reordered (the number of cells is read as 1, 0, 0 from the largest coordinate and the order is left as it is). -/
theorem C54_violated : ¬ ∀ (positions : List (Fin 3 → ℚ)) (n : Fin 3 → ℕ) (N : ℕ) (_ : N = (positionsSupercell positions 1 [n 0, n 1, n 2]).length)
    (reference : ℕ → Fin 3 → ℚ) (σ : ℕ → ℕ) (_ : ∀ i < N, σ i < N) (_ : ∀ i < N, ∀ j < N, σ i = σ j → i = j)
    (_ : ∀ i < N, (positionsSupercell positions 1 [n 0, n 1, n 2])[σ i]? = some (reference i)),
    correctArrangement N positions.length (fun j => positions.getD j 0) reference = (List.range N).map (fun i => (σ i : ℚ)) := by
  intro h
  have := h [0] ![2, 1, 1] 2 (by rw [C01_count]; simp) (fun i => if i = 0 then ![1, 0, 0] else 0) (fun i => 1 - i) (by intro i hi; omega)
    (by intro i hi j hj h; omega)
    (by intro i hi
        have e : positionsSupercell ([0] : List (Fin 3 → ℚ)) 1 [(![2, 1, 1] : Fin 3 → ℕ) 0, (![2, 1, 1] : Fin 3 → ℕ) 1, (![2, 1, 1] : Fin 3 → ℕ) 2] = [0, ![1, 0, 0]] := by decide +kernel
        rw [e]
        interval_cases i <;> rfl)
  revert this
  decide +kernel

end orderExamples

end Verif
