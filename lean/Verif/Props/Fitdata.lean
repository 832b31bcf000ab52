import Verif.Model.Fitdata
import Mathlib.Tactic.FieldSimp
import Mathlib.Tactic.Ring
import Mathlib.Tactic.Linarith
import Mathlib.Algebra.Order.Field.Rat
import Mathlib.Data.Rat.Floor
import Mathlib.Tactic.NormNum

/-! # C69, C84: fitdata -/

set_option autoImplicit false
set_option linter.unusedSectionVars false

namespace Verif

/-! ## C69 -/

section
variable {K : Type*} [Field K]

theorem mapM_eq_some_iff {α β : Type*} (f : α → Option β) : ∀ (l : List α) (r : List β), l.mapM f = some r ↔ List.Forall₂ (fun a b => f a = some b) l r
  | [], r => by simp [eq_comm]
  | a :: l, r => by
    rw [List.mapM_cons]
    constructor
    · intro h
      obtain ⟨b, hb, h⟩ := Option.bind_eq_some_iff.1 h
      obtain ⟨bs, hbs, h⟩ := Option.bind_eq_some_iff.1 h
      have h' : b :: bs = r := by simpa using h
      rw [← h']
      exact List.Forall₂.cons hb ((mapM_eq_some_iff f l bs).1 hbs)
    · rintro (_ | ⟨hb, hbs⟩)
      rename_i b bs
      rw [hb, (mapM_eq_some_iff f l bs).2 hbs]
      rfl

/-- `v` is the average of the columns `group` of `row`. -/
def IsAverage (group : List ℕ) (row : List K) (v : K) : Prop := ∃ vs : List K, List.Forall₂ (fun c x => row[c]? = some x) group vs ∧ v = vs.sum / group.length

/-- **C69**, the part that holds: if groups are given (`-bi`), each curve has one value per row of the file, the average of the columns of its group. -/
theorem C69_groups_partial (g : List (List ℕ)) (rows : List (List K)) (curves : List (List K)) (h : fitdataCurves (some g) rows = some curves) :
    List.Forall₂ (fun group curve => List.Forall₂ (IsAverage group) rows curve) g curves := by
  unfold fitdataCurves fitdataGroups fitdataRows at h
  rw [mapM_eq_some_iff] at h
  refine h.imp fun group curve hc => ?_
  unfold fitdataColumn at hc
  rw [mapM_eq_some_iff] at hc
  refine hc.imp fun row v hv => ?_
  obtain ⟨vs, hvs, rfl⟩ := Option.map_eq_some_iff.1 hv
  refine ⟨vs, (mapM_eq_some_iff _ _ _).1 hvs, ?_⟩
  generalize (group.length : K) = n
  clear hvs hv
  induction vs with
  | nil => simp
  | cons v vs ih => rw [List.map_cons, List.sum_cons, ih, List.sum_cons, add_div]

/-- C69 is violated without `-bi`: for every file, the first row is not analysed: each curve has one value less than there are rows. -/
theorem C69_first_row_violated (first : List K) (rows : List (List K)) (curves : List (List K)) (h : fitdataCurves none (first :: rows) = some curves) :
    List.Forall₂ (fun c curve => List.Forall₂ (fun row v => row[c]? = some v) rows curve) (List.range' 1 (first.length - 1)) curves := by
  unfold fitdataCurves fitdataGroups fitdataRows at h
  simp only [List.headD_cons, List.tail_cons] at h
  rw [mapM_eq_some_iff, List.forall₂_map_left_iff] at h
  refine h.imp fun c curve hc => ?_
  unfold fitdataColumn at hc
  rw [mapM_eq_some_iff] at hc
  refine hc.imp fun row v hv => ?_
  obtain ⟨vs, hvs, rfl⟩ := Option.map_eq_some_iff.1 hv
  rw [mapM_eq_some_iff] at hvs
  cases hvs with
  | cons h1 h2 =>
    cases h2
    rw [h1]; simp

example : fitdataCurves (none : Option (List (List ℕ))) [[0, 1, 2], [1, 3, 5], [2, 4, 6]] = some [[(3 : ℚ), 4], [5, 6]] := by decide +kernel
example : fitdataCurves (some [[1, 2]]) [[0, 1, 2], [1, 3, 5], [2, 4, 6]] = some [[(3 / 2 : ℚ), 4, 5]] := by decide +kernel

end

/-! ## C84 -/

section loess
variable {K : Type*} [Field K] [LinearOrder K] [IsStrictOrderedRing K] [FloorRing K]

/-- **C84**: smoothing keeps straight lines: if the data are `y = c0 + c1 x` then, wherever a smoothed value is computed, it is `c0 + c1 xi`. For all data and smoothing factors. -/
theorem C84_line (x : List K) (c0 c1 f xi v : K) (h : loessAt x (x.map fun t => c0 + c1 * t) f xi = some v) : v = c0 + c1 * xi := by
  unfold loessAt at h
  obtain ⟨hh, -, h⟩ := Option.bind_eq_some_iff.1 h
  simp only at h
  set pts := (x.zip (x.map fun t => c0 + c1 * t)).map fun p => (loessWeight x hh xi p.1, p.1, p.2) with hpts
  by_cases hd' : hh = 0 ∨ (loessA pts).det = 0
  · rw [if_pos hd'] at h; simp at h
  · rw [if_neg hd'] at h
    have hd : (loessA pts).det ≠ 0 := fun e => hd' (Or.inr e)
    have hline : ∀ p ∈ pts, p.2.2 = c0 + c1 * p.2.1 := by
      intro p hp
      rw [hpts] at hp
      obtain ⟨q, hq, rfl⟩ := List.mem_map.1 hp
      rw [List.zip_map_right, List.mem_map] at hq
      obtain ⟨r, hr, rfl⟩ := hq
      have : r.1 = r.2 := by
        rw [List.mem_iff_getElem?] at hr
        obtain ⟨i, hi⟩ := hr
        rw [List.getElem?_zip_eq_some] at hi
        exact Option.some.inj (hi.1.symm.trans hi.2)
      simp [this]
    have hb : loessB pts = (loessA pts).mulVec ![c0, c1] := by
      clear_value pts
      clear hd hd' h hpts
      have key : ∀ pts : List (K × K × K), (∀ p ∈ pts, p.2.2 = c0 + c1 * p.2.1) →
          (pts.map fun p => p.1 * p.2.2).sum = (pts.map fun p => p.1).sum * c0 + (pts.map fun p => p.1 * p.2.1).sum * c1 ∧
          (pts.map fun p => p.1 * p.2.2 * p.2.1).sum = (pts.map fun p => p.1 * p.2.1).sum * c0 + (pts.map fun p => p.1 * p.2.1 * p.2.1).sum * c1 := by
        intro pts
        induction pts with
        | nil => simp
        | cons p t ih =>
          intro hp
          obtain ⟨i1, i2⟩ := ih fun q hq => hp q (List.mem_cons_of_mem _ hq)
          have := hp p List.mem_cons_self
          simp only [List.map_cons, List.sum_cons, i1, i2, this]
          constructor <;> ring
      obtain ⟨k1, k2⟩ := key pts hline
      unfold loessB loessA
      rw [k1, k2]
      funext i
      fin_cases i <;> simp [Matrix.mulVec, dotProduct, Fin.sum_univ_two]
    rw [hb, Matrix.mulVec_mulVec, Matrix.nonsing_inv_mul _ (isUnit_iff_ne_zero.2 hd), Matrix.one_mulVec] at h
    have := Option.some.inj h
    rw [← this]
    simp

/-- **C84**, locality: the smoothed value at `xi` depends only on the samples closer to `xi` than the window `h`: for every data set of samples `(x, y)`, replacing `y` by `y'` at samples with `|x - xi| ≥ h`
(on either side) changes nothing. -/
theorem C84_local (pts : List (K × K × K)) (f xi h : K) (hh : loessH (pts.map (·.1)) f xi = some h) (hpos : 0 < h) (agree : ∀ p ∈ pts, |p.1 - xi| < h → p.2.1 = p.2.2) :
    loessAt (pts.map (·.1)) (pts.map (·.2.1)) f xi = loessAt (pts.map (·.1)) (pts.map (·.2.2)) f xi := by
  unfold loessAt
  rw [hh]
  simp only [Option.bind_some]
  have hw : ∀ p ∈ pts, ∀ x : List K, loessWeight x h xi p.1 * p.2.1 = loessWeight x h xi p.1 * p.2.2 := by
    intro p hp x
    by_cases hlt : |p.1 - xi| < h
    · rw [agree p hp hlt]
    · have : loessWeight x h xi p.1 = 0 := by
        unfold loessWeight
        have h1 : 1 ≤ |(p.1 - xi) / h| := by
          rw [abs_div, abs_of_pos hpos, le_div_iff₀ hpos, one_mul]; exact not_lt.1 hlt
        rw [min_eq_left h1, max_eq_right zero_le_one]
        ring
      rw [this, zero_mul, zero_mul]
  have hz : ∀ g : K × K × K → K, (pts.map (·.1)).zip (pts.map g) = pts.map fun p => (p.1, g p) := by
    intro g; rw [List.zip_map']
  rw [hz, hz]
  simp only [List.map_map, loessA, loessB, Function.comp_def]
  have e1 : (pts.map fun p => loessWeight (pts.map (·.1)) h xi p.1 * p.2.1) = pts.map fun p => loessWeight (pts.map (·.1)) h xi p.1 * p.2.2 :=
    List.map_congr_left fun p hp => hw p hp _
  have e2 : (pts.map fun p => loessWeight (pts.map (·.1)) h xi p.1 * p.2.1 * p.1) = pts.map fun p => loessWeight (pts.map (·.1)) h xi p.1 * p.2.2 * p.1 :=
    List.map_congr_left fun p hp => by rw [hw p hp _]
  rw [e1, e2]

/-- A data set for `C84_local`: at `xi = 2` with the window `h = 2` the value at `x = 0` and the value at `x = 4` are irrelevant. -/
example : loessH ([(0, 5, 7), (1, 1, 1), (2, 3, 3), (3, 2, 2), (4, 0, 9)].map fun p : ℚ × ℚ × ℚ => p.1) (1 / 2) 2 = some 2 ∧
    ∀ p ∈ ([(0, 5, 7), (1, 1, 1), (2, 3, 3), (3, 2, 2), (4, 0, 9)] : List (ℚ × ℚ × ℚ)), |p.1 - 2| < 2 → p.2.1 = p.2.2 := by
  decide +kernel

/-- **C84** (window): the window at `xi` exists if and only if `r = ⌈f n⌉` is less than the number `n` of samples; it is then the distance from `xi` to a sample, at most `r` samples are closer, and more than `r` are at this distance or closer. -/
theorem C84_window (x : List K) (f xi : K) :
    ((loessH x f xi).isSome ↔ ⌈f * (x.length : K)⌉.toNat < x.length) ∧
    ∀ h, loessH x f xi = some h → (∃ xj ∈ x, h = |xj - xi|) ∧ (x.filter fun xj => |xj - xi| < h).length ≤ ⌈f * (x.length : K)⌉.toNat ∧ ⌈f * (x.length : K)⌉.toNat < (x.filter fun xj => |xj - xi| ≤ h).length := by
  constructor
  · unfold loessH
    constructor
    · intro h
      obtain ⟨v, hv⟩ := Option.isSome_iff_exists.1 h
      simpa using (List.getElem?_eq_some_iff.1 hv).1
    · intro h
      rw [List.getElem?_eq_getElem (by simpa using h)]
      rfl
  · intro h hh
    unfold loessH at hh
    set r := ⌈f * (x.length : K)⌉.toNat
    set ds := x.map fun xj => |xj - xi| with hds
    set l := ds.insertionSort (· ≤ ·) with hl
    have hperm : l.Perm ds := List.perm_insertionSort _ _
    have hsort : l.Pairwise (· ≤ ·) := List.pairwise_insertionSort _ _
    obtain ⟨hr, hget⟩ := List.getElem?_eq_some_iff.1 hh
    have hcount : ∀ P : K → Bool, (x.filter fun xj => P |xj - xi|).length = (l.filter P).length := by
      intro P
      rw [(hperm.filter P).length_eq, hds, List.filter_map, List.length_map]
      rfl
    refine ⟨?_, ?_, ?_⟩
    · have hm : h ∈ ds := hperm.mem_iff.1 (List.mem_of_getElem? hh)
      obtain ⟨xj, hx, rfl⟩ := List.mem_map.1 hm
      exact ⟨xj, hx, rfl⟩
    · rw [hcount fun d => decide (d < h)]
      have hsplit : l = l.take r ++ l.drop r := (List.take_append_drop r l).symm
      rw [hsplit, List.filter_append, List.length_append]
      have h0 : (l.drop r).filter (fun d => decide (d < h)) = [] := by
        rw [List.filter_eq_nil_iff]
        intro d hd
        rw [List.drop_eq_getElem_cons hr, hget, List.mem_cons] at hd
        have hs' : (l.drop r).Pairwise (· ≤ ·) := hsort.sublist (List.drop_sublist _ _)
        rw [List.drop_eq_getElem_cons hr, hget, List.pairwise_cons] at hs'
        rcases hd with rfl | hd
        · simp
        · simpa using hs'.1 d hd
      rw [h0, List.length_nil, Nat.add_zero]
      exact (List.length_filter_le _ _).trans (by simp)
    · rw [hcount fun d => decide (d ≤ h)]
      have hsplit : l = l.take (r + 1) ++ l.drop (r + 1) := (List.take_append_drop _ l).symm
      have h0 : (l.take (r + 1)).filter (fun d => decide (d ≤ h)) = l.take (r + 1) := by
        rw [List.filter_eq_self]
        intro d hd
        have hs' : (l.take r ++ l.drop r).Pairwise (· ≤ ·) := by rw [List.take_append_drop]; exact hsort
        rw [List.take_add_one, List.getElem?_eq_getElem hr, hget] at hd
        rcases List.mem_append.1 hd with hd | hd
        · have := (List.pairwise_append.1 hs').2.2 d hd h (by rw [List.drop_eq_getElem_cons hr, hget]; simp)
          simpa using this
        · simp at hd
          simp [hd]
      have hle : (l.take (r + 1)).length ≤ (l.filter fun d => decide (d ≤ h)).length := by
        conv_rhs => rw [hsplit, List.filter_append, List.length_append, h0]
        exact Nat.le_add_right _ _
      rw [List.length_take] at hle
      omega

/-- The smoothing fails (IndexError) for every data set and point if the factor is one or more. -/
theorem C84_undefined (x y : List K) (f xi : K) (hf : 1 ≤ f) : loessAt x y f xi = none := by
  have : loessH x f xi = none := by
    unfold loessH
    rw [List.getElem?_eq_none]
    rw [List.length_insertionSort, List.length_map]
    have h1 : (x.length : K) ≤ f * (x.length : K) := by
      have : (0 : K) ≤ (x.length : K) := Nat.cast_nonneg _
      nlinarith
    have h2 : (x.length : ℤ) ≤ ⌈f * (x.length : K)⌉ := by
      have : ((x.length : ℤ) : K) ≤ f * (x.length : K) := by exact_mod_cast h1
      exact_mod_cast this.trans (Int.le_ceil _)
    omega
  unfold loessAt
  rw [this]
  rfl

/-- The bandwidth exists, and the matrix is not singular, for the points 0, 1, 2, 3 and factor 3/4 at 1. -/
example : loessH [(0 : ℚ), 1, 2, 3] (3 / 4) 1 = some 2 ∧
    (loessA (([(0 : ℚ), 1, 2, 3].zip [5, 7, 9, 11]).map fun p => (loessWeight [0, 1, 2, 3] 2 1 p.1, p.1, p.2))).det ≠ 0 := by
  refine ⟨by decide +kernel, ?_⟩
  rw [Matrix.det_fin_two]
  decide +kernel

end loess

end Verif
