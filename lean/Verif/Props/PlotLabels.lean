import Verif.Model.PlotLabels
import Verif.Props.AtomTypes
import Mathlib.Tactic

/-! # C109, C110: texts and axes of the plots, files of the projections -/

set_option autoImplicit false
set_option linter.unusedSectionVars false

namespace Verif

/-! ## C109 -/

theorem replaceList_cons (c : Char) (t : List Char) (h : ∀ u, c :: t ≠ 'G' :: 'A' :: 'M' :: 'M' :: 'A' :: u) : replaceList (c :: t) = c :: replaceList t := by
  rw [replaceList]
  rintro u rfl rfl
  exact h u rfl

theorem replaceList_gamma (t : List Char) : replaceList ('G' :: 'A' :: 'M' :: 'M' :: 'A' :: t) = gammaText ++ replaceList t := by
  rw [replaceList]

/-- C109: a name without `GAMMA` in it is shown as it is. -/
theorem C109_plain : ∀ l : List Char, ¬ ['G', 'A', 'M', 'M', 'A'] <:+: l → replaceList l = l
  | [], _ => by simp [replaceList]
  | c :: t, h => by
    rw [replaceList_cons c t (fun u hu => h ⟨[], u, by rw [hu]; rfl⟩), C109_plain t fun h' => h (h'.trans (List.suffix_cons c t).isInfix)]

/-- C109: `GAMMA` is shown as the Greek letter, wherever it is. -/
theorem C109_gamma (a b : List Char) : replaceList (a ++ ['G', 'A', 'M', 'M', 'A'] ++ b) = replaceList a ++ ['$', '\\', 'G', 'a', 'm', 'm', 'a', '$'] ++ replaceList b := by
  induction a using replaceList.induct with
  | case1 t ih =>
    have : 'G' :: 'A' :: 'M' :: 'M' :: 'A' :: t ++ ['G', 'A', 'M', 'M', 'A'] ++ b = 'G' :: 'A' :: 'M' :: 'M' :: 'A' :: (t ++ ['G', 'A', 'M', 'M', 'A'] ++ b) := by simp
    rw [this, replaceList_gamma, replaceList_gamma, ih]
    simp
  | case2 c t h ih =>
    have hc : c :: t ++ ['G', 'A', 'M', 'M', 'A'] ++ b = c :: (t ++ ['G', 'A', 'M', 'M', 'A'] ++ b) := by simp
    rw [hc, replaceList_cons, ih, replaceList_cons]
    · simp
    · intro u hu
      simp only [List.cons.injEq] at hu
      exact h u hu.1 hu.2
    · intro u hu
      simp only [List.cons.injEq] at hu
      obtain ⟨h1, h2⟩ := hu
      rcases t with _ | ⟨c1, _ | ⟨c2, _ | ⟨c3, _ | ⟨c4, t⟩⟩⟩⟩
      · simp at h2
      · simp at h2
      · simp at h2
      · simp at h2
      · simp only [List.cons_append, List.cons.injEq] at h2
        obtain ⟨rfl, rfl, rfl, rfl, -⟩ := h2
        exact h t h1 rfl
  | case3 =>
    simp only [List.nil_append, List.cons_append]
    rw [replaceList_gamma]
    simp [gammaText, replaceList]

variable {K : Type}

theorem mapM_option_range {β : Type*} (n : ℕ) (g : ℕ → Option β) (r : ℕ → β) (h : ∀ i, i < n → g i = some (r i)) :
    (List.range n).mapM g = some ((List.range n).map r) := by
  have : ∀ l : List ℕ, (∀ i ∈ l, i < n) → l.mapM g = some (l.map r) := by
    intro l
    induction l with
    | nil => intro _; rfl
    | cons a l ih =>
      intro hl
      rw [List.mapM_cons, h a (hl a (by simp)), ih fun i hi => hl i (by simp [hi])]
      rfl
  exact this _ fun i hi => List.mem_range.1 hi

/-- C109: the ticks of the dispersion plots. With one pair of names for each segment there is a tick at the start of every segment and at the end of the last
one; the outer ticks show the first and the last name, an inner tick the names of the end of the segment before and of the start of the segment after it,
separated by a slash, or just one of them if they are equal. -/
theorem C109_ticks [Inhabited K] (labels : List (List Char × List Char)) (bands : List (List K)) (hl : labels.length = bands.length) (hn : bands ≠ []) (hb : ∀ xs ∈ bands, xs ≠ []) :
    ∃ xs ts, bandTicks labels bands = some (xs, ts) ∧ xs.length = bands.length + 1 ∧ ts.length = bands.length + 1 ∧
      (∀ (k : ℕ) seg, bands[k]? = some seg → xs[k]? = seg.head?) ∧
      (∀ seg, bands.getLast? = some seg → xs[bands.length]? = seg.getLast?) ∧
      (∀ l, labels.head? = some l → ts[0]? = some (replaceList l.1)) ∧
      (∀ l, labels.getLast? = some l → ts[bands.length]? = some (replaceList l.2)) ∧
      ∀ (k : ℕ) before after, 0 < k → labels[k - 1]? = some before → labels[k]? = some after →
        ts[k]? = some (if before.2 = after.1 then replaceList after.1 else replaceList before.2 ++ '/' :: replaceList after.1) := by
  have hpos : 0 < bands.length := List.length_pos_iff.2 hn
  have hlne : labels ≠ [] := by rw [← List.length_pos_iff]; omega
  obtain ⟨lastBand, hlast⟩ : ∃ b, bands.getLast? = some b := by
    rw [List.getLast?_eq_some_getLast hn]; exact ⟨_, rfl⟩
  have hlne' : lastBand ≠ [] := hb _ (List.mem_of_getLast? hlast)
  obtain ⟨f, hf⟩ : ∃ f, labels.head? = some f := by
    rw [List.head?_eq_some_head hlne]; exact ⟨_, rfl⟩
  obtain ⟨l, hll⟩ : ∃ l, labels.getLast? = some l := by
    rw [List.getLast?_eq_some_getLast hlne]; exact ⟨_, rfl⟩
  let prev : ℕ → List Char × List Char := fun i => if i = 0 then l else labels.getD (i - 1) ([], [])
  let row : ℕ → K × List Char := fun i => ((bands.getD i []).headD default,
    if (labels.getD i ([], [])).1 = (prev i).2 then replaceList (labels.getD i ([], [])).1
    else replaceList (prev i).2 ++ ['/'] ++ replaceList (labels.getD i ([], [])).1)
  have hrows : (List.range bands.length).mapM (fun (i : ℕ) => do
      let a : List Char × List Char ← labels[i]?
      let b : List Char × List Char ← (if i = 0 then labels.getLast? else labels[i - 1]?)
      let xs : List K ← bands[i]?
      let x : K ← xs.head?
      some (x, if a.1 = b.2 then replaceList a.1 else replaceList b.2 ++ ['/'] ++ replaceList a.1)) = some ((List.range bands.length).map row) := by
    apply mapM_option_range
    intro i hi
    have e1 : labels[i]? = some (labels.getD i ([], [])) := by
      rw [List.getD_eq_getElem?_getD, List.getElem?_eq_getElem (by omega)]; rfl
    have e2 : (if i = 0 then labels.getLast? else labels[i - 1]?) = some (prev i) := by
      by_cases h0 : i = 0
      · simp only [prev, h0, if_true, hll]
      · simp only [prev, if_neg h0]
        rw [List.getD_eq_getElem?_getD, List.getElem?_eq_getElem (by omega)]; rfl
    have e3 : bands[i]? = some (bands.getD i []) := by
      rw [List.getD_eq_getElem?_getD, List.getElem?_eq_getElem (by omega)]; rfl
    have e4 : (bands.getD i []).head? = some ((bands.getD i []).headD default) := by
      have : bands.getD i [] ≠ [] := hb _ (List.mem_of_getElem? e3)
      rw [List.headD_eq_head?_getD, List.head?_eq_some_head this]; rfl
    rw [e1, e2, e3]
    simp only [bind, Option.bind, e4]
    rfl
  refine ⟨((List.range bands.length).map row).map Prod.fst ++ [lastBand.getLast hlne'],
    (((List.range bands.length).map row).map Prod.snd ++ [replaceList l.2]).set 0 (replaceList f.1), ?_, by simp, by simp, ?_, ?_, ?_, ?_, ?_⟩
  · unfold bandTicks
    rw [hrows, hlast, hll, hf]
    simp only [bind, Option.bind, List.getLast?_eq_some_getLast hlne']
  · intro k seg hk
    have hkl : k < bands.length := (List.getElem?_eq_some_iff.1 hk).1
    rw [List.getElem?_append_left (by simpa using hkl), List.map_map, List.getElem?_map, List.getElem?_range hkl]
    have hne : seg ≠ [] := hb _ (List.mem_of_getElem? hk)
    simp only [Option.map_some, Function.comp_apply, row]
    rw [List.getD_eq_getElem?_getD, hk, Option.getD_some, List.headD_eq_head?_getD, List.head?_eq_some_head hne]
    rfl
  · intro seg hseg
    rw [hlast, Option.some.injEq] at hseg
    subst hseg
    rw [List.getElem?_append_right (by simp)]
    simp [List.getLast?_eq_some_getLast hlne']
  · intro l' hl'
    rw [hf, Option.some.injEq] at hl'
    subst hl'
    simp
  · intro l' hl'
    rw [hll, Option.some.injEq] at hl'
    subst hl'
    rw [List.getElem?_set_ne (by omega), List.getElem?_append_right (by simp)]
    simp
  · intro k before after h0 h1 h2
    have hkl : k < bands.length := by rw [← hl]; exact (List.getElem?_eq_some_iff.1 h2).1
    rw [List.getElem?_set_ne (by omega), List.getElem?_append_left (by simpa using hkl), List.map_map, List.getElem?_map, List.getElem?_range hkl]
    simp only [Option.map_some, Function.comp_apply, row, prev, if_neg (by omega : k ≠ 0), Option.some.injEq]
    simp only [List.getD_eq_getElem?_getD, h1, h2, Option.getD_some]
    by_cases he : before.2 = after.1
    · rw [if_pos he, if_pos he.symm]
    · rw [if_neg he, if_neg (Ne.symm he)]
      simp

/-- C109: with fewer names than segments the plot fails instead of showing wrong names. -/
theorem C109_missing (labels : List (List Char × List Char)) (bands : List (List K)) (h : labels.length < bands.length) : bandTicks labels bands = none := by
  unfold bandTicks
  have : ∀ (g : ℕ → Option (K × List Char)), g labels.length = none → (List.range bands.length).mapM g = none := by
    intro g hg
    have : ∀ l : List ℕ, labels.length ∈ l → l.mapM g = none := by
      intro l
      induction l with
      | nil => simp
      | cons a l ih =>
        intro hm
        rw [List.mapM_cons]
        rcases List.mem_cons.1 hm with rfl | hm
        · rw [hg]; rfl
        · rw [ih hm]
          cases g a <;> rfl
    exact this _ (List.mem_range.2 h)
  rw [this _ (by simp)]
  rfl

/-- Example: a path with a jump, `GAMMA`-`X`, `X`-`W`, `K`-`GAMMA`. -/
example : bandTicks [("GAMMA".toList, "X".toList), ("X".toList, "W".toList), ("K".toList, "GAMMA".toList)] [[(0 : ℚ), 1 / 2, 1], [1, 3 / 2], [3 / 2, 2, 3]] =
    some ([0, 1, 3 / 2, 3], ["$\\Gamma$".toList, "X".toList, "W/K".toList, "$\\Gamma$".toList]) := by decide +kernel

theorem npUnique_dense (types : List ℕ) (T : ℕ) (h : ∀ v, v ∈ types ↔ v < T) : (npUnique types).2 = (List.range T).map fun a => types.idxOf a := by
  unfold npUnique
  simp only
  congr 1
  apply List.Perm.eq_of_pairwise (le := (· ≤ ·)) (fun a b _ _ h1 h2 => le_antisymm h1 h2)
  · exact List.pairwise_insertionSort _ _
  · exact List.pairwise_le_range
  · refine (List.perm_insertionSort _ _).trans ?_
    rw [List.perm_ext_iff_of_nodup (List.nodup_dedup _) List.nodup_range]
    intro a
    rw [List.mem_dedup, h, List.mem_range]

/-- C109: the element printed for a projection onto an atom type is that of the first atom of this type, so that of all its atoms if the atoms of a type have the
same element; a type that does not exist is an error; nothing is printed without projection (-1). -/
theorem C109_element {α : Type*} (elements : List α) (same : ℕ → ℕ → Bool) (n : ℕ) (hn : elements.length = n)
    (helem : ∀ (i j : ℕ), (typeLabels same n)[i]? = (typeLabels same n)[j]? → elements[i]? = elements[j]?) (i : ℕ) (t : ℕ)
    (ht : (typeLabels same n)[i]? = some t) : projectedElement elements (typeLabels same n) t = some (elements[i]?) ∧
      (∀ u : ℕ, (typeLabels same n).toFinset.card ≤ u → projectedElement elements (typeLabels same n) u = some none) ∧
      ∀ u : ℤ, u < 0 → projectedElement elements (typeLabels same n) u = none := by
  have hlab := C06_labels same n
  have hlen : (typeLabels same n).length = n := by simp [typeLabels]
  have hval : ∀ u : ℕ, projectedElement elements (typeLabels same n) u =
      some (if u < (typeLabels same n).toFinset.card then elements[(typeLabels same n).idxOf u]? else none) := by
    intro u
    unfold projectedElement uniqueElements
    rw [if_pos (by omega), npUnique_dense _ _ hlab, Int.toNat_natCast]
    congr 1
    unfold fancy
    have : ∀ (l : List ℕ), (∀ a ∈ l, a < elements.length) → ∀ k : ℕ, (l.filterMap fun i => elements[i]?)[k]? = l[k]?.bind fun i => elements[i]? := by
      intro l
      induction l with
      | nil => intro _ k; simp
      | cons a l ih =>
        intro hl k
        have ha : a < elements.length := hl a (by simp)
        rw [List.filterMap_cons, List.getElem?_eq_getElem ha]
        simp only
        cases k with
        | zero => simp [List.getElem?_eq_getElem ha]
        | succ k => simpa using ih (fun b hb => hl b (by simp [hb])) k
    rw [this]
    · rw [List.getElem?_map]
      by_cases hu : u < (typeLabels same n).toFinset.card
      · rw [List.getElem?_range hu, if_pos hu]; rfl
      · rw [if_neg hu, List.getElem?_eq_none (by simp; omega)]; rfl
    · intro a ha
      obtain ⟨b, hb, rfl⟩ := List.mem_map.1 ha
      exact (List.idxOf_lt_length_of_mem ((hlab b).2 (List.mem_range.1 hb))).trans_eq (hlen.trans hn.symm)
  refine ⟨?_, ?_, ?_⟩
  · have hmem : t ∈ typeLabels same n := List.mem_of_getElem? ht
    rw [hval, if_pos ((hlab t).1 hmem)]
    congr 1
    apply helem
    rw [ht, List.getElem?_eq_getElem (List.idxOf_lt_length_of_mem hmem), List.getElem_idxOf]
  · intro u hu
    rw [hval, if_neg (by omega)]
  · intro u hu
    unfold projectedElement
    rw [if_neg (by omega)]

/-- Example: rock salt with two atoms of each element. -/
example : typeLabels (fun i j => i % 2 == j % 2) 4 = [0, 1, 0, 1] ∧
    projectedElement ["Na", "Cl", "Na", "Cl"] [0, 1, 0, 1] 1 = some (some "Cl") ∧ projectedElement ["Na", "Cl", "Na", "Cl"] [0, 1, 0, 1] 2 = some none ∧
    projectedElement ["Na", "Cl", "Na", "Cl"] [0, 1, 0, 1] (-1) = none := by decide +kernel

/-! ## C110 -/

/-- C110, violated for every number of steps from 2 on: the points of the plots are not drawn at the times of the steps (the interval `n dt` is divided in `n - 1`
parts); the last one is a whole time step late. -/
theorem C110_times_violated {K : Type*} [Field K] [CharZero K] (n : ℕ) (hn : 2 ≤ n) (dt : K) (hdt : dt ≠ 0) :
    (∀ i : ℕ, 0 < i → i < n → (projectionTimes n dt)[i]? ≠ some ((i : K) * dt)) ∧ (projectionTimes n dt)[n - 1]? = some (((n - 1 : ℕ) : K) * dt + dt) := by
  have hn1 : ((n - 1 : ℕ) : K) ≠ 0 := by exact_mod_cast (by omega : n - 1 ≠ 0)
  have hnc : (n : K) = ((n - 1 : ℕ) : K) + 1 := by
    have : n = (n - 1) + 1 := by omega
    exact_mod_cast this
  have hget : ∀ i, i < n → (projectionTimes n dt)[i]? = some ((i : K) * ((n : K) * dt / ((n - 1 : ℕ) : K))) := by
    intro i hi
    unfold projectionTimes linspaceZero
    rw [List.getElem?_map, List.getElem?_range hi]
    rfl
  constructor
  · intro i h0 hi h
    rw [hget i hi, Option.some.injEq] at h
    have hi0 : (i : K) ≠ 0 := by exact_mod_cast h0.ne'
    have h2 := mul_left_cancel₀ hi0 h
    rw [div_eq_iff hn1, hnc] at h2
    apply hdt
    linear_combination h2
  · rw [hget _ (by omega)]
    congr 1
    rw [hnc]
    field_simp

/-- C110: apart from the times, the curves of `plot_vc` are the chosen components in the order of the steps, one for each chosen atom and coordinate. -/
theorem C110_curves {K : Type*} [Field K] (vc : List (List (List K))) (dt : K) (atoms coordinates : List ℕ) (hc : coordinates ≠ []) (ha : atoms ≠ [])
    (curves : List ((ℕ × ℕ) × List (K × K))) (h : plotVcCurves vc dt atoms coordinates = some curves) :
    curves.map Prod.fst = atoms.flatMap (fun a => coordinates.map fun c => (a, c)) ∧
      ∀ a c pts, ((a, c), pts) ∈ curves → ∀ (t : ℕ) frame, vc[t]? = some frame → ∃ row y, frame[a]? = some row ∧ row[c]? = some y ∧ (pts[t]?).map Prod.snd = some y := by
  unfold plotVcCurves at h
  simp only [if_neg ha, if_neg hc] at h
  revert h
  generalize atoms.flatMap (fun a => coordinates.map fun c => (a, c)) = sel
  induction sel generalizing curves with
  | nil =>
    intro h
    simp at h
    subst h
    simp
  | cons ac sel ih =>
    intro h
    rw [List.mapM_cons] at h
    simp only [bind, Option.bind_eq_some_iff] at h
    obtain ⟨b, ⟨ys, hys, hb⟩, l, hl, hcur⟩ := h
    simp only [pure, Option.some.injEq] at hb hcur
    subst hb hcur
    obtain ⟨ih1, ih2⟩ := ih l hl
    refine ⟨by simp [ih1], ?_⟩
    intro a c pts hm t frame hf
    rcases List.mem_cons.1 hm with heq | hm
    · simp only [Prod.mk.injEq] at heq
      obtain ⟨rfl, rfl⟩ := heq
      have key : ∀ (l : List (List (List K))) (ys : List K), l.mapM (fun (frame : List (List K)) => (frame[a]?).bind fun row => row[c]?) = some ys →
          ys.length = l.length ∧ ∀ (t : ℕ) frame, l[t]? = some frame → ∃ row y, frame[a]? = some row ∧ row[c]? = some y ∧ ys[t]? = some y := by
        intro l
        induction l with
        | nil => intro ys hys; simp at hys; subst hys; simp
        | cons fr l ih' =>
          intro ys hys
          rw [List.mapM_cons] at hys
          simp only [bind, Option.bind_eq_some_iff] at hys
          obtain ⟨y, ⟨row, hrow, hy⟩, ys', hys', e⟩ := hys
          simp only [pure, Option.some.injEq] at e
          subst e
          obtain ⟨k1, k2⟩ := ih' ys' hys'
          refine ⟨by simp [k1], ?_⟩
          intro t frame hf
          cases t with
          | zero => simp only [List.getElem?_cons_zero, Option.some.injEq] at hf; subst hf; exact ⟨row, y, hrow, hy, rfl⟩
          | succ t => simpa using k2 t frame (by simpa using hf)
      obtain ⟨k1, k2⟩ := key vc ys hys
      obtain ⟨row, y, e1, e2, e3⟩ := k2 t frame hf
      refine ⟨row, y, e1, e2, ?_⟩
      have ht : t < vc.length := (List.getElem?_eq_some_iff.1 hf).1
      have htime : t < (projectionTimes vc.length dt).length := by simpa [projectionTimes, linspaceZero] using ht
      have hz : ((projectionTimes vc.length dt).zip ys)[t]? = some ((projectionTimes vc.length dt)[t], y) :=
        List.getElem?_zip_eq_some.2 ⟨List.getElem?_eq_getElem htime, e3⟩
      rw [hz]
      rfl
    · exact ih2 a c pts hm t frame hf

/-- C110: `save_vc` accepts exactly the atoms `1, ..., natoms`, and the file has one line for each step with the three components of that atom. -/
theorem C110_save_vc {V T : Type*} (enc : V → T) (natoms : ℕ) (vc : List (List (List V))) (hshape : ∀ frame ∈ vc, frame.length = natoms ∧ ∀ row ∈ frame, row.length = 3) (atom : ℤ) :
    (saveVc enc natoms vc atom = none ↔ ¬ (1 ≤ atom ∧ atom ≤ natoms)) ∧
      ∀ file, saveVc enc natoms vc atom = some file → file.length = vc.length ∧
        ∀ (t : ℕ) frame, vc[t]? = some frame → ∃ row, frame[(atom - 1).toNat]? = some row ∧ file[t]? = some (row.map enc) := by
  unfold saveVc
  by_cases hA : 0 < atom ∧ atom ≤ natoms
  · rw [if_pos hA]
    have key : ∀ l : List (List (List V)), (∀ frame ∈ l, frame.length = natoms ∧ ∀ row ∈ frame, row.length = 3) →
        ∃ file, l.mapM (fun (frame : List (List V)) => (frame[(atom - 1).toNat]?).bind fun row => if row.length = 3 then some (row.map enc) else none) = some file ∧
          file.length = l.length ∧ ∀ (t : ℕ) frame, l[t]? = some frame → ∃ row, frame[(atom - 1).toNat]? = some row ∧ file[t]? = some (row.map enc) := by
      intro l
      induction l with
      | nil => intro _; exact ⟨[], rfl, rfl, by simp⟩
      | cons fr l ih =>
        intro hs
        obtain ⟨file, h1, h2, h3⟩ := ih fun f hf => hs f (by simp [hf])
        have hfr := hs fr (by simp)
        have hlt : (atom - 1).toNat < fr.length := by omega
        refine ⟨(fr[(atom - 1).toNat].map enc) :: file, ?_, by simp [h2], ?_⟩
        · rw [List.mapM_cons, h1, List.getElem?_eq_getElem hlt]
          simp only [Option.bind_some, if_pos (hfr.2 _ (List.getElem_mem hlt))]
          rfl
        · intro t frame hf
          cases t with
          | zero =>
            simp only [List.getElem?_cons_zero, Option.some.injEq] at hf
            subst hf
            exact ⟨_, List.getElem?_eq_getElem hlt, rfl⟩
          | succ t => simpa using h3 t frame (by simpa using hf)
    obtain ⟨file, h1, h2, h3⟩ := key vc hshape
    rw [h1]
    refine ⟨by simp; omega, ?_⟩
    intro file' hfile'
    rw [Option.some.injEq] at hfile'
    subst hfile'
    exact ⟨h2, h3⟩
  · rw [if_neg hA]
    refine ⟨by simp; omega, by simp⟩

/-- C110: `save_vq` writes one line for each step with all the modes. -/
theorem C110_save_vq {V T : Type*} (enc : V → T) (vq : List (List V)) (t k : ℕ) : ((saveVq enc vq)[t]?.bind fun (row : List T) => row[k]?) = (vq[t]?.bind fun (row : List V) => row[k]?).map enc := by
  unfold saveVq
  rw [List.getElem?_map]
  cases vq[t]? <;> simp

/-- Example: three steps of 1/2 are drawn at 0, 3/4 and 3/2 instead of 0, 1/2 and 1. -/
example : projectionTimes 3 (1 / 2 : ℚ) = [0, 3 / 4, 3 / 2] := by decide +kernel

/-- Example: two steps of two atoms; the second atom, the third coordinate. -/
example : plotVcCurves [[[1, 2, 3], [4, 5, 6]], [[7, 8, 9], [10, 11, (12 : ℚ)]]] 1 [1] [2] = some [((1, 2), [(0, 6), (2, 12)])] ∧
    saveVc (fun v : ℕ => v) 2 [[[1, 2, 3], [4, 5, 6]], [[7, 8, 9], [10, 11, 12]]] 2 = some [[4, 5, 6], [10, 11, 12]] ∧
    saveVc (fun v : ℕ => v) 2 [[[1, 2, 3], [4, 5, 6]], [[7, 8, 9], [10, 11, 12]]] 0 = none := by decide +kernel

end Verif
