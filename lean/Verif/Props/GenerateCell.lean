import Verif.Model.GenerateCell
import Verif.Props.Arrangement
import Verif.Props.Supercell

/-! # C55, C56, C78: generated structure files and the POSCAR reader -/

set_option autoImplicit false
set_option linter.unusedSectionVars false

namespace Verif

/-- Specification: atoms of the same element are listed together. `blocks` is the list of (element, number of atoms). -/
def Grouped {α : Type*} (types : List α) : Prop :=
  ∃ blocks : List (α × ℕ), (blocks.map Prod.fst).Nodup ∧ types = blocks.flatMap fun b => List.replicate b.2 b.1

section unique
variable {α : Type*} [LinearOrder α]

theorem fancy_map {β γ : Type*} (f : β → γ) (x : List β) (ix : List ℕ) : fancy (x.map f) ix = (fancy x ix).map f := by
  unfold fancy
  induction ix with
  | nil => rfl
  | cons i ix ih =>
    simp only [List.filterMap_cons, List.getElem?_map] at ih ⊢
    cases h : x[i]? <;> simp [ih]

theorem fancy_range {β : Type*} (x : List β) : fancy x (List.range x.length) = x := by
  unfold fancy
  induction x using List.reverseRecOn with
  | nil => rfl
  | append_singleton x a ih =>
    rw [List.length_append, List.length_singleton, List.range_succ, List.filterMap_append]
    have : List.filterMap (fun i => (x ++ [a])[i]?) (List.range x.length) = List.filterMap (fun i => x[i]?) (List.range x.length) := by
      refine List.filterMap_congr fun i hi => ?_
      rw [List.getElem?_append_left (List.mem_range.1 hi)]
    rw [this, ih]
    simp

theorem fancy_argsort_perm {β : Type*} (x : List β) (t : List ℕ) (h : t.length = x.length) : (fancy x (argsort t)).Perm x := by
  have := (argsort_perm t).filterMap fun i => x[i]?
  rw [h] at this
  exact this.trans (by rw [show List.filterMap (fun i => x[i]?) (List.range x.length) = x from fancy_range x])

theorem fancy_eq_map (t : List ℕ) (ix : List ℕ) (h : ∀ i ∈ ix, i < t.length) : fancy t ix = ix.map fun i => t.getD i 0 := by
  unfold fancy
  induction ix with
  | nil => rfl
  | cons i ix ih =>
    have hi := h i (by simp)
    rw [List.filterMap_cons, List.getElem?_eq_getElem hi, List.map_cons, ih fun j hj => h j (by simp [hj])]
    simp [hi]

theorem fancy_argsort_sorted (t : List ℕ) : (fancy t (argsort t)).Pairwise (· ≤ ·) := by
  rw [fancy_eq_map t _ fun i hi => ((C54_permutation t).2.2 i).1 hi, List.pairwise_map]
  exact argsort_sorted t

/-- The elements in the order of their first atoms. -/
def firstElements (types : List α) : List α := (vaspElements types).1

/-- The first atoms of the elements, in order. -/
def firstAtoms (types : List α) : List ℕ := (firstElements types).map fun e => types.idxOf e

theorem firstElements_perm (types : List α) : (firstElements types).Perm types.dedup := by
  have h1 : (firstElements types).Perm (npUnique types).1 := fancy_argsort_perm _ _ (by simp [npUnique])
  exact h1.trans (List.perm_insertionSort _ _)

theorem firstElements_nodup (types : List α) : (firstElements types).Nodup := (firstElements_perm types).nodup_iff.2 (List.nodup_dedup _)

theorem mem_firstElements (types : List α) (e : α) : e ∈ firstElements types ↔ e ∈ types := by
  rw [(firstElements_perm types).mem_iff, List.mem_dedup]

theorem firstAtoms_eq (types : List α) : fancy (npUnique types).2 (argsort (npUnique types).2) = firstAtoms types := by
  conv_lhs => rw [show (npUnique types).2 = (npUnique types).1.map fun a => types.idxOf a from rfl]
  rw [fancy_map]
  rfl

theorem firstAtoms_sorted (types : List α) : (firstAtoms types).Pairwise (· < ·) := by
  have h1 : (firstAtoms types).Pairwise (· ≤ ·) := by rw [← firstAtoms_eq]; exact fancy_argsort_sorted _
  have h2 : (firstAtoms types).Nodup := by
    refine List.Nodup.map_on ?_ (firstElements_nodup types)
    intro x hx y hy hxy
    rw [mem_firstElements] at hx hy
    exact (List.idxOf_inj hx).1 hxy
  exact (h1.and h2).imp fun ⟨a, b⟩ => lt_of_le_of_ne a b

theorem firstAtoms_lt (types : List α) : ∀ i ∈ firstAtoms types, i < types.length := by
  intro i hi
  obtain ⟨e, he, rfl⟩ := List.mem_map.1 hi
  exact List.idxOf_lt_length_iff.2 ((mem_firstElements types e).1 he)

theorem firstAtoms_head (types : List α) (h : types ≠ []) : ∃ l, firstAtoms types = 0 :: l := by
  obtain ⟨e, ts, rfl⟩ := List.exists_cons_of_ne_nil h
  have h0 : 0 ∈ firstAtoms (e :: ts) := by
    refine List.mem_map.2 ⟨e, (mem_firstElements _ _).2 (by simp), by simp⟩
  have hs := firstAtoms_sorted (e :: ts)
  cases hL : firstAtoms (e :: ts) with
  | nil => rw [hL] at h0; simp at h0
  | cons a l =>
    rw [hL] at h0 hs
    rcases List.mem_cons.1 h0 with h | h
    · exact ⟨l, by rw [h]⟩
    · exact absurd ((List.pairwise_cons.1 hs).1 0 h) (by omega)

theorem vaspElements_eq (types : List α) : vaspElements types = (firstElements types, npDiff (firstAtoms types ++ [types.length])) := by
  unfold vaspElements
  simp only [firstAtoms_eq]
  rfl

theorem npDiff_length (l : List ℕ) : (npDiff l).length = l.length - 1 := by
  induction l with
  | nil => rfl
  | cons a l ih => cases l with
    | nil => rfl
    | cons b l => simp only [npDiff, List.length_cons] at ih ⊢; omega

/-- Start of each block when the first block starts at `a`. -/
def offsets {β : Type*} : ℕ → List (β × ℕ) → List ℕ
  | _, [] => []
  | a, b :: bs => a :: offsets (a + b.2) bs

theorem offsets_npDiff {β : Type*} (n : ℕ) : ∀ (l : List ℕ) (a : ℕ) (names : List β), (a :: l).Pairwise (· < ·) → (∀ i ∈ a :: l, i < n) → names.length = l.length + 1 →
    offsets a (names.zip (npDiff (a :: l ++ [n]))) = a :: l ∧ (npDiff (a :: l ++ [n])).sum = n - a ∧ ∀ c ∈ npDiff (a :: l ++ [n]), 0 < c := by
  intro l
  induction l with
  | nil =>
    intro a names _ h hn
    obtain ⟨e, rfl⟩ := List.length_eq_one_iff.1 hn
    have := h a (by simp)
    simp [npDiff, offsets, this]
  | cons b l ih =>
    intro a names hs h hn
    obtain ⟨e, ns, rfl⟩ := List.exists_cons_of_length_pos (l := names) (by simp [hn])
    have hab : a < b := (List.pairwise_cons.1 hs).1 b (by simp)
    have hbn := h b (by simp)
    obtain ⟨h1, h2, h3⟩ := ih b ns (List.pairwise_cons.1 hs).2 (fun i hi => h i (by simp [List.mem_cons.1 hi])) (by simpa using hn)
    simp only [List.cons_append, npDiff] at h1 h2 h3 ⊢
    refine ⟨?_, ?_, ?_⟩
    · rw [List.zip_cons_cons]
      simp only [offsets]
      rw [show a + (b - a) = b by omega, h1]
    · rw [List.sum_cons, h2]; omega
    · intro c hc
      rcases List.mem_cons.1 hc with rfl | hc
      · omega
      · exact h3 c hc

theorem idxOf_blocks {β : Type*} [DecidableEq β] (blocks : List (β × ℕ)) (hn : (blocks.map Prod.fst).Nodup) (hc : ∀ b ∈ blocks, 0 < b.2) :
    ∀ a, ((blocks.map Prod.fst).map fun e => a + (blocks.flatMap fun b => List.replicate b.2 b.1).idxOf e) = offsets a blocks := by
  induction blocks with
  | nil => intro a; rfl
  | cons b bs ih =>
    intro a
    rw [List.map_cons, List.nodup_cons] at hn
    have hb := hc b (by simp)
    simp only [List.map_cons, List.flatMap_cons, offsets]
    have h0 : (List.replicate b.2 b.1 ++ bs.flatMap fun b => List.replicate b.2 b.1).idxOf b.1 = 0 := by
      obtain ⟨m, hm⟩ : ∃ m, b.2 = m + 1 := ⟨b.2 - 1, by omega⟩
      rw [hm, List.replicate_succ, List.cons_append, List.idxOf_cons_self]
    rw [h0, add_zero]
    congr 1
    rw [← ih hn.2 (fun x hx => hc x (by simp [hx])) (a + b.2)]
    refine List.map_congr_left fun e he => ?_
    have hne : e ≠ b.1 := by rintro rfl; exact hn.1 he
    rw [List.idxOf_append_of_notMem (by simp [hne]), List.length_replicate]
    omega

theorem mem_blocks {β : Type*} (blocks : List (β × ℕ)) (hc : ∀ b ∈ blocks, 0 < b.2) (e : β) :
    e ∈ (blocks.flatMap fun b => List.replicate b.2 b.1) ↔ e ∈ blocks.map Prod.fst := by
  simp only [List.mem_flatMap, List.mem_replicate, List.mem_map]
  constructor
  · rintro ⟨b, hb, _, rfl⟩; exact ⟨b, hb, rfl⟩
  · rintro ⟨b, hb, rfl⟩; exact ⟨b, hb, by have := hc b hb; omega, rfl⟩

theorem offsets_sorted {β : Type*} (blocks : List (β × ℕ)) : ∀ a, (offsets a blocks).Pairwise (· ≤ ·) ∧ ∀ i ∈ offsets a blocks, a ≤ i := by
  induction blocks with
  | nil => intro a; simp [offsets]
  | cons b bs ih =>
    intro a
    obtain ⟨h1, h2⟩ := ih (a + b.2)
    simp only [offsets, List.pairwise_cons, List.mem_cons]
    exact ⟨⟨fun i hi => by have := h2 i hi; omega, h1⟩, by rintro i (rfl | hi); · exact le_rfl
                                                           · have := h2 i hi; omega⟩

theorem npDiff_offsets {β : Type*} (blocks : List (β × ℕ)) : ∀ a, npDiff (offsets a blocks ++ [a + (blocks.map Prod.snd).sum]) = blocks.map Prod.snd := by
  induction blocks with
  | nil => intro a; rfl
  | cons b bs ih =>
    intro a
    have := ih (a + b.2)
    cases bs with
    | nil => simp [offsets, npDiff]
    | cons b' bs =>
      simp only [offsets, List.cons_append, npDiff, List.map_cons, List.sum_cons] at this ⊢
      rw [← add_assoc, this]
      simp

theorem length_blocks {β : Type*} (blocks : List (β × ℕ)) : (blocks.flatMap fun b => List.replicate b.2 b.1).length = (blocks.map Prod.snd).sum := by
  induction blocks with
  | nil => rfl
  | cons b bs ih => simp [ih]

/-- For grouped atoms the names and counts written are the groups. -/
theorem vaspElements_blocks (blocks : List (α × ℕ)) (hn : (blocks.map Prod.fst).Nodup) (hc : ∀ b ∈ blocks, 0 < b.2) :
    vaspElements (blocks.flatMap fun b => List.replicate b.2 b.1) = (blocks.map Prod.fst, blocks.map Prod.snd) := by
  set types := blocks.flatMap fun b => List.replicate b.2 b.1 with ht
  have hidx : (blocks.map Prod.fst).map (fun e => types.idxOf e) = offsets 0 blocks := by
    have := idxOf_blocks blocks hn hc 0
    simpa using this
  have hp : (firstElements types).Perm (blocks.map Prod.fst) := by
    rw [List.perm_ext_iff_of_nodup (firstElements_nodup types) hn]
    intro e
    rw [mem_firstElements, ht, mem_blocks blocks hc]
  have hL : firstAtoms types = offsets 0 blocks := by
    rw [← hidx]
    refine List.Perm.eq_of_pairwise' ?_ ?_ (hp.map _) (r := (· ≤ ·))
    · exact (firstAtoms_sorted types).imp le_of_lt
    · rw [hidx]; exact (offsets_sorted blocks 0).1
  have hE : firstElements types = blocks.map Prod.fst := by
    have h1 : (firstElements types).map (fun e => types.idxOf e) = (blocks.map Prod.fst).map (fun e => types.idxOf e) := by
      rw [hidx]; exact hL
    have key : ∀ (l l' : List α), (∀ e ∈ l, e ∈ types) → (∀ e ∈ l', e ∈ types) → l.map (fun e => types.idxOf e) = l'.map (fun e => types.idxOf e) → l = l' := by
      intro l
      induction l with
      | nil => intro l' _ _ h; cases l' with
        | nil => rfl
        | cons _ _ => simp at h
      | cons a l ih => intro l' h1 h2 h; cases l' with
        | nil => simp at h
        | cons b l' =>
          simp only [List.map_cons, List.cons.injEq] at h
          rw [(List.idxOf_inj (h1 a (by simp))).1 h.1, ih l' (fun e he => h1 e (by simp [he])) (fun e he => h2 e (by simp [he])) h.2]
    refine key _ _ (fun e he => (mem_firstElements types e).1 he) (fun e he => ?_) h1
    rw [ht, mem_blocks blocks hc]; exact he
  rw [vaspElements_eq, hE, hL]
  have := npDiff_offsets blocks 0
  rw [zero_add] at this
  rw [ht, length_blocks, this]

/-- The counts written add up to the number of atoms, and there is one for each element. -/
theorem vaspElements_counts (types : List α) :
    (vaspElements types).2.sum = types.length ∧ (vaspElements types).2.length = (vaspElements types).1.length ∧ (vaspElements types).1.Nodup := by
  rw [vaspElements_eq]
  refine ⟨?_, by rw [npDiff_length]; simp [firstAtoms], firstElements_nodup types⟩
  simp only
  rcases eq_or_ne types [] with rfl | h
  · have : firstAtoms ([] : List α) = [] := by
      have := firstElements_perm ([] : List α)
      simp only [List.dedup_nil, List.perm_nil] at this
      simp [firstAtoms, this]
    rw [this]; rfl
  · obtain ⟨l, hl⟩ := firstAtoms_head types h
    have hs := firstAtoms_sorted types
    have hlt := firstAtoms_lt types
    rw [hl] at hs hlt ⊢
    have := (offsets_npDiff types.length l 0 (List.replicate (l.length + 1) ()) hs hlt (by simp)).2.1
    simpa using this

end unique

section poscar
variable {α K : Type*} [LinearOrder α] [Field K]

theorem repeatNames_eq (es : List α) : ∀ cs : List ℕ, cs.length = es.length →
    repeatNames (K := K) (es.map fun e => .word (.elem e)) cs = .ok ((es.zip cs).flatMap fun b => List.replicate b.2 b.1) := by
  induction es with
  | nil => intro cs _; rfl
  | cons e es ih =>
    intro cs h
    cases cs with
    | nil => simp at h
    | cons c cs =>
      simp only [List.map_cons, repeatNames, ih cs (by simpa using h), Py.bind, List.zip_cons_cons, List.flatMap_cons]

theorem floatRow_ofFn (r : Fin 3 → K) : floatRow (α := α) (List.ofFn fun j => .num (r j)) = some r := by
  simp only [floatRow, List.ofFn_succ, List.ofFn_zero, List.take_succ_cons, List.take_zero, List.mapM_cons, List.mapM_nil, Tok.toFloat]
  simp only [Option.bind_eq_bind, Option.bind_some, Option.pure_def]
  congr 1
  funext j
  fin_cases j <;> rfl

theorem mapM_floatRow (rows : List (Fin 3 → K)) : (rows.map fun r => (List.ofFn fun j => Tok.num (r j) : PLine α K)).mapM floatRow = some rows := by
  induction rows with
  | nil => rfl
  | cons r rows ih => rw [List.map_cons, List.mapM_cons, floatRow_ofFn, ih]; rfl

theorem mapM_toInt (cs : List ℕ) : (cs.map (Tok.nat : ℕ → Tok (PWord α) K)).mapM Tok.toInt = some cs := by
  induction cs with
  | nil => rfl
  | cons c cs ih => rw [List.map_cons, List.mapM_cons, ih]; rfl

/-- Specification: a POSCAR file with scale factor `m`. `oldStyle`: no line of element names (they are in the first line). -/
def poscarFile (oldStyle direct : Bool) (m : K) (cell : Matrix (Fin 3) (Fin 3) K) (names : List α) (counts : List ℕ) (coordinates : List (Fin 3 → K)) : List (PLine α K) :=
  [if oldStyle then names.map fun e => .word (.elem e) else [.word .text, .word .text, .word .text], [.num m],
    List.ofFn fun j => .num (cell 0 j), List.ofFn fun j => .num (cell 1 j), List.ofFn fun j => .num (cell 2 j)]
  ++ (if oldStyle then [] else [names.map fun e => .word (.elem e)])
  ++ [counts.map .nat, [if direct then .word .direct else .word .cartesian]]
  ++ coordinates.map fun r => List.ofFn fun j => .num (r j)

/-- What the reader makes of a well-formed file: both styles are understood, the cell is scaled, the coordinates are as they are in the file. -/
theorem readPoscar_file (oldStyle direct : Bool) (m : K) (cell : Matrix (Fin 3) (Fin 3) K) (names : List α) (counts : List ℕ) (coordinates : List (Fin 3 → K))
    (hn : counts.length = names.length) (hc : coordinates.length = counts.sum) :
    readPoscar (poscarFile oldStyle direct m cell names counts coordinates) = some
      { cell := Matrix.of fun i j => cell i j * m
        scaledPositions := if direct then some coordinates else none
        positions := if direct then none else some coordinates
        elements := (names.zip counts).flatMap fun b => List.replicate b.2 b.1 } := by
  set lines := poscarFile oldStyle direct m cell names counts coordinates with hlines
  have hcell : floatRows lines 2 3 = .ok [cell 0, cell 1, cell 2] := by
    unfold floatRows
    rw [if_neg (by rw [hlines]; cases oldStyle <;> simp [poscarFile])]
    have : (lines.drop 2).take 3 = [cell 0, cell 1, cell 2].map fun r => (List.ofFn fun j => .num (r j)) := by rw [hlines]; cases oldStyle <;> rfl
    rw [this, mapM_floatRow]; rfl
  have hrows : floatRows lines (if oldStyle then 7 else 8) counts.sum = .ok coordinates := by
    unfold floatRows
    have : (lines.drop (if oldStyle then 7 else 8)).take coordinates.length = coordinates.map fun r => (List.ofFn fun j => .num (r j)) := by
      rw [hlines]
      cases oldStyle <;> simp [poscarFile]
    rw [← hc, if_neg (by rw [hlines]; cases oldStyle <;> simp [poscarFile] <;> omega), this, mapM_floatRow]; rfl
  have h1 : lines[1]? = some [.num m] := by rw [hlines]; cases oldStyle <;> rfl
  have hcc : (Matrix.of fun i j => (![cell 0, cell 1, cell 2] : Fin 3 → Fin 3 → K) i j * m : Matrix (Fin 3) (Fin 3) K) = Matrix.of fun i j => cell i j * m := by
    ext i j; fin_cases i <;> rfl
  have hd : isDirect [if direct then (.word .direct : Tok (PWord α) K) else .word .cartesian] = some direct := by cases direct <;> rfl
  unfold readPoscar
  simp only [h1, Tok.toFloat, hcell]
  rw [hcc]
  cases oldStyle
  · have h5 : lines[5]? = some (names.map fun e => .word (.elem e)) := by rw [hlines]; rfl
    have h6 : lines[6]? = some (counts.map .nat) := by rw [hlines]; rfl
    have h7 : lines[7]? = some [if direct then .word .direct else .word .cartesian] := by rw [hlines]; rfl
    have hs : ∀ c', readStyle lines c' 6 7 5 = .ok
        { cell := c'
          scaledPositions := if direct then some coordinates else none
          positions := if direct then none else some coordinates
          elements := (names.zip counts).flatMap fun b => List.replicate b.2 b.1 } := by
      intro c'
      have hrows' : floatRows lines (7 + 1) counts.sum = .ok coordinates := hrows
      unfold readStyle
      simp only [h5, h6, h7, Py.orError, Py.bind, mapM_toInt, Py.orValueError, hd, hrows', repeatNames_eq _ _ hn]
      cases direct <;> rfl
    rw [hs]
  · have h0 : lines[0]? = some (names.map fun e => .word (.elem e)) := by rw [hlines]; rfl
    have h5 : lines[5]? = some (counts.map .nat) := by rw [hlines]; rfl
    have h6 : lines[6]? = some [if direct then .word .direct else .word .cartesian] := by rw [hlines]; rfl
    have hf : ∀ c', readStyle lines c' 6 7 5 = .valueError := by
      intro c'
      have : ([if direct then (.word .direct : Tok (PWord α) K) else .word .cartesian]).mapM Tok.toInt = none := by cases direct <;> rfl
      unfold readStyle
      simp only [h6, Py.orError, Py.bind, this, Py.orValueError]
    have hs : ∀ c', readStyle lines c' 5 6 0 = .ok
        { cell := c'
          scaledPositions := if direct then some coordinates else none
          positions := if direct then none else some coordinates
          elements := (names.zip counts).flatMap fun b => List.replicate b.2 b.1 } := by
      intro c'
      have hrows' : floatRows lines (6 + 1) counts.sum = .ok coordinates := hrows
      unfold readStyle
      simp only [h0, h5, h6, Py.orError, Py.bind, mapM_toInt, Py.orValueError, hd, hrows', repeatNames_eq _ _ hn]
      cases direct <;> rfl
    rw [hf]
    simp only [hs]

/-- **C78**: a POSCAR file of either style, with direct coordinates, or with Cartesian ones and scale factor 1, is read as what it says: the cell is the scale factor times the vectors, the elements are the names
repeated, the positions are the direct coordinates, or the Cartesian coordinates times the scale factor. -/
theorem C78_poscar_partial (oldStyle direct : Bool) (m : K) (cell : Matrix (Fin 3) (Fin 3) K) (names : List α) (counts : List ℕ) (coordinates : List (Fin 3 → K))
    (hn : counts.length = names.length) (hc : coordinates.length = counts.sum) (hm : direct = true ∨ m = 1) :
    ∃ r, readPoscar (poscarFile oldStyle direct m cell names counts coordinates) = some r ∧ r.cell = m • cell ∧
      r.elements = (names.zip counts).flatMap (fun b => List.replicate b.2 b.1) ∧
      (direct = true → r.scaledPositions = some coordinates ∧ r.positions = none) ∧
      (direct = false → r.scaledPositions = none ∧ r.positions = some (coordinates.map (m • ·))) := by
  refine ⟨_, readPoscar_file oldStyle direct m cell names counts coordinates hn hc, ?_, rfl, ?_, ?_⟩
  · ext i j; simp [mul_comm]
  · rintro rfl; exact ⟨rfl, rfl⟩
  · rintro rfl
    rcases hm with h | rfl
    · simp at h
    · simp

/-- **C78**: a file that ends before the last of the announced atoms is refused, whatever its style. -/
theorem C78_truncated (oldStyle direct : Bool) (m : K) (cell : Matrix (Fin 3) (Fin 3) K) (names : List α) (counts : List ℕ) (coordinates : List (Fin 3 → K))
    (hc : coordinates.length < counts.sum) : readPoscar (poscarFile oldStyle direct m cell names counts coordinates) = none := by
  set lines := poscarFile oldStyle direct m cell names counts coordinates with hlines
  have hcell : floatRows lines 2 3 = .ok [cell 0, cell 1, cell 2] := by
    unfold floatRows
    rw [if_neg (by rw [hlines]; cases oldStyle <;> simp [poscarFile])]
    have : (lines.drop 2).take 3 = [cell 0, cell 1, cell 2].map fun r => (List.ofFn fun j => .num (r j)) := by rw [hlines]; cases oldStyle <;> rfl
    rw [this, mapM_floatRow]; rfl
  have hrows : floatRows lines (if oldStyle then 7 else 8) counts.sum = .error := by
    unfold floatRows
    rw [if_pos (by rw [hlines]; cases oldStyle <;> simp [poscarFile] <;> omega)]
  have h1 : lines[1]? = some [.num m] := by rw [hlines]; cases oldStyle <;> rfl
  have hd : isDirect [if direct then (.word .direct : Tok (PWord α) K) else .word .cartesian] = some direct := by cases direct <;> rfl
  unfold readPoscar
  simp only [h1, Tok.toFloat, hcell]
  cases oldStyle
  · have h6 : lines[6]? = some (counts.map .nat) := by rw [hlines]; rfl
    have h7 : lines[7]? = some [if direct then .word .direct else .word .cartesian] := by rw [hlines]; rfl
    have hrows' : floatRows lines (7 + 1) counts.sum = .error := hrows
    have hs : ∀ c', readStyle lines c' 6 7 5 = .error := by
      intro c'
      unfold readStyle
      simp only [h6, h7, Py.orError, Py.bind, mapM_toInt, Py.orValueError, hd, hrows']
    rw [hs]
  · have h5 : lines[5]? = some (counts.map .nat) := by rw [hlines]; rfl
    have h6 : lines[6]? = some [if direct then .word .direct else .word .cartesian] := by rw [hlines]; rfl
    have hf : ∀ c', readStyle lines c' 6 7 5 = .valueError := by
      intro c'
      have : ([if direct then (.word .direct : Tok (PWord α) K) else .word .cartesian]).mapM Tok.toInt = none := by cases direct <;> rfl
      unfold readStyle
      simp only [h6, Py.orError, Py.bind, this, Py.orValueError]
    have hrows' : floatRows lines (6 + 1) counts.sum = .error := hrows
    have hs : ∀ c', readStyle lines c' 5 6 0 = .error := by
      intro c'
      unfold readStyle
      simp only [h5, h6, Py.orError, Py.bind, mapM_toInt, Py.orValueError, hd, hrows']
    rw [hf]
    simp only [hs]

/-- **C78 fails** for every file with Cartesian coordinates (not all 0) and a scale factor other than 1: the cell is scaled, the positions are not. -/
theorem C78_cartesian_violated (oldStyle : Bool) (m : K) (hm : m ≠ 1) (cell : Matrix (Fin 3) (Fin 3) K) (names : List α) (counts : List ℕ) (coordinates : List (Fin 3 → K))
    (hn : counts.length = names.length) (hc : coordinates.length = counts.sum) (h0 : ∃ p ∈ coordinates, p ≠ 0) :
    ∃ r, readPoscar (poscarFile oldStyle false m cell names counts coordinates) = some r ∧ r.cell = m • cell ∧ r.positions ≠ some (coordinates.map (m • ·)) := by
  refine ⟨_, readPoscar_file oldStyle false m cell names counts coordinates hn hc, ?_, ?_⟩
  · ext i j; simp [mul_comm]
  · simp only [Bool.false_eq_true, if_false, ne_eq, Option.some.injEq]
    intro h
    obtain ⟨p, hp, hp0⟩ := h0
    obtain ⟨i, hi, rfl⟩ := List.mem_iff_getElem.1 hp
    have h1 : coordinates[i]? = (coordinates.map (m • ·))[i]? := by rw [← h]
    rw [List.getElem?_map, List.getElem?_eq_getElem hi] at h1
    simp only [Option.map_some, Option.some.injEq] at h1
    apply hp0
    funext k
    have := congrFun h1 k
    simp only [Pi.smul_apply, smul_eq_mul, Pi.zero_apply] at this ⊢
    have h2 : (m - 1) * coordinates[i] k = 0 := by rw [sub_mul, one_mul, ← this, sub_self]
    exact (mul_eq_zero.1 h2).resolve_left (sub_ne_zero.2 hm)

/-- Reading a generated POSCAR: the cell and the coordinates are those written, for any list of elements; the elements are the written blocks. -/
theorem readPoscar_generateVasp (scaled : Bool) (cell : Matrix (Fin 3) (Fin 3) K) (types : List α) (coordinates : List (Fin 3 → K)) (h : coordinates.length = types.length) :
    readPoscar (generateVasp scaled cell types coordinates) = some
      { cell := cell
        scaledPositions := if scaled then some coordinates else none
        positions := if scaled then none else some coordinates
        elements := ((vaspElements types).1.zip (vaspElements types).2).flatMap fun b => List.replicate b.2 b.1 } := by
  obtain ⟨hsum, hlen, -⟩ := vaspElements_counts types
  have := readPoscar_file false scaled 1 cell (vaspElements types).1 (vaspElements types).2 coordinates hlen (by rw [h, hsum])
  simp only [mul_one] at this
  exact this

/-- **C55**: reading back a generated POSCAR gives the cell, the coordinates and the elements of the structure, provided the atoms of each element are listed together. -/
theorem C55_roundtrip_partial (scaled : Bool) (cell : Matrix (Fin 3) (Fin 3) K) (types : List α) (coordinates : List (Fin 3 → K)) (h : coordinates.length = types.length)
    (hg : Grouped types) :
    readPoscar (generateVasp scaled cell types coordinates) = some
      { cell := cell, scaledPositions := if scaled then some coordinates else none, positions := if scaled then none else some coordinates, elements := types } := by
  rw [readPoscar_generateVasp _ _ _ _ h]
  obtain ⟨blocks, hn, rfl⟩ := hg
  -- empty groups do not matter
  set bs := blocks.filter fun b => 0 < b.2 with hbs
  have e : (blocks.flatMap fun b => List.replicate b.2 b.1) = bs.flatMap fun b => List.replicate b.2 b.1 := by
    rw [hbs]
    clear hbs bs hn h
    induction blocks with
    | nil => rfl
    | cons b blocks ih =>
      rw [List.flatMap_cons, ih, List.filter_cons]
      rcases Nat.eq_zero_or_pos b.2 with h | h
      · simp [h]
      · simp [h]
  have hn' : (bs.map Prod.fst).Nodup := hn.sublist (List.filter_sublist.map _)
  rw [e, vaspElements_blocks bs hn' (by intro b hb; simpa using (List.mem_filter.1 hb).2)]
  rw [← List.unzip_fst, ← List.unzip_snd, List.zip_unzip]

/-- **C55**: the elements are read back correctly exactly when the atoms of each element are listed together; in all other cases atoms silently change their element. -/
theorem C55_elements_iff (scaled : Bool) (cell : Matrix (Fin 3) (Fin 3) K) (types : List α) (coordinates : List (Fin 3 → K)) (h : coordinates.length = types.length) :
    (∃ r, readPoscar (generateVasp scaled cell types coordinates) = some r ∧ r.cell = cell ∧ r.elements.length = types.length ∧ (r.elements = types ↔ Grouped types)) := by
  refine ⟨_, readPoscar_generateVasp _ _ _ _ h, rfl, ?_, ?_, ?_⟩
  · obtain ⟨hsum, hlen, -⟩ := vaspElements_counts types
    simp only
    rw [length_blocks, ← List.unzip_snd, List.unzip_zip (by omega)]
    exact hsum
  · intro heq
    simp only at heq
    obtain ⟨hsum, hlen, hnd⟩ := vaspElements_counts types
    refine ⟨(vaspElements types).1.zip (vaspElements types).2, ?_, heq.symm⟩
    rw [← List.unzip_fst, List.unzip_zip (by omega)]
    exact hnd
  · intro hg
    have := C55_roundtrip_partial scaled cell types coordinates h hg
    rw [readPoscar_generateVasp _ _ _ _ h] at this
    simp only [Option.some.injEq, PoscarData.mk.injEq] at this
    exact this.2.2.2

/-- **C55 fails** in general: a structure whose atoms alternate (`1 2 1`, as element numbers) is read back as `1 2 2`. -/
theorem C55_violated : ¬ ∀ (scaled : Bool) (cell : Matrix (Fin 3) (Fin 3) ℚ) (types : List ℕ) (coordinates : List (Fin 3 → ℚ)), coordinates.length = types.length →
    ∃ r, readPoscar (generateVasp scaled cell types coordinates) = some r ∧ r.elements = types := by
  intro h
  obtain ⟨r, h1, h2⟩ := h true 1 [1, 2, 1] [0, 0, 0] rfl
  rw [readPoscar_generateVasp true (1 : Matrix (Fin 3) (Fin 3) ℚ) ([1, 2, 1] : List ℕ) [0, 0, 0] (by rfl)] at h1
  simp only [Option.some.injEq] at h1
  subst h1
  revert h2
  decide +kernel

/-- The supercell of a structure whose elements are listed together lists them together. -/
theorem grouped_supercell (elements : List α) (supercell : List ℕ) (hg : Grouped elements) : Grouped (expandSupercell elements supercell) := by
  obtain ⟨blocks, hn, rfl⟩ := hg
  refine ⟨blocks.map fun b => (b.1, b.2 * supercell.prod), by simpa [Function.comp_def] using hn, ?_⟩
  unfold expandSupercell
  rw [List.flatMap_map, List.flatMap_assoc]
  congr 1
  funext b
  have : ∀ m, (List.replicate m b.1).flatMap (fun a => List.replicate supercell.prod a) = List.replicate (m * supercell.prod) b.1 := by
    intro m
    induction m with
    | zero => simp
    | succ m ih => rw [List.replicate_succ, List.flatMap_cons, ih, List.replicate_append_replicate]; congr 1; ring
  exact this b.2

/-- **C55**, for the program (`scaled=True`): the POSCAR of a supercell read back gives the elements of the supercell, the cell `get_cell(supercell)`, and, multiplying the fractional coordinates by that cell,
the positions `get_positions(supercell)`. -/
theorem C55_supercell_partial (positions : List (Fin 3 → K)) (elements : List α) (hlen : elements.length = positions.length) (cell : Matrix (Fin 3) (Fin 3) K) (s : Fin 3 → ℕ)
    (hdet : IsUnit (getCellSupercell cell s).det) (hg : Grouped elements) :
    ∃ r sp, readPoscar (generateVasp true (getCellSupercell cell s) (expandSupercell elements [s 0, s 1, s 2])
        ((positionsSupercell positions cell [s 0, s 1, s 2]).map fun p => Matrix.vecMul p (getCellSupercell cell s)⁻¹)) = some r ∧
      r.cell = getCellSupercell cell s ∧ r.elements = expandSupercell elements [s 0, s 1, s 2] ∧ r.scaledPositions = some sp ∧
      sp.map (fun p => Matrix.vecMul p r.cell) = positionsSupercell positions cell [s 0, s 1, s 2] := by
  have hl : ((positionsSupercell positions cell [s 0, s 1, s 2]).map fun p => Matrix.vecMul p (getCellSupercell cell s)⁻¹).length
      = (expandSupercell elements [s 0, s 1, s 2]).length := by
    rw [List.length_map]
    exact (C02_length elements positions cell [s 0, s 1, s 2] hlen).symm
  refine ⟨_, _, C55_roundtrip_partial true _ _ _ hl (grouped_supercell elements _ hg), rfl, rfl, rfl, ?_⟩
  rw [List.map_map]
  conv_rhs => rw [← List.map_id (positionsSupercell positions cell [s 0, s 1, s 2])]
  refine List.map_congr_left fun p _ => ?_
  simp only [Function.comp]
  rw [Matrix.vecMul_vecMul, Matrix.nonsing_inv_mul _ hdet, Matrix.vecMul_one]; rfl

example : Grouped ["Ga", "Ga", "N", "N"] := ⟨[("Ga", 2), ("N", 2)], by decide, rfl⟩

/-- The hypotheses of C78 for a file with two elements. -/
example : ∃ r, readPoscar (poscarFile true true (3 : ℚ) 1 [31, 7] [1, 2] [0, ![1 / 3, 1 / 3, 0], ![0, 0, 1 / 2]]) = some r ∧ r.elements = [31, 7, 7] :=
  ⟨_, readPoscar_file true true (3 : ℚ) 1 [31, 7] [1, 2] [0, ![1 / 3, 1 / 3, 0], ![0, 0, 1 / 2]] rfl rfl, rfl⟩

end poscar

section lammps
variable {α : Type*} [LinearOrder α]

theorem insertionSort_range (m : ℕ) (l : List ℕ) (hl : l.Perm (List.range m)) : l.insertionSort (· ≤ ·) = List.range m :=
  List.Perm.eq_of_pairwise' (List.pairwise_insertionSort _ _) List.pairwise_le_range ((List.perm_insertionSort _ _).trans hl)

/-- The second pass of `np.unique` finds the first atom of each element again. -/
theorem lammpsUniqueIndex_eq (types : List α) : lammpsUniqueIndex types = firstAtoms types := by
  unfold lammpsUniqueIndex
  simp only [firstAtoms_eq]
  rcases eq_or_ne types [] with rfl | h
  · have : firstAtoms ([] : List α) = [] := by
      have := firstElements_perm ([] : List α)
      simp only [List.dedup_nil, List.perm_nil] at this
      simp [firstAtoms, this]
    rw [this]; simp [npDiff, npUnique]
  · obtain ⟨l, hl⟩ := firstAtoms_head types h
    have hs := firstAtoms_sorted types
    have hlt := firstAtoms_lt types
    rw [hl] at hs hlt ⊢
    set cs := npDiff (0 :: l ++ [types.length]) with hcs
    have hlen : cs.length = l.length + 1 := by rw [hcs, npDiff_length]; simp
    obtain ⟨h1, -, h3⟩ := offsets_npDiff types.length l 0 (List.range (l.length + 1)) hs hlt (by simp)
    rw [← hcs] at h1 h3
    set blocks := (List.range (l.length + 1)).zip cs with hb
    have e : (cs.zipIdx).flatMap (fun ci => List.replicate ci.1 ci.2) = blocks.flatMap fun b => List.replicate b.2 b.1 := by
      rw [hb, List.zipIdx_eq_zip_range', ← List.zip_swap, List.flatMap_map, hlen, List.range_eq_range']
      rfl
    have hfst : blocks.map Prod.fst = List.range (l.length + 1) := by rw [hb, ← List.unzip_fst, List.unzip_zip (by simp [hlen])]
    have hc : ∀ b ∈ blocks, 0 < b.2 := fun b hb' => h3 b.2 (List.of_mem_zip hb').2
    have hn : (blocks.map Prod.fst).Nodup := by rw [hfst]; exact List.nodup_range
    rw [e]
    unfold npUnique
    simp only
    rw [insertionSort_range (l.length + 1)]
    · have := idxOf_blocks blocks hn hc 0
      rw [hfst, h1] at this
      simpa using this
    · rw [List.perm_ext_iff_of_nodup (List.nodup_dedup _) List.nodup_range]
      intro i
      rw [List.mem_dedup, mem_blocks blocks hc, hfst]

theorem lookup_eq_of_mem {β : Type*} (l : List (α × β)) (hn : (l.map Prod.fst).Nodup) (k : α) (v : β) (h : (k, v) ∈ l) : l.lookup k = some v := by
  induction l with
  | nil => simp at h
  | cons a l ih =>
    rw [List.map_cons, List.nodup_cons] at hn
    rcases List.mem_cons.1 h with rfl | h'
    · simp
    · have : k ≠ a.1 := by rintro rfl; exact hn.1 (List.mem_map.2 ⟨_, h', rfl⟩)
      obtain ⟨a1, a2⟩ := a
      rw [List.lookup_cons, beq_eq_false_iff_ne.2 this]
      exact ih hn.2 h'

theorem lammpsIndexDict_eq (types : List α) : lammpsIndexDict types = ((firstElements types).zipIdx.map fun ei => (ei.1, ei.2 + 1)).reverse := by
  unfold lammpsIndexDict
  rw [lammpsUniqueIndex_eq]
  have key : ∀ (es : List α) (k : ℕ) (d : List (α × ℕ)), (∀ e ∈ es, e ∈ types) →
      ((es.map fun e => types.idxOf e).zipIdx k).foldl (fun d vi => match types[vi.1]? with
        | some t => dictSet d t (vi.2 + 1)
        | none => d) d = ((es.zipIdx k).map fun ei => (ei.1, ei.2 + 1)).reverse ++ d := by
    intro es
    induction es with
    | nil => intro k d _; rfl
    | cons e es ih =>
      intro k d he
      have hmem := he e (by simp)
      have : types[types.idxOf e]? = some e := List.getElem?_idxOf hmem
      rw [List.map_cons, List.zipIdx_cons, List.zipIdx_cons, List.foldl_cons, ih _ _ fun x hx => he x (by simp [hx])]
      simp [this, dictSet]
  have := key (firstElements types) 0 [] fun e he => (mem_firstElements types e).1 he
  rw [List.append_nil] at this
  exact this

/-- The type written for an atom of element `e` is the place of `e` in the order of first appearance, counted from 1. -/
theorem lammpsAtomType_eq (types : List α) (i : ℕ) (e : α) (h : types[i]? = some e) :
    lammpsAtomType types i = some ((firstElements types).idxOf e + 1) := by
  unfold lammpsAtomType dictGet
  rw [h, Option.bind_some, lammpsIndexDict_eq]
  have hmem : e ∈ firstElements types := (mem_firstElements types e).2 (List.mem_of_getElem? h)
  refine lookup_eq_of_mem _ ?_ _ _ ?_
  · rw [List.map_reverse, List.nodup_reverse, List.map_map]
    have : (Prod.fst ∘ fun ei : α × ℕ => (ei.1, ei.2 + 1)) = Prod.fst := rfl
    rw [this, List.zipIdx_map_fst]
    exact firstElements_nodup types
  · rw [List.mem_reverse, List.mem_map]
    refine ⟨(e, (firstElements types).idxOf e), ?_, rfl⟩
    rw [List.mk_mem_zipIdx_iff_getElem?]
    exact List.getElem?_idxOf hmem

/-- **C56**: in the LAMMPS data file every atom has a type between 1 and the number of types, two atoms have the same type exactly if they are the same element, and the mass listed for the type is the
mass of the atom (whenever atoms of the same element have the same mass). -/
theorem C56_types {R : Type*} (types : List α) (masses : List R) (massOf : α → R) (hm : masses = types.map massOf) :
    (lammpsMasses types masses).map Prod.fst = (List.range (lammpsMasses types masses).length).map (· + 1) ∧
    (∀ i < types.length, ∃ t, lammpsAtomType types i = some t ∧ 1 ≤ t ∧ t ≤ (lammpsMasses types masses).length ∧ (t, masses[i]?) ∈ lammpsMasses types masses) ∧
    (∀ i < types.length, ∀ j < types.length, lammpsAtomType types i = lammpsAtomType types j ↔ types[i]? = types[j]?) := by
  have hML : (lammpsMasses types masses).length = (firstElements types).length := by
    unfold lammpsMasses; rw [lammpsUniqueIndex_eq]; simp [firstAtoms]
  refine ⟨?_, ?_, ?_⟩
  · rw [hML]
    unfold lammpsMasses
    rw [lammpsUniqueIndex_eq, List.map_map]
    have : (Prod.fst ∘ fun vi : ℕ × ℕ => (vi.2 + 1, masses[vi.1]?)) = (· + 1) ∘ Prod.snd := rfl
    rw [this, ← List.map_map, List.zipIdx_map_snd, List.range_eq_range']
    simp [firstAtoms]
  · intro i hi
    have he : types[i]? = some types[i] := List.getElem?_eq_getElem hi
    have hmem : types[i] ∈ firstElements types := (mem_firstElements types _).2 (List.getElem_mem hi)
    have hlt := List.idxOf_lt_length_iff.2 hmem
    refine ⟨_, lammpsAtomType_eq types i _ he, by omega, by rw [hML]; omega, ?_⟩
    unfold lammpsMasses
    rw [lammpsUniqueIndex_eq, List.mem_map]
    refine ⟨(types.idxOf types[i], (firstElements types).idxOf types[i]), ?_, ?_⟩
    · rw [List.mk_mem_zipIdx_iff_getElem?]
      unfold firstAtoms
      rw [List.getElem?_map, List.getElem?_idxOf hmem]; rfl
    · simp only [Prod.mk.injEq, true_and]
      rw [hm, List.getElem?_map, List.getElem?_map, List.getElem?_idxOf (List.getElem_mem hi), he]
  · intro i hi j hj
    have hei : types[i]? = some types[i] := List.getElem?_eq_getElem hi
    have hej : types[j]? = some types[j] := List.getElem?_eq_getElem hj
    rw [lammpsAtomType_eq types i _ hei, lammpsAtomType_eq types j _ hej, hei, hej]
    simp only [Option.some.injEq, Nat.add_right_cancel_iff]
    exact List.idxOf_inj ((mem_firstElements types _).2 (List.getElem_mem hi))

/-- Atoms listed in alternation are no problem for the LAMMPS file (elements as atomic numbers). -/
example : (List.range 4).map (lammpsAtomType [7, 31, 7, 13]) = [some 1, some 2, some 1, some 3] := by decide +kernel

/-- What is written when atoms of one element have different masses (isotopes): the mass of the first one. -/
theorem C56_isotopes_violated : ¬ ∀ (types : List ℕ) (masses : List ℚ), masses.length = types.length →
    ∀ i < types.length, ∃ t, lammpsAtomType types i = some t ∧ (t, masses[i]?) ∈ lammpsMasses types masses := by
  intro h
  obtain ⟨t, h1, h2⟩ := h [1, 1] [10, 11] rfl 1 (by decide)
  have h3 : lammpsMasses [1, 1] ([10, 11] : List ℚ) = [(1, some 10)] := by decide +kernel
  rw [h3] at h2
  simp at h2

end lammps

end Verif
