import Verif.Model.Reports
import Verif.Props.Text
import Verif.Props.AtomTypes

/-! # C118: tables printed on the screen -/

set_option autoImplicit false
set_option linter.unusedSectionVars false

namespace Verif

/-! ## Specification -/

section
variable {K : Type} [Field K] [LinearOrder K] [IsStrictOrderedRing K] [FloorRing K]

/-- The words of the line are `before`, the numbers `xs` to `dec` decimals (as `float` reads them), and `after`. -/
def Shows (dec : ℕ) (line : Line) (before : List Line) (xs : List K) (after : List Line) : Prop :=
  ∃ ws, pySplit line = before ++ ws ++ after ∧ List.Forall₂ (fun w x => ∃ y : K, pyFloat w = some y ∧ |y - x| ≤ 1 / 2 / 10 ^ dec) ws xs

/-! ## Words -/

theorem splitGo_blank_append (acc a b : List Char) : splitGo acc (a ++ ' ' :: b) = splitGo acc a ++ splitGo [] b := by
  induction a generalizing acc with
  | nil =>
    rw [List.nil_append, splitGo, splitGo, if_pos (by decide)]
    split <;> simp
  | cons c a ih =>
    rw [List.cons_append, splitGo, splitGo]
    split_ifs <;> simp [ih]

theorem pySplit_last {a : List Char} (h : a.getLast? = some ' ') (b : List Char) : pySplit (a ++ b) = pySplit a ++ pySplit b := by
  obtain ⟨a', rfl⟩ := List.getLast?_eq_some_iff.1 h
  unfold pySplit
  rw [List.append_assoc, List.singleton_append, splitGo_blank_append, splitGo_blank_append]
  simp [splitGo]

theorem pySplit_head {b : List Char} (h : b.head? = some ' ' ∨ b = []) (a : List Char) : pySplit (a ++ b) = pySplit a ++ pySplit b := by
  rcases h with h | rfl
  · obtain ⟨b', rfl⟩ := List.head?_eq_some_iff.1 h
    unfold pySplit
    rw [splitGo_blank_append, show ' ' :: b' = [] ++ ' ' :: b' from rfl, splitGo_blank_append]
    simp [splitGo]
  · simp [pySplit, splitGo]

theorem pySplit_space (a b : List Char) : pySplit (a ++ [' '] ++ b) = pySplit a ++ pySplit b := by
  unfold pySplit
  rw [List.append_assoc, List.singleton_append, splitGo_blank_append]

theorem pySplit_word {w : List Char} (h : IsWord w) : pySplit w = [w] := by
  have := C111_words [] [] [] (by simp [IsBlankText]) (by simp [IsBlankText]) (by simp) w h
  simpa using this

theorem pySplit_padRight {w : List Char} (n : ℕ) (h : IsWord w) : pySplit (padRight n w) = [w] := by
  have := C111_words [] [] (List.replicate (n - w.length) ' ') (by simp [IsBlankText]) (fun c hc => by rw [List.eq_of_mem_replicate hc]; rfl) (by simp) w h
  simpa [padRight] using this

theorem pySplit_field (w dec : ℕ) (x : K) : pySplit (fixedField w dec x) = [fixedText dec x] := by
  obtain ⟨b, hb, e⟩ := padLeft_eq w (fixedText dec x)
  rw [fixedField, e]
  have := C111_words [] b [] hb (by simp [IsBlankText]) (by simp) _ (fixedText_word dec x)
  simpa using this

theorem fixedText_reads (dec : ℕ) (x : K) : ∃ y : K, pyFloat (fixedText dec x) = some y ∧ |y - x| ≤ 1 / 2 / 10 ^ dec := by
  refine ⟨aroundDec dec x, ?_, aroundDec_error dec x⟩
  have := C111_fixed_eq dec x [] [] (by simp [IsBlankText]) (by simp [IsBlankText])
  simpa using this

theorem shows_texts {dec : ℕ} {line : Line} {before after : List Line} {xs : List K} (h : pySplit line = before ++ xs.map (fixedText dec) ++ after) : Shows dec line before xs after := by
  refine ⟨_, h, ?_⟩
  rw [List.forall₂_map_left_iff]
  exact List.forall₂_same.2 fun x _ => fixedText_reads dec x

/-! ## Average positions -/

theorem positionLine_shows {e : Line} (he : IsWord e) (r : Fin 3 → K) : Shows 8 (positionLine e r) [e] [r 0, r 1, r 2] [] := by
  apply shows_texts
  unfold positionLine
  rw [pySplit_space, pySplit_space, pySplit_space, pySplit_padRight _ he, pySplit_field, pySplit_field, pySplit_field]
  rfl

theorem mapM_range_lines {β : Type} (n : ℕ) (f : ℕ → Option β) (g : ℕ → β) (h : ∀ i < n, f i = some (g i)) : (List.range n).mapM f = some ((List.range n).map g) := by
  have : ∀ l : List ℕ, (∀ i ∈ l, f i = some (g i)) → l.mapM f = some (l.map g) := by
    intro l
    induction l with
    | nil => intro _; rfl
    | cons a l ih =>
      intro hl
      rw [List.mapM_cons, hl a (by simp), ih fun i hi => hl i (by simp [hi])]
      rfl
  exact this _ fun i hi => h i (List.mem_range.1 hi)

/-- **C118** (average positions): after its heading the report has one line per atom, in the order of the atoms, with the element of the atom and its coordinates to eight decimals. -/
theorem C118_positions (elements : List Line) (positions : List (Fin 3 → K)) (hl : positions.length ≤ elements.length) (hw : ∀ e ∈ elements, IsWord e) :
    ∃ heading rows, positionsReport elements positions = some (heading :: rows) ∧ rows.length = positions.length ∧
      ∀ (i : ℕ) (e : Line) (r : Fin 3 → K), elements[i]? = some e → positions[i]? = some r → ∃ line, rows[i]? = some line ∧ Shows 8 line [e] [r 0, r 1, r 2] [] := by
  refine ⟨"Average atomic positions".toList, (List.range positions.length).map fun i => positionLine (elements.getD i []) (positions.getD i 0), ?_, by simp, ?_⟩
  · unfold positionsReport
    rw [mapM_range_lines positions.length _ (fun i => positionLine (elements.getD i []) (positions.getD i 0))]
    · rfl
    · intro i hi
      rw [List.getElem?_eq_getElem (show i < elements.length by omega), List.getElem?_eq_getElem hi, List.getD_eq_getElem?_getD, List.getD_eq_getElem?_getD, List.getElem?_eq_getElem (show i < elements.length by omega), List.getElem?_eq_getElem hi]
      rfl
  · intro i e r h1 h2
    have hi : i < positions.length := (List.getElem?_eq_some_iff.1 h2).1
    refine ⟨positionLine e r, ?_, positionLine_shows (hw e (List.mem_of_getElem? h1)) r⟩
    rw [List.getElem?_map, List.getElem?_range hi, Option.map_some, List.getD_eq_getElem?_getD, List.getD_eq_getElem?_getD, h1, h2]
    rfl

/-! ## Anisotropic displacement parameters -/

theorem adpLine_shows {e : Line} (he : IsWord e) (u : Fin 3 → Fin 3 → K) : Shows 8 (adpLine e u) [e] [u 0 0, u 1 1, u 2 2, u 1 2, u 0 2, u 0 1] [] := by
  apply shows_texts
  unfold adpLine
  rw [pySplit_space, pySplit_space, pySplit_space, pySplit_space, pySplit_space, pySplit_space, pySplit_padRight _ he, pySplit_field, pySplit_field, pySplit_field, pySplit_field, pySplit_field, pySplit_field]
  rfl

theorem unique_range {l : List ℕ} {k : ℕ} (h : ∀ v, v ∈ l ↔ v < k) : (List.range (l.foldr max 0 + 1)).filter (fun v => v ∈ l) = List.range k := by
  have hle : ∀ (l : List ℕ) (v : ℕ), v ∈ l → v ≤ l.foldr max 0 := by
    intro l
    induction l with
    | nil => simp
    | cons a l ih =>
      intro v hv
      rcases List.mem_cons.1 hv with rfl | hv
      · exact le_max_left _ _
      · exact (ih v hv).trans (le_max_right _ _)
  have hk : k ≤ l.foldr max 0 + 1 := by
    by_contra hcon
    have := hle l _ ((h (l.foldr max 0 + 1)).2 (by omega))
    omega
  obtain ⟨m, hm⟩ := Nat.exists_eq_add_of_le hk
  rw [hm, List.range_add, List.filter_append, List.filter_eq_self.2, List.filter_eq_nil_iff.2, List.append_nil]
  · intro v hv
    obtain ⟨j, -, rfl⟩ := List.mem_map.1 hv
    simp [h]
  · intro v hv
    simpa [h] using hv

theorem map_getD_range (l : List ℕ) : (List.range l.length).map (fun i => l.getD i 0) = l := by
  apply List.ext_getElem (by simp)
  intro i h1 h2
  rw [List.getElem_map, List.getElem_range, List.getD_eq_getElem?_getD, List.getElem?_eq_getElem h2]
  rfl

theorem typeLabels_length (same : ℕ → ℕ → Bool) (n : ℕ) : (typeLabels same n).length = n := by
  unfold typeLabels
  simp

/-- The line that belongs to atom `i`. -/
def atomAdpLine (elements : List Line) (types : List ℕ) (u : ℕ → Fin 3 → Fin 3 → K) (i : ℕ) : Line := adpLine (elements.getD i []) (u (types.getD i 0))

/-- **C118** (anisotropic displacement parameters): with the types of `get_atom_type_index` (C06), atoms of one type being of one element, the report names the columns and has one line for each atom of the cell, which shows the element of the
atom and the six components of its tensor in the order of the columns, to eight decimals. The order of the lines is that of the types. -/
theorem C118_adp_partial (same : ℕ → ℕ → Bool) (n : ℕ) (elements : List Line) (hl : elements.length = n) (hw : ∀ e ∈ elements, IsWord e)
    (hs : ∀ i < n, ∀ j < n, (typeLabels same n).getD i 0 = (typeLabels same n).getD j 0 → elements.getD i [] = elements.getD j []) (coordinateType : Line) (u : ℕ → Fin 3 → Fin 3 → K) :
    ∃ title columns rows, adpReport coordinateType elements (typeLabels same n) (typeLabels same n).toFinset.card u = some (title :: columns :: rows) ∧
      pySplit columns = ["U11".toList, "U22".toList, "U33".toList, "U23".toList, "U13".toList, "U12".toList] ∧
      rows.Perm ((List.range n).map (atomAdpLine elements (typeLabels same n) u)) ∧
      (∃ sorted : List ℕ, sorted.Perm (List.range n) ∧ rows = sorted.map (atomAdpLine elements (typeLabels same n) u) ∧ (sorted.map fun i => (typeLabels same n).getD i 0).Pairwise (· ≤ ·)) ∧
      ∀ i < n, Shows 8 (atomAdpLine elements (typeLabels same n) u i) [elements.getD i []]
        (let t := u ((typeLabels same n).getD i 0); [t 0 0, t 1 1, t 2 2, t 1 2, t 0 2, t 0 1]) [] := by
  set types := typeLabels same n with ht
  have hlen : types.length = n := typeLabels_length same n
  have hm : ∀ v, v ∈ types ↔ v < types.toFinset.card := C06_labels same n
  set k := types.toFinset.card with hk
  have hel : ∀ i < n, elements[i]? = some (elements.getD i []) := fun i hi => by
    rw [List.getD_eq_getElem?_getD, List.getElem?_eq_getElem (by omega)]; rfl
  have hidx : ∀ t < k, types.idxOf t < n ∧ types.getD (types.idxOf t) 0 = t := fun t htk => by
    have := List.idxOf_lt_length_iff.2 ((hm t).2 htk)
    refine ⟨by omega, ?_⟩
    rw [List.getD_eq_getElem?_getD, List.getElem?_eq_getElem this]
    exact List.getElem_idxOf this
  set sorted : List ℕ := (List.range k).flatMap fun t => (List.range n).filter fun i => types.getD i 0 = t with hsorted
  have hcount : ∀ t, ((List.range n).filter fun i => types.getD i 0 = t).length = types.count t := by
    intro t
    have := congrArg (List.count t) (map_getD_range types)
    rw [hlen] at this
    rw [← this, List.count, List.countP_map, List.countP_eq_length_filter]
    congr 2
  have hrow : ∀ t < k, ((List.range n).filter fun i => types.getD i 0 = t).map (atomAdpLine elements types u) = List.replicate (types.count t) (adpLine (elements.getD (types.idxOf t) []) (u t)) := by
    intro t htk
    rw [List.eq_replicate_iff]
    refine ⟨by rw [List.length_map, hcount], fun line hline => ?_⟩
    obtain ⟨i, hi, rfl⟩ := List.mem_map.1 hline
    simp only [List.mem_filter, List.mem_range, decide_eq_true_eq] at hi
    unfold atomAdpLine
    rw [hi.2, hs i hi.1 _ (hidx t htk).1 (by rw [hi.2, (hidx t htk).2])]
  have hperm : sorted.Perm (List.range n) := by
    rw [List.perm_ext_iff_of_nodup]
    · intro i
      rw [hsorted]
      simp only [List.mem_flatMap, List.mem_range, List.mem_filter, decide_eq_true_eq]
      constructor
      · rintro ⟨t, -, hi, -⟩; exact hi
      · intro hi
        refine ⟨types.getD i 0, (hm _).1 ?_, hi, rfl⟩
        rw [List.getD_eq_getElem?_getD, List.getElem?_eq_getElem (by omega)]
        exact List.getElem_mem _
    · rw [hsorted, List.nodup_flatMap]
      refine ⟨fun t _ => List.nodup_range.filter _, ?_⟩
      refine List.Pairwise.imp_of_mem ?_ List.nodup_range
      intro a b _ _ hab i hi hi'
      simp only [List.mem_filter, decide_eq_true_eq] at hi hi'
      exact hab (hi.2.symm.trans hi'.2)
    · exact List.nodup_range
  have hrows : ((List.range k).map fun t => List.replicate (types.count t) (adpLine (elements.getD (types.idxOf t) []) (u t))).flatten = sorted.map (atomAdpLine elements types u) := by
    rw [hsorted, List.map_flatMap, ← List.flatMap_def]
    apply List.flatMap_congr
    intro t htk
    exact (hrow t (List.mem_range.1 htk)).symm
  refine ⟨"Anisotropic displacement parameters (".toList ++ coordinateType ++ ") [relative to average atomic positions]".toList, "          U11          U22          U33          U23          U13          U12".toList,
    sorted.map (atomAdpLine elements types u), ?_, by decide +kernel, hperm.map _, ⟨sorted, hperm, rfl, ?_⟩, ?_⟩
  · unfold adpReport npUniqueIndex npUniqueCounts
    rw [unique_range hm, List.mapM_map]
    have h1 : (List.range k).mapM ((fun i => elements[i]?) ∘ fun v => types.idxOf v) = some ((List.range k).map fun t => elements.getD (types.idxOf t) []) :=
      mapM_range_lines k _ _ fun t htk => hel _ (hidx t htk).1
    have h2 : (List.range k).mapM (fun i => do
        let count ← ((List.range k).map fun v => types.count v)[i]?
        let e ← ((List.range k).map fun t => elements.getD (types.idxOf t) [])[i]?
        return List.replicate count (adpLine e (u i))) = some ((List.range k).map fun t => List.replicate (types.count t) (adpLine (elements.getD (types.idxOf t) []) (u t))) :=
      mapM_range_lines k _ _ fun t htk => by
        rw [List.getElem?_map, List.getElem?_map, List.getElem?_range htk]
        rfl
    rw [← hrows]
    rw [h1]
    exact congrArg (fun o => o >>= _) h2
  · have : sorted.map (fun i => types.getD i 0) = (List.range k).flatMap fun t => ((List.range n).filter fun i => types.getD i 0 = t).map fun i => types.getD i 0 := by rw [hsorted, List.map_flatMap]
    rw [this, List.pairwise_flatMap]
    have hmem : ∀ t x, x ∈ ((List.range n).filter fun i => types.getD i 0 = t).map (fun i => types.getD i 0) → x = t := by
      intro t x hx
      obtain ⟨i, hi, rfl⟩ := List.mem_map.1 hx
      simpa using (List.mem_filter.1 hi).2
    refine ⟨fun t _ => ?_, ?_⟩
    · rw [List.pairwise_iff_forall_sublist]
      intro a b hab
      rw [hmem t a (hab.subset (by simp)), hmem t b (hab.subset (by simp))]
    · refine List.Pairwise.imp ?_ (List.pairwise_lt_range (n := k))
      intro a b hab x hx y hy
      rw [hmem a x hx, hmem b y hy]
      exact hab.le
  · intro i hi
    exact adpLine_shows (hw _ (List.mem_of_getElem? (hel i hi))) _

/-- C118, violated: the lines are not in the order of the atoms. For sodium, chlorine, sodium (the two sodium atoms equivalent) the second line is that of a sodium atom. -/
theorem C118_adp_order_violated (u : ℕ → Fin 3 → Fin 3 → K) : ∃ (same : ℕ → ℕ → Bool) (elements : List Line) (title columns : Line) (rows : List Line),
    (∀ e ∈ elements, IsWord e) ∧ elements[1]? = some "Cl".toList ∧
    adpReport "uvrs".toList elements (typeLabels same 3) (typeLabels same 3).toFinset.card u = some (title :: columns :: rows) ∧ ∀ line, rows[1]? = some line → (pySplit line).head? = some "Na".toList := by
  have hNa : IsWord "Na".toList := ⟨by decide, by decide⟩
  refine ⟨fun i j => i % 2 = j % 2, ["Na".toList, "Cl".toList, "Na".toList], "Anisotropic displacement parameters (".toList ++ "uvrs".toList ++ ") [relative to average atomic positions]".toList,
    "          U11          U22          U33          U23          U13          U12".toList, [adpLine "Na".toList (u 0), adpLine "Na".toList (u 0), adpLine "Cl".toList (u 1)], ?_, rfl, ?_, ?_⟩
  · intro e he
    fin_cases he <;> exact ⟨by decide, by decide⟩
  · rw [show typeLabels (fun i j => i % 2 = j % 2) 3 = [0, 1, 0] by decide +kernel]
    rfl
  · intro line hline
    cases hline
    obtain ⟨ws, e, -⟩ := adpLine_shows hNa (u 0)
    rw [e]
    rfl

/-! ## Thermal properties -/

theorem thermalLine_shows (label : String) (h : label.toList.getLast? = some ' ') (args : List K) (ix : List ℕ) (xs : List K) (hx : ix.map (fun i => args[i]?) = xs.map some) :
    ∃ line, thermalLine label args ix = some line ∧ Shows 4 line (pySplit label.toList) xs [] := by
  have hm : ix.mapM (fun i => (args[i]?).map (fixedField 12 4)) = some (xs.map (fixedField 12 4)) := by
    induction ix generalizing xs with
    | nil =>
      cases xs with
      | nil => rfl
      | cons _ _ => simp at hx
    | cons i ix ih =>
      cases xs with
      | nil => simp at hx
      | cons x xs =>
        simp only [List.map_cons, List.cons.injEq] at hx
        rw [List.mapM_cons, hx.1, ih xs hx.2]
        rfl
  refine ⟨_, by unfold thermalLine; rw [hm]; rfl, ?_⟩
  apply shows_texts
  rw [pySplit_last h, List.append_nil]
  congr 1
  clear hx hm
  induction xs with
  | nil => rfl
  | cons x xs ih =>
    cases xs with
    | nil => simpa using pySplit_field 12 4 x
    | cons y ys =>
      rw [List.map_cons, List.map_cons, List.intersperse_cons_cons, List.flatten_cons, List.flatten_cons, pySplit_head (b := "  ".toList ++ _) (Or.inl rfl), pySplit_field, pySplit_last (a := "  ".toList) rfl, ← List.map_cons, ih]
      rfl

end

/-- The rows of the table: label and which property it is about. -/
def thermalRows : List (List Line × (ThermalProps → ℝ)) :=
  [(["Free".toList, "energy".toList, "(KJ/mol):".toList], ThermalProps.freeEnergy), (["Entropy".toList, "(J/K/mol):".toList], ThermalProps.entropy), (["Cv".toList, "(J/K/mol):".toList], ThermalProps.cv),
    (["Total".toList, "energy".toList, "(KJ/mol):".toList], ThermalProps.totalEnergy), (["Integration:".toList], ThermalProps.integration)]

/-- **C118** (thermal properties): each row of the table has the property named by its label, to four decimals, first of the harmonic, then of the renormalised calculation, then (if asked for) of the power spectrum. -/
theorem C118_thermal (h r : ThermalProps) (p : Option ThermalProps) :
    ∃ table, thermalTable h.toList r.toList (p.map ThermalProps.toList) = some table ∧
      List.Forall₂ (fun line (row : List Line × (ThermalProps → ℝ)) => Shows 4 line row.1 ([row.2 h, row.2 r] ++ (p.map row.2).toList) []) table thermalRows := by
  cases p with
  | none =>
    obtain ⟨l0, e0, s0⟩ := thermalLine_shows "Free energy   (KJ/mol): " (by decide +kernel) (h.toList ++ r.toList) [0, 5] [h.freeEnergy, r.freeEnergy] rfl
    obtain ⟨l1, e1, s1⟩ := thermalLine_shows "Entropy      (J/K/mol): " (by decide +kernel) (h.toList ++ r.toList) [1, 6] [h.entropy, r.entropy] rfl
    obtain ⟨l2, e2, s2⟩ := thermalLine_shows "Cv           (J/K/mol): " (by decide +kernel) (h.toList ++ r.toList) [2, 7] [h.cv, r.cv] rfl
    obtain ⟨l3, e3, s3⟩ := thermalLine_shows "Total energy  (KJ/mol): " (by decide +kernel) (h.toList ++ r.toList) [3, 8] [h.totalEnergy, r.totalEnergy] rfl
    obtain ⟨l4, e4, s4⟩ := thermalLine_shows "Integration:            " (by decide +kernel) (h.toList ++ r.toList) [4, 9] [h.integration, r.integration] rfl
    refine ⟨[l0, l1, l2, l3, l4], ?_, ?_⟩
    · unfold thermalTable
      simp only [Option.map_none, e0, e1, e2, e3, e4]
      rfl
    · exact List.Forall₂.cons s0 (List.Forall₂.cons s1 (List.Forall₂.cons s2 (List.Forall₂.cons s3 (List.Forall₂.cons s4 List.Forall₂.nil))))
  | some p =>
    obtain ⟨l0, e0, s0⟩ := thermalLine_shows "Free energy   (KJ/mol): " (by decide +kernel) (h.toList ++ r.toList ++ p.toList) [0, 5, 10] [h.freeEnergy, r.freeEnergy, p.freeEnergy] rfl
    obtain ⟨l1, e1, s1⟩ := thermalLine_shows "Entropy      (J/K/mol): " (by decide +kernel) (h.toList ++ r.toList ++ p.toList) [1, 6, 11] [h.entropy, r.entropy, p.entropy] rfl
    obtain ⟨l2, e2, s2⟩ := thermalLine_shows "Cv           (J/K/mol): " (by decide +kernel) (h.toList ++ r.toList ++ p.toList) [2, 7, 12] [h.cv, r.cv, p.cv] rfl
    obtain ⟨l3, e3, s3⟩ := thermalLine_shows "Total energy  (KJ/mol): " (by decide +kernel) (h.toList ++ r.toList ++ p.toList) [3, 8, 13] [h.totalEnergy, r.totalEnergy, p.totalEnergy] rfl
    obtain ⟨l4, e4, s4⟩ := thermalLine_shows "Integration:            " (by decide +kernel) (h.toList ++ r.toList ++ p.toList) [4, 9, 14] [h.integration, r.integration, p.integration] rfl
    refine ⟨[l0, l1, l2, l3, l4], ?_, ?_⟩
    · unfold thermalTable
      simp only [Option.map_some, e0, e1, e2, e3, e4]
      rfl
    · exact List.Forall₂.cons s0 (List.Forall₂.cons s1 (List.Forall₂.cons s2 (List.Forall₂.cons s3 (List.Forall₂.cons s4 List.Forall₂.nil))))

/-- **C118** (table of phonopy): free energy, entropy and heat capacity, harmonic and renormalised. -/
theorem C118_phonopy (f s c f' s' c' : ℝ) :
    ∃ l0 l1 l2, phonopyTable [f, s, c] [f', s', c'] = some [l0, l1, l2] ∧ Shows 4 l0 ["Free".toList, "energy".toList, "(not".toList, "corrected):".toList] [f, f'] ["KJ/mol".toList] ∧
      Shows 4 l1 ["Entropy:".toList] [s, s'] ["J/K/mol".toList] ∧ Shows 4 l2 ["Cv:".toList] [c, c'] ["J/K/mol".toList] := by
  have tail : ∀ {line : Line} {b : List Line} {xs : List ℝ} (unit : Line), Shows 4 line b xs [] → unit.head? = some ' ' → Shows 4 (line ++ unit) b xs (pySplit unit) := by
    rintro line b xs unit ⟨ws, e, hf⟩ hu
    exact ⟨ws, by rw [pySplit_head (Or.inl hu), e, List.append_nil], hf⟩
  obtain ⟨l0, e0, s0⟩ := thermalLine_shows "Free energy (not corrected):   " (by decide +kernel) ([f, s, c] ++ [f', s', c']) [0, 3] [f, f'] rfl
  obtain ⟨l1, e1, s1⟩ := thermalLine_shows "Entropy:                       " (by decide +kernel) ([f, s, c] ++ [f', s', c']) [1, 4] [s, s'] rfl
  obtain ⟨l2, e2, s2⟩ := thermalLine_shows "Cv:                            " (by decide +kernel) ([f, s, c] ++ [f', s', c']) [2, 5] [c, c'] rfl
  refine ⟨_, _, _, ?_, tail "   KJ/mol".toList s0 rfl, tail "   J/K/mol".toList s1 rfl, tail "   J/K/mol".toList s2 rfl⟩
  unfold phonopyTable
  simp only [e0, e1, e2]
  rfl

/-! ## Peaks -/

/-- The lines for one branch with a good fit, in terms of the values `row` that are returned: words before, number, words behind. -/
noncomputable def peakSpec (curveName : Line) (showOccupancy : Bool) (harmonic : ℕ → ℝ) (shift : Option (ℕ → ℝ)) (i : ℕ) (r : PeakFit) (row : PeakRow) : List (List Line × List ℝ × List Line) :=
  [([], [], []), (["Peak".toList, "#".toList, natText (i + 1)], [], []), (["----------------------------------------------".toList], [], []),
    (["Width".toList], [row.width], ["THz".toList]),
    (["Position".toList], [row.position - (shift.map (· i)).getD 0], ["THz".toList]),
    (["Area".toList, "(<K>)".toList] ++ pySplit ("(".toList ++ curveName.take 10 ++ ")".toList), [row.dtQ2 / 2], ["eV".toList]),
    (["Area".toList, "(<K>)".toList, "(Total)".toList], [r.total], ["eV".toList]),
    (["<|dQ/dt|^2>".toList], [row.dtQ2], ["eV".toList])] ++
  (if showOccupancy then [(["Occupation".toList, "number".toList], [occupancy r.area r.position], []), (["Fit".toList, "temperature".toList], [fitTemperature r.area r.position], ["K".toList])] else []) ++
  [(["Base".toList, "line".toList], [r.baseLine], ["eV".toList, "*".toList, "ps".toList]),
    (["Maximum".toList, "height".toList], [r.maximum], ["eV".toList, "*".toList, "ps".toList]),
    (["Fitting".toList, "global".toList, "error".toList], [r.error], [])] ++
  (match r.asymmetry with
    | some a => [(["Peak".toList, "asymmetry".toList], [a], [])]
    | none => []) ++
  [(["Frequency".toList, "shift".toList], [r.position - harmonic i], ["THz".toList])] ++
  (match shift with
    | some _ => [(["Frequency".toList, "shift".toList, "(+T.".toList, "exp.)".toList], [row.position - harmonic i], ["THz".toList])]
    | none => [])

theorem peakLine_shows {label : Line} (h : label.getLast? = some ' ') (x : ℝ) (unit : String) (hu : unit.toList.head? = some ' ' ∨ unit.toList = []) : Shows 6 (peakLine label x unit) (pySplit label) [x] (pySplit unit.toList) := by
  apply shows_texts
  unfold peakLine
  rw [pySplit_head hu, pySplit_last h, pySplit_field]
  rfl

theorem peakBlock_shows (curveName : Line) (showOccupancy : Bool) (harmonic : ℕ → ℝ) (shift : Option (ℕ → ℝ)) (i : ℕ) (r : PeakFit) :
    List.Forall₂ (fun line (s : List Line × List ℝ × List Line) => Shows 6 line s.1 s.2.1 s.2.2) (peakBlock curveName showOccupancy harmonic shift i (some r))
      (peakSpec curveName showOccupancy harmonic shift i r (peakRow shift i (some r))) := by
  have text : ∀ {line : Line} {b : List Line}, pySplit line = b → Shows (K := ℝ) 6 line b [] [] := fun h => ⟨[], by simpa using h, List.Forall₂.nil⟩
  unfold peakBlock peakSpec
  refine List.rel_append (List.rel_append (List.rel_append (List.rel_append (List.rel_append ?_ ?_) ?_) ?_) ?_) ?_
  · refine .cons (text rfl) (.cons (text ?_) (.cons (text (by decide +kernel)) (.cons (peakLine_shows (by decide +kernel) _ _ (by decide +kernel)) (.cons ?_ (.cons ?_ (.cons (peakLine_shows (by decide +kernel) _ _ (by decide +kernel))
      (.cons (peakLine_shows (by decide +kernel) _ _ (by decide +kernel)) .nil)))))))
    · rw [pySplit_last (by decide +kernel), pySplit_word (natText_word _)]
      rfl
    · have := peakLine_shows (label := "Position                   ".toList) (by decide +kernel) r.position " THz" (by decide +kernel)
      have e : (peakRow shift i (some r)).position - (shift.map (· i)).getD 0 = r.position := by
        unfold peakRow
        cases shift <;> simp
      simp only [e]
      exact this
    · have := peakLine_shows (label := "Area (<K>)    (".toList ++ curveName.take 10 ++ ") ".toList) (List.getLast?_eq_some_iff.2 ⟨"Area (<K>)    (".toList ++ curveName.take 10 ++ [')'], by simp⟩) r.area " eV" (by decide +kernel)
      have e : pySplit ("Area (<K>)    (".toList ++ curveName.take 10 ++ ") ".toList) = ["Area".toList, "(<K>)".toList] ++ pySplit ("(".toList ++ curveName.take 10 ++ ")".toList) := by
        have e1 : "Area (<K>)    (".toList ++ curveName.take 10 ++ ") ".toList = ("Area (<K>)    ".toList ++ ("(".toList ++ curveName.take 10 ++ ")".toList)) ++ [' '] := by
          simp
        rw [e1, pySplit_head (Or.inl rfl), pySplit_last (by decide +kernel)]
        simp [pySplit, splitGo, isBlank]
      rw [e] at this
      have e2 : (peakRow shift i (some r)).dtQ2 / 2 = r.area := by unfold peakRow; simp
      simp only [e2]
      exact this
  · cases showOccupancy with
    | true => exact .cons (peakLine_shows (by decide +kernel) _ _ (by decide +kernel)) (.cons (peakLine_shows (by decide +kernel) _ _ (by decide +kernel)) .nil)
    | false => exact .nil
  · exact .cons (peakLine_shows (by decide +kernel) _ _ (by decide +kernel)) (.cons (peakLine_shows (by decide +kernel) _ _ (by decide +kernel)) (.cons (peakLine_shows (by decide +kernel) _ _ (by decide +kernel)) .nil))
  · cases r.asymmetry with
    | some a => exact .cons (peakLine_shows (by decide +kernel) _ _ (by decide +kernel)) .nil
    | none => exact .nil
  · exact .cons (peakLine_shows (by decide +kernel) _ _ (by decide +kernel)) .nil
  · cases shift with
    | some s =>
      have := peakLine_shows (label := "Frequency shift (+T. exp.) ".toList) (by decide +kernel) (r.position - harmonic i + s i) " THz" (by decide +kernel)
      have e : (peakRow (some s) i (some r)).position - harmonic i = r.position - harmonic i + s i := by unfold peakRow; simp only; ring
      simp only [e]
      exact .cons this .nil
    | none => exact .nil

theorem fittingReport_eq (n : ℕ) (fitOne : ℕ → Option PeakFit) (curveName : Line) (showOccupancy : Bool) (harmonic : ℕ → ℝ) (shift : Option (ℕ → ℝ)) :
    fittingReport n fitOne curveName showOccupancy harmonic shift = (((List.range n).map fun i => peakBlock curveName showOccupancy harmonic shift i (fitOne i)).flatten, (List.range n).map fun i => peakRow shift i (fitOne i)) := by
  unfold fittingReport
  induction n with
  | zero => rfl
  | succ n ih => rw [List.range_succ, List.foldl_append, ih]; simp

/-- **C118** (peaks): what is printed agrees with what is returned. The report is one block of lines per branch, in order, and the lists have one entry per branch. For a branch whose fit failed the block is one line of warning with the number of
the branch, and the entries are zero. For the others the lines show, to six decimals, the width, position (before the shift by thermal expansion), area and <|dQ/dt|²> that are returned, the last frequency shift shown being the difference between the
returned position and the harmonic frequency. -/
theorem C118_peaks (n : ℕ) (fitOne : ℕ → Option PeakFit) (curveName : Line) (showOccupancy : Bool) (harmonic : ℕ → ℝ) (shift : Option (ℕ → ℝ)) :
    ∃ blocks : List (List Line), (fittingReport n fitOne curveName showOccupancy harmonic shift).1 = blocks.flatten ∧ blocks.length = n ∧ (fittingReport n fitOne curveName showOccupancy harmonic shift).2.length = n ∧
      ∀ i < n, ∃ block row, blocks[i]? = some block ∧ (fittingReport n fitOne curveName showOccupancy harmonic shift).2[i]? = some row ∧
        (fitOne i = none → row = ⟨0, 0, 0, 0⟩ ∧ ∃ line, block = [line] ∧ (pySplit line).head? = some "Warning:".toList ∧ (pySplit line).getLast? = some ('#' :: natText (i + 1))) ∧
        ∀ r, fitOne i = some r → row.error = r.error / r.maximum ∧
          List.Forall₂ (fun line (s : List Line × List ℝ × List Line) => Shows 6 line s.1 s.2.1 s.2.2) block (peakSpec curveName showOccupancy harmonic shift i r row) := by
  rw [fittingReport_eq]
  refine ⟨_, rfl, by simp, by simp, fun i hi => ⟨_, _, by rw [List.getElem?_map, List.getElem?_range hi]; rfl, by rw [List.getElem?_map, List.getElem?_range hi]; rfl, ?_, ?_⟩⟩
  · intro hf
    beta_reduce
    rw [hf]
    refine ⟨rfl, _, rfl, ?_⟩
    have : pySplit ("Warning: Fitting not successful in peak #".toList ++ natText (i + 1)) = ["Warning:".toList, "Fitting".toList, "not".toList, "successful".toList, "in".toList, "peak".toList, '#' :: natText (i + 1)] := by
      have e1 : "Warning: Fitting not successful in peak #".toList ++ natText (i + 1) = "Warning: Fitting not successful in peak ".toList ++ ('#' :: natText (i + 1)) := by simp
      have hword : IsWord ('#' :: natText (i + 1)) := ⟨by simp, fun c hc => by
        rcases List.mem_cons.1 hc with rfl | hc
        · decide
        · exact (natText_word _).2 c hc⟩
      rw [e1, pySplit_last (by decide +kernel), pySplit_word hword]
      rfl
    rw [this]
    exact ⟨rfl, rfl⟩
  · intro r hr
    beta_reduce
    rw [hr]
    exact ⟨rfl, peakBlock_shows curveName showOccupancy harmonic shift i r⟩

/-- C118: the positions and widths are those of the functional model of the analysis (C36). -/
theorem C118_lists (n : ℕ) (fitOne : ℕ → Option PeakFit) (curveName : Line) (showOccupancy : Bool) (harmonic : ℕ → ℝ) (shift : Option (ℕ → ℝ)) :
    ((fittingReport n fitOne curveName showOccupancy harmonic shift).2.map PeakRow.position, (fittingReport n fitOne curveName showOccupancy harmonic shift).2.map PeakRow.width) =
      fittingLoop n (fun i => (fitOne i).map PeakFit.toFitResult) shift := by
  rw [fittingReport_eq]
  unfold fittingLoop
  induction n with
  | zero => rfl
  | succ n ih =>
    rw [List.range_succ, List.foldl_append, ← ih]
    cases h : fitOne n with
    | none => simp [h, peakRow]
    | some r =>
      cases shift <;> simp [h, peakRow]

/-- C118_positions on a concrete cell. -/
example : positionsReport ["Na".toList, "Cl".toList] [![(0 : ℚ), 0, 0], ![2843 / 1000, -1 / 4, 1 / 3]] =
    some ["Average atomic positions".toList, "Na      0.00000000      0.00000000      0.00000000".toList, "Cl      2.84300000     -0.25000000      0.33333333".toList] := by
  decide +kernel

/-- C118_adp_partial: hypotheses met with two types in the order Na Cl Na. -/
example : (∀ i < 3, ∀ j < 3, (typeLabels (fun i j => decide (i % 2 = j % 2)) 3).getD i 0 = (typeLabels (fun i j => decide (i % 2 = j % 2)) 3).getD j 0 →
    ["Na".toList, "Cl".toList, "Na".toList].getD i [] = ["Na".toList, "Cl".toList, "Na".toList].getD j []) := by
  decide +kernel

/-- C118_thermal on numbers. -/
example : thermalTable [(1 : ℚ), 2, 3, 4, 5] [6, 7, 8, 9, 10] none = some ["Free energy   (KJ/mol):       1.0000        6.0000".toList, "Entropy      (J/K/mol):       2.0000        7.0000".toList,
    "Cv           (J/K/mol):       3.0000        8.0000".toList, "Total energy  (KJ/mol):       4.0000        9.0000".toList, "Integration:                  5.0000       10.0000".toList] := by
  decide +kernel

end Verif
