import Verif.Model.PoscarText
import Verif.Props.CurveFile
import Verif.Props.GenerateCell

/-! # C55, C78: POSCAR files character by character -/

set_option autoImplicit false
set_option linter.unusedSectionVars false

namespace Verif

section
variable {K : Type} [Field K] [LinearOrder K] [IsStrictOrderedRing K] [FloorRing K]

/-- Specification: the line begins with three numbers, `more` being the words that follow. -/
def ThreeNumbers (line : List Char) (r : Fin 3 → K) (more : List (List Char)) : Prop :=
  ∃ a b c, pySplit line = a :: b :: c :: more ∧ pyFloat a = some (r 0) ∧ pyFloat b = some (r 1) ∧ pyFloat c = some (r 2)

/-- Specification: the lines of a POSCAR file of either style; the old style has the names in the first line. -/
def poscarLines (old : Bool) (title scale a b c names counts mode : List Char) (rows rest : List (List Char)) : List (List Char) :=
  (if old then [names, scale, a, b, c, counts, mode] else [title, scale, a, b, c, names, counts, mode]) ++ rows ++ rest

theorem vec3_ofFn (r : Fin 3 → K) : vec3 [r 0, r 1, r 2] = some r := by
  have : (![r 0, r 1, r 2] : Fin 3 → K) = r := by
    funext i
    fin_cases i <;> rfl
  simp only [vec3, this]

theorem mapM_pyFloat_three {line : List Char} {r : Fin 3 → K} {more : List (List Char)} (h : ThreeNumbers line r more) :
    ((pySplit line).take 3).mapM (pyFloat (K := K)) = some [r 0, r 1, r 2] := by
  obtain ⟨a, b, c, h, ha, hb, hc⟩ := h
  rw [h]
  simp [ha, hb, hc]

theorem floatTable_three (rows : List (List (List Char))) (coords : List (Fin 3 → K)) (h : List.Forall₂ (fun row r => row.mapM (pyFloat (K := K)) = some [r 0, r 1, r 2]) rows coords) :
    floatTable (K := K) rows = .ok coords := by
  have h1 : (rows.mapM fun (r : List (List Char)) => r.mapM (pyFloat (K := K))) = some (coords.map fun r => [r 0, r 1, r 2]) := by
    rw [mapM_eq_some_iff, List.forall₂_map_right_iff]
    exact h
  unfold floatTable
  rw [h1]
  simp only
  rw [if_pos, mapM_map_some _ _ id _ fun r _ => vec3_ofFn r]
  · simp [Py.orError]
  · intro r hr
    obtain ⟨p, hp, rfl⟩ := List.mem_map.1 hr
    cases coords with
    | nil => simp at hp
    | cons q coords => simp

theorem repeatWords_eq (ws : List (List Char)) : ∀ ns : List ℕ, ns.length = ws.length →
    repeatWords ws (ns.map fun (n : ℕ) => (n : ℤ)) = .ok ((ws.zip ns).flatMap fun b => List.replicate b.2 b.1) := by
  induction ws with
  | nil => intro ns _; rfl
  | cons w ws ih =>
    intro ns h
    cases ns with
    | nil => simp at h
    | cons n ns =>
      simp only [List.map_cons, repeatWords]
      rw [ih ns (by simpa using h)]
      simp [Py.bind]

theorem mapM_range_get (pre rows rest : List (List Char)) (n : ℕ) (hn : pre.length = n) :
    ((List.range rows.length).mapM fun k => (pre ++ rows ++ rest)[n + k]?) = some rows := by
  rw [mapM_eq_some_iff, List.forall₂_iff_get]
  refine ⟨by simp, ?_⟩
  intro i h1 h2
  subst hn
  simp only [List.get_eq_getElem, List.getElem_range]
  rw [List.append_assoc, List.getElem?_append_right (by omega), Nat.add_sub_cancel_left, List.getElem?_append_left h2, List.getElem?_eq_getElem h2]

theorem mapM_natText (counts : List ℕ) : (counts.map natText).mapM pyIntText = some (counts.map fun (n : ℕ) => (n : ℤ)) := by
  refine mapM_map_some _ _ _ _ ?_
  intro c _
  have := C111_nat c [] [] (by intro c hc; simp at hc) (by intro c hc; simp at hc)
  simpa using this

theorem sum_map_natCast (counts : List ℕ) : (counts.map fun (n : ℕ) => (n : ℤ)).sum.toNat = counts.sum := by
  have : (counts.map fun (n : ℕ) => (n : ℤ)).sum = (counts.sum : ℕ) := by
    induction counts with
    | nil => rfl
    | cons c cs ih => rw [List.map_cons, List.sum_cons, ih, List.sum_cons]; push_cast; rfl
  exact (congrArg Int.toNat this).trans (Int.toNat_natCast _)

theorem poscarBody_eq (pre rows rest : List (List Char)) (cell : Matrix (Fin 3) (Fin 3) K) (iCount iNames : ℕ) (names counts mode : List Char) (words : List (List Char)) (ns : List ℕ)
    (ch : Char) (coords : List (Fin 3 → K)) (hpre : pre.length = iCount + 2) (hnames : pre[iNames]? = some names) (hcounts : pre[iCount]? = some counts) (hmode : pre[iCount + 1]? = some mode)
    (hw : pySplit names = words) (hc : pySplit counts = ns.map natText) (hch : mode.head? = some ch) (hlen : ns.length = words.length) (hsum : coords.length = ns.sum)
    (hrows : List.Forall₂ (fun line r => ∃ more, ThreeNumbers line r more) rows coords) :
    poscarBody (pre ++ rows ++ rest) cell iCount iNames = .ok
      { cell := cell, scaledPositions := if ch = 'D' ∨ ch = 'd' then some coords else none, positions := if ch = 'D' ∨ ch = 'd' then none else some coords,
        elements := (words.zip ns).flatMap fun b => List.replicate b.2 b.1 } := by
  have get : ∀ (i : ℕ) (l : List Char), pre[i]? = some l → (pre ++ rows ++ rest)[i]? = some l := by
    intro i l h
    have hi := (List.getElem?_eq_some_iff.1 h).1
    rw [List.append_assoc, List.getElem?_append_left hi, h]
  have hrl : rows.length = ns.sum := by rw [hrows.length_eq, hsum]
  unfold poscarBody
  rw [get _ _ hcounts, get _ _ hmode, get _ _ hnames]
  simp only [Py.orError, Py.bind, hc, mapM_natText, Py.orValueError, hch, sum_map_natCast]
  rw [← hrl, mapM_range_get pre rows rest _ hpre]
  simp only
  rw [floatTable_three _ coords]
  · simp only
    rw [hw, repeatWords_eq _ _ hlen]
    by_cases hD : ch = 'D' ∨ ch = 'd'
    · simp [hD]
    · simp [hD]
  · rw [List.forall₂_map_left_iff]
    exact hrows.imp fun line r ⟨more, h⟩ => mapM_pyFloat_three h

/-- **C78**, for the text of the file: a POSCAR file of either style, whatever the white space, with any words after the coordinates and any lines after the atoms, is read as what it says, except that
Cartesian coordinates are not multiplied by the scale factor (C78_cartesian_violated). The file is direct if the first character of the line is `D` or `d`. In the old style this line
must not consist of whole numbers. -/
theorem C78_text_partial (old : Bool) (title scale a b c names counts mode : List Char) (rows rest : List (List Char)) (m : K) (cell : Matrix (Fin 3) (Fin 3) K) (words : List (List Char)) (ns : List ℕ)
    (ch : Char) (coords : List (Fin 3 → K)) (hnl : ∀ l ∈ poscarLines old title scale a b c names counts mode rows rest, '\n' ∉ l)
    (hscale : pyFloat scale = some m) (ha : ThreeNumbers a (cell 0) []) (hb : ThreeNumbers b (cell 1) []) (hc : ThreeNumbers c (cell 2) [])
    (hnames : pySplit names = words) (hcounts : pySplit counts = ns.map natText) (hlen : ns.length = words.length) (hch : mode.head? = some ch)
    (hmode : old = true → (pySplit mode).mapM pyIntText = none) (hrows : List.Forall₂ (fun line r => ∃ more, ThreeNumbers line r more) rows coords) (hsum : coords.length = ns.sum) :
    poscarRead (joinChar '\n' (poscarLines old title scale a b c names counts mode rows rest)) = some
      { cell := m • cell, scaledPositions := if ch = 'D' ∨ ch = 'd' then some coords else none, positions := if ch = 'D' ∨ ch = 'd' then none else some coords,
        elements := (words.zip ns).flatMap fun b => List.replicate b.2 b.1 } := by
  have hne : poscarLines old title scale a b c names counts mode rows rest ≠ [] := by unfold poscarLines; cases old <;> simp
  have key : ∀ (line : List Char) (r : Fin 3 → K), ThreeNumbers line r [] → (pySplit line).mapM (pyFloat (K := K)) = some [r 0, r 1, r 2] := by
    intro line r h
    have h2 := mapM_pyFloat_three h
    obtain ⟨p, q, s, h, -⟩ := h
    rw [h] at h2 ⊢
    exact h2
  have hcell : floatTable (K := K) ([a, b, c].map pySplit) = .ok [cell 0, cell 1, cell 2] := floatTable_three _ _ (by
    rw [List.forall₂_map_left_iff]
    exact .cons (key _ _ ha) (.cons (key _ _ hb) (.cons (key _ _ hc) .nil)))
  have hm : (Matrix.of fun i j => ((![cell 0, cell 1, cell 2] : Fin 3 → Fin 3 → K) i j) * m) = m • cell := by
    ext i j
    fin_cases i <;> simp [mul_comm]
  unfold poscarRead
  rw [splitChar_join _ _ hne hnl]
  simp only
  have h1 : (poscarLines old title scale a b c names counts mode rows rest)[1]? = some scale := by cases old <;> rfl
  have h2 : ((List.range 3).mapM fun i => (poscarLines old title scale a b c names counts mode rows rest)[2 + i]?) = some [a, b, c] := by cases old <;> rfl
  rw [h1, Option.bind_some, hscale, Option.bind_some, h2, Option.bind_some, hcell]
  simp only [hm]
  cases old with
  | false =>
    have hb := poscarBody_eq [title, scale, a, b, c, names, counts, mode] rows rest (m • cell) 6 5 names counts mode words ns ch coords rfl rfl rfl rfl hnames hcounts hch hlen hsum hrows
    rw [show poscarLines false title scale a b c names counts mode rows rest = [title, scale, a, b, c, names, counts, mode] ++ rows ++ rest from rfl, hb]
  | true =>
    have hb := poscarBody_eq [names, scale, a, b, c, counts, mode] rows rest (m • cell) 5 0 names counts mode words ns ch coords rfl rfl rfl rfl hnames hcounts hch hlen hsum hrows
    have hv : poscarBody ([names, scale, a, b, c, counts, mode] ++ rows ++ rest) (m • cell) 6 5 = .valueError := by
      unfold poscarBody
      have : ([names, scale, a, b, c, counts, mode] ++ rows ++ rest)[6]? = some mode := rfl
      rw [this]
      simp only [Py.orError, Py.bind, hmode rfl, Py.orValueError]
    rw [show poscarLines true title scale a b c names counts mode rows rest = [names, scale, a, b, c, counts, mode] ++ rows ++ rest from rfl, hb, hv]

theorem blankText_one (c : Char) (h : isBlank c = true) : IsBlankText [c] := by
  intro d hd
  simp at hd
  rwa [hd]

theorem pySplit_join (ws : List (List Char)) (h : ∀ w ∈ ws, IsWord w) (b : List Char) (hb : IsBlankText b) : pySplit (joinChar ' ' ws ++ b) = ws := by
  induction ws with
  | nil =>
    have := pySplit_words [] b hb (by simp)
    simpa [joinChar] using this
  | cons a ws ih =>
    cases ws with
    | nil =>
      have := C111_words [] [] b (by intro c hc; simp at hc) hb (by simp) a (h a (by simp))
      simpa [joinChar] using this
    | cons w ws =>
      have ih' := ih fun v hv => h v (by simp [hv])
      have ha := h a (by simp)
      rw [joinChar]
      unfold pySplit at ih' ⊢
      have e : a ++ ' ' :: joinChar ' ' (w :: ws) ++ b = a ++ ([' '] ++ (joinChar ' ' (w :: ws) ++ b)) := by simp
      rw [e, splitGo_word _ _ _ ha.2, splitGo_end _ _ _ (by simpa using ha.1) (blankText_one _ rfl) (by simp), ih']
      simp

theorem three_fields (w dec : ℕ) (sep : List Char) (hs : IsBlankText sep) (hne : sep ≠ []) (r : Fin 3 → K) :
    ThreeNumbers (fixedField w dec (r 0) ++ sep ++ fixedField w dec (r 1) ++ sep ++ fixedField w dec (r 2)) (fun j => aroundDec dec (r j)) [] := by
  have hread : ∀ x : K, pyFloat (fixedText dec x) = some (aroundDec dec x) := by
    intro x
    have := C111_fixed_eq dec x [] [] (by intro c hc; simp at hc) (by intro c hc; simp at hc)
    rwa [List.nil_append, List.append_nil] at this
  refine ⟨fixedText dec (r 0), fixedText dec (r 1), fixedText dec (r 2), ?_, hread _, hread _, hread _⟩
  obtain ⟨p0, h0, e0⟩ := padLeft_eq w (fixedText dec (r 0))
  obtain ⟨p1, h1, e1⟩ := padLeft_eq w (fixedText dec (r 1))
  obtain ⟨p2, h2, e2⟩ := padLeft_eq w (fixedText dec (r 2))
  have happ : ∀ p, IsBlankText p → IsBlankText (sep ++ p) := by
    intro p hp c hc
    rcases List.mem_append.1 hc with hc | hc
    exacts [hs c hc, hp c hc]
  have := C111_words [(fixedText dec (r 0), sep ++ p1), (fixedText dec (r 1), sep ++ p2)] p0 [] h0 (by intro c hc; simp at hc) (by
    intro q hq
    simp only [List.mem_cons, List.not_mem_nil, or_false] at hq
    rcases hq with rfl | rfl
    · exact ⟨fixedText_word _ _, happ _ h1, by simp [hne]⟩
    · exact ⟨fixedText_word _ _, happ _ h2, by simp [hne]⟩) (fixedText dec (r 2)) (fixedText_word _ _)
  rw [fixedField, fixedField, fixedField, e0, e1, e2]
  simpa using this

theorem row10Text_three (r : Fin 3 → K) : ThreeNumbers (row10Text r) (fun j => aroundDec 10 (r j)) [] := by
  have := three_fields 20 10 [' '] (blankText_one _ rfl) (by simp) r
  simpa [row10Text] using this

theorem row15Text_three (r : Fin 3 → K) : ThreeNumbers (row15Text r) (fun j => aroundDec 15 (r j)) [] :=
  three_fields 15 15 "   ".toList (by intro c hc; simp at hc; rw [hc]; rfl) (by simp) r

theorem row10Text_newline (r : Fin 3 → K) : '\n' ∉ row10Text r := by
  unfold row10Text
  simp [fixedField_newline]

theorem row15Text_newline (r : Fin 3 → K) : '\n' ∉ row15Text r := by
  unfold row15Text
  simp [fixedField_newline]

theorem joinChar_newline (sep : Char) (hsep : sep ≠ '\n') (ws : List (List Char)) (h : ∀ w ∈ ws, '\n' ∉ w) : '\n' ∉ joinChar sep ws := by
  induction ws with
  | nil => simp [joinChar]
  | cons w ws ih =>
    cases ws with
    | nil => simpa [joinChar] using h w (by simp)
    | cons v ws =>
      rw [joinChar, List.mem_append, List.mem_cons, not_or, not_or]
      exact ⟨h w (by simp), Ne.symm hsep, ih fun u hu => h u (by simp [hu])⟩

theorem joinChar_cons (sep : Char) (w : List Char) (ws : List (List Char)) (h : ws ≠ []) : joinChar sep (w :: ws) = w ++ sep :: joinChar sep ws := by
  cases ws with
  | nil => exact absurd rfl h
  | cons v ws => rfl

theorem joinChar_rows (sep : Char) (rows : List (List Char)) : joinChar sep (rows ++ [[]]) = rows.flatMap fun r => r ++ [sep] := by
  induction rows with
  | nil => rfl
  | cons r rows ih =>
    rw [List.cons_append, joinChar_cons _ _ _ (by simp), ih]
    simp

variable {α : Type*} [LinearOrder α]

/-- The lines of a generated file. -/
theorem vaspText_lines (name : α → List Char) (scaled : Bool) (cell : Matrix (Fin 3) (Fin 3) K) (types : List α) (coordinates : List (Fin 3 → K)) :
    vaspText name scaled cell types coordinates = joinChar '\n' (poscarLines false "Generated using dynaphopy".toList "1.0".toList (row10Text (cell 0)) (row10Text (cell 1)) (row10Text (cell 2))
      (joinChar ' ' ((vaspElements types).1.map name) ++ [' ']) (joinChar ' ' ((vaspElements types).2.map natText)) (if scaled then "Direct".toList else "Cartesian".toList)
      (coordinates.map fun r => if scaled then row15Text r else row10Text r) [[]]) := by
  unfold vaspText poscarLines
  simp only [Bool.false_eq_true, if_false, List.cons_append, List.nil_append]
  have hn : ∀ l : List (List Char), l ++ [[]] ≠ [] := by simp
  iterate 7 rw [joinChar_cons _ _ _ (List.cons_ne_nil _ _)]
  rw [joinChar_cons _ _ _ (hn _)]
  rw [joinChar_rows]
  cases scaled <;> simp [List.flatMap_map]

/-- What is read from a generated file. -/
theorem poscarRead_vaspText (name : α → List Char) (hname : ∀ e, IsWord (name e)) (scaled : Bool) (cell : Matrix (Fin 3) (Fin 3) K) (types : List α) (coordinates : List (Fin 3 → K))
    (h : coordinates.length = types.length) :
    poscarRead (vaspText name scaled cell types coordinates) = some
      { cell := Matrix.of fun i j => aroundDec 10 (cell i j),
        scaledPositions := if scaled then some (coordinates.map fun r j => aroundDec 15 (r j)) else none,
        positions := if scaled then none else some (coordinates.map fun r j => aroundDec 10 (r j)),
        elements := (((vaspElements types).1.zip (vaspElements types).2).flatMap fun b => List.replicate b.2 b.1).map name } := by
  obtain ⟨hsum, hlen, -⟩ := vaspElements_counts types
  have hword : ∀ w ∈ (vaspElements types).1.map name, IsWord w := by
    intro w hw
    obtain ⟨e, -, rfl⟩ := List.mem_map.1 hw
    exact hname e
  have hnat : ∀ w ∈ (vaspElements types).2.map natText, IsWord w := by
    intro w hw
    obtain ⟨e, -, rfl⟩ := List.mem_map.1 hw
    exact natText_word e
  rw [vaspText_lines]
  have hmain := C78_text_partial (K := K) false "Generated using dynaphopy".toList "1.0".toList (row10Text (cell 0)) (row10Text (cell 1)) (row10Text (cell 2))
      (joinChar ' ' ((vaspElements types).1.map name) ++ [' ']) (joinChar ' ' ((vaspElements types).2.map natText)) (if scaled then "Direct".toList else "Cartesian".toList)
      (coordinates.map fun r => if scaled then row15Text r else row10Text r) [[]] 1 (Matrix.of fun i j => aroundDec 10 (cell i j)) ((vaspElements types).1.map name) (vaspElements types).2
      (if scaled then 'D' else 'C') (coordinates.map fun r j => if scaled then aroundDec 15 (r j) else aroundDec 10 (r j)) (by
        intro l hl
        simp only [poscarLines, Bool.false_eq_true, if_false, List.cons_append, List.nil_append, List.mem_cons, List.mem_append, List.not_mem_nil, or_false] at hl
        rcases hl with rfl | rfl | rfl | rfl | rfl | rfl | rfl | rfl | hl | rfl
        · decide
        · decide
        · exact row10Text_newline _
        · exact row10Text_newline _
        · exact row10Text_newline _
        · rw [List.mem_append, not_or]
          exact ⟨joinChar_newline ' ' (by decide) _ fun w hw => word_newline (hword w hw), by decide⟩
        · exact joinChar_newline ' ' (by decide) _ fun w hw => word_newline (hnat w hw)
        · cases scaled <;> decide
        · obtain ⟨r, -, rfl⟩ := List.mem_map.1 hl
          cases scaled
          · exact row10Text_newline r
          · exact row15Text_newline r
        · simp)
      (by
        have := C111_fixed_eq (K := K) 1 1 [] [] (by intro c hc; simp at hc) (by intro c hc; simp at hc)
        have e : fixedText 1 (1 : K) = "1.0".toList := by
          have h1 : roundEven (10 : K) = 10 := by simpa using roundEven_intCast (K := K) 10
          have h0 : ¬ (1 : K) < 0 := not_lt.2 zero_le_one
          simp [fixedText, signText, h0, h1]
          decide
        rw [e, List.nil_append, List.append_nil] at this
        rw [this]
        congr 1
        have := aroundDec_grid (K := K) 1 10
        norm_num at this
        exact this)
      (row10Text_three _) (row10Text_three _) (row10Text_three _)
      (pySplit_join _ hword [' '] (blankText_one _ rfl)) (by
        have := pySplit_join _ hnat [] (by intro c hc; simp at hc)
        rwa [List.append_nil] at this) (by rw [List.length_map]; exact hlen) (by cases scaled <;> rfl) (fun h => by cases h)
      (by
        rw [List.forall₂_map_left_iff, List.forall₂_map_right_iff, List.forall₂_same]
        intro r _
        cases scaled
        · exact ⟨[], row10Text_three r⟩
        · exact ⟨[], row15Text_three r⟩) (by rw [List.length_map, h, hsum])
  rw [hmain]
  congr 1
  have hel : ((List.map name (vaspElements types).1).zip (vaspElements types).2).flatMap (fun b => List.replicate b.2 b.1) =
      (((vaspElements types).1.zip (vaspElements types).2).flatMap fun b => List.replicate b.2 b.1).map name := by
    rw [List.zip_map_left, List.flatMap_map, List.map_flatMap]
    simp
  cases scaled <;> simp [hel]

/-- **C55**, for the text of the file: reading a generated POSCAR file gives the cell to ten decimals, fractional coordinates to fifteen or Cartesian ones to ten decimals, as many atoms as written, and
the elements exactly if the atoms of each element are listed together (different elements having different names without white space). -/
theorem C55_text_partial (name : α → List Char) (hname : ∀ e, IsWord (name e)) (hinj : Function.Injective name) (scaled : Bool) (cell : Matrix (Fin 3) (Fin 3) K) (types : List α)
    (coordinates : List (Fin 3 → K)) (h : coordinates.length = types.length) :
    ∃ r, poscarRead (vaspText name scaled cell types coordinates) = some r ∧ (∀ i j, |r.cell i j - cell i j| ≤ 1 / 2 / 10 ^ 10) ∧
      (scaled = true → r.positions = none ∧ ∃ c, r.scaledPositions = some c ∧ List.Forall₂ (fun p q => ∀ j, |q j - p j| ≤ 1 / 2 / 10 ^ 15) coordinates c) ∧
      (scaled = false → r.scaledPositions = none ∧ ∃ c, r.positions = some c ∧ List.Forall₂ (fun p q => ∀ j, |q j - p j| ≤ 1 / 2 / 10 ^ 10) coordinates c) ∧
      r.elements.length = types.length ∧ (r.elements = types.map name ↔ Grouped types) := by
  obtain ⟨r, hr, -, hl, hiff⟩ := C55_elements_iff (K := K) scaled cell types coordinates h
  have hr' := readPoscar_generateVasp (K := K) scaled cell types coordinates h
  rw [hr'] at hr
  have hre := Option.some.inj hr
  rw [← hre] at hl hiff
  refine ⟨_, poscarRead_vaspText name hname scaled cell types coordinates h, ?_, ?_, ?_, ?_, ?_⟩
  · intro i j
    exact aroundDec_error 10 _
  · rintro rfl
    refine ⟨rfl, _, rfl, ?_⟩
    rw [List.forall₂_map_right_iff, List.forall₂_same]
    exact fun p _ j => aroundDec_error 15 _
  · rintro rfl
    refine ⟨rfl, _, rfl, ?_⟩
    rw [List.forall₂_map_right_iff, List.forall₂_same]
    exact fun p _ j => aroundDec_error 10 _
  · simpa using hl
  · simp only at hiff ⊢
    rw [← hiff]
    exact (List.map_injective_iff.2 hinj).eq_iff

/-- C55, for the text: writing and reading a second time changes nothing. -/
theorem C55_text_stable (name : α → List Char) (hname : ∀ e, IsWord (name e)) (scaled : Bool) (cell : Matrix (Fin 3) (Fin 3) K) (types : List α)
    (coordinates : List (Fin 3 → K)) (h : coordinates.length = types.length) :
    ∃ r c, poscarRead (vaspText name scaled cell types coordinates) = some r ∧ (if scaled then r.scaledPositions else r.positions) = some c ∧
      poscarRead (K := K) (vaspText name scaled r.cell types c) = some r := by
  have hidem : ∀ (n : ℕ) (x : K), aroundDec n (aroundDec n x) = aroundDec n x := fun n x => aroundDec_idem_text n x
  cases scaled with
  | true =>
    refine ⟨_, _, poscarRead_vaspText name hname true cell types coordinates h, rfl, ?_⟩
    rw [poscarRead_vaspText name hname true _ types _ (by simpa using h)]
    simp [hidem]
  | false =>
    refine ⟨_, _, poscarRead_vaspText name hname false cell types coordinates h, rfl, ?_⟩
    rw [poscarRead_vaspText name hname false _ types _ (by simpa using h)]
    simp [hidem]

end

/-- Example: an old style file with blanks, tabs and velocities. -/
example : (poscarRead (K := ℚ) "Ga N\n 2.0 \n1 0 0\n0 1 0\n\t0 0 1\n1 1\ndirect\n0.5 0.25 -1e-2 T T F\n 0.75 0 .5\n\n0 0 0\n".toList).map
      (fun r => (r.elements, r.cell 0 0, r.positions.isSome, r.scaledPositions.map fun l => l.map fun p => [p 0, p 1, p 2])) =
    some (["Ga".toList, "N".toList], 2, false, some [[1 / 2, 1 / 4, -1 / 100], [3 / 4, 0, 1 / 2]]) := by
  decide +kernel

/-- Example: a generated file (elements as numbers: 31 is Ga, 7 is N). -/
example : vaspText (fun e : ℕ => if e = 31 then "Ga".toList else "N".toList) true (1 : Matrix (Fin 3) (Fin 3) ℚ) [31, 7] [0, ![1 / 3, 0, 1 / 2]] =
    ("Generated using dynaphopy\n1.0\n        1.0000000000         0.0000000000         0.0000000000\n        0.0000000000         1.0000000000         0.0000000000\n" ++
      "        0.0000000000         0.0000000000         1.0000000000\nGa N \n1 1\nDirect\n0.000000000000000   0.000000000000000   0.000000000000000\n" ++
      "0.333333333333333   0.000000000000000   0.500000000000000\n").toList := by
  decide +kernel

end Verif
