import Verif.Model.CurveFile
import Verif.Props.Text
import Verif.Props.Fitdata

/-! # C112: spectra written to a file and read again -/

set_option autoImplicit false
set_option linter.unusedSectionVars false

namespace Verif

theorem splitChar_none (sep : Char) (l : List Char) (h : sep ∉ l) : splitChar sep l = [l] := by
  induction l with
  | nil => rfl
  | cons c l ih =>
    rw [splitChar, if_neg (by rintro rfl; simp at h), ih (by simp at h; exact h.2)]

theorem splitChar_sep (sep : Char) (l rest : List Char) (h : sep ∉ l) : splitChar sep (l ++ sep :: rest) = l :: splitChar sep rest := by
  induction l with
  | nil => rw [List.nil_append, splitChar, if_pos rfl]
  | cons c l ih =>
    rw [List.cons_append, splitChar, if_neg (by rintro rfl; simp at h), ih (by simp at h; exact h.2)]

theorem splitChar_lines (sep : Char) (lines : List (List Char)) (rest : List Char) (h : ∀ l ∈ lines, sep ∉ l) :
    splitChar sep ((lines.flatMap fun l => l ++ [sep]) ++ rest) = lines ++ splitChar sep rest := by
  induction lines with
  | nil => rfl
  | cons l lines ih =>
    rw [List.flatMap_cons, List.append_assoc, List.append_assoc, List.singleton_append, splitChar_sep sep l _ (h l (by simp)), ih fun m hm => h m (by simp [hm])]
    rfl

theorem fileLines_lines (lines : List (List Char)) (h : ∀ l ∈ lines, '\n' ∉ l) : fileLines (lines.flatMap fun l => l ++ ['\n']) = lines := by
  have := splitChar_lines '\n' lines [] h
  rw [List.append_nil] at this
  unfold fileLines
  simp [this, splitChar]

theorem splitChar_join (sep : Char) (ws : List (List Char)) (hne : ws ≠ []) (h : ∀ w ∈ ws, sep ∉ w) : splitChar sep (joinChar sep ws) = ws := by
  induction ws with
  | nil => exact absurd rfl hne
  | cons w ws ih =>
    cases ws with
    | nil => exact splitChar_none sep w (h w (by simp))
    | cons w' ws =>
      rw [joinChar, splitChar_sep sep w _ (h w (by simp)), ih (by simp) fun v hv => h v (by simp [hv])]

/-- Words, each followed by white space. -/
theorem pySplit_words (items : List (List Char × List Char)) (first : List Char) (hf : IsBlankText first)
    (hitems : ∀ p ∈ items, IsWord p.1 ∧ IsBlankText p.2 ∧ p.2 ≠ []) : pySplit (first ++ items.flatMap fun p => p.1 ++ p.2) = items.map Prod.fst := by
  unfold pySplit
  rw [splitGo_blank _ _ hf]
  clear hf first
  induction items with
  | nil => rfl
  | cons p items ih =>
    obtain ⟨hw, hb, hne⟩ := hitems p (by simp)
    rw [List.flatMap_cons, List.append_assoc, splitGo_word _ _ _ hw.2, splitGo_end _ _ _ (by simpa using hw.1) hb hne, ih fun q hq => hitems q (by simp [hq])]
    simp

section
variable {K : Type} [Field K] [LinearOrder K] [IsStrictOrderedRing K] [FloorRing K]

/-- What a number written with `{:.10e}` is read as. -/
def sciValue (x : K) : K := (pyFloat (expText false 10 x)).getD 0

theorem sciValue_read (x : K) : pyFloat (expText false 10 x) = some (sciValue x) := by
  obtain ⟨y, hy, -⟩ := C111_exp false 10 x [] [] (by intro c hc; simp at hc) (by intro c hc; simp at hc)
  rw [List.nil_append, List.append_nil] at hy
  rw [sciValue, hy]
  rfl

theorem sciValue_error (x : K) : |sciValue x - x| ≤ |x| * (1 / 2 / 10 ^ 10) := by
  obtain ⟨y, hy, h⟩ := C111_exp false 10 x [] [] (by intro c hc; simp at hc) (by intro c hc; simp at hc)
  rw [List.nil_append, List.append_nil] at hy
  rw [sciValue, hy]
  exact h

/-- A line without its end. -/
def curveBody (f : K) (row : List K) : List Char := fixedField 10 4 f ++ '\t' :: (row.flatMap fun j => expText false 10 j ++ ['\t'])

theorem curveLine_eq (f : K) (row : List K) : curveLine f row = curveBody f row ++ ['\n'] := rfl

theorem word_newline {w : List Char} (h : IsWord w) : '\n' ∉ w := fun hn => by have := h.2 _ hn; simp [isBlank] at this

theorem fixedField_newline (w dec : ℕ) (x : K) : '\n' ∉ fixedField w dec x := by
  unfold fixedField padLeft
  rw [List.mem_append, not_or]
  exact ⟨fun h => by have := List.eq_of_mem_replicate h; simp at this, word_newline (fixedText_word dec x)⟩

theorem curveBody_newline (f : K) (row : List K) : '\n' ∉ curveBody f row := by
  unfold curveBody
  simp only [List.mem_append, List.mem_cons, List.mem_flatMap, not_or]
  refine ⟨fixedField_newline _ _ _, by decide, ?_⟩
  rintro ⟨j, -, h | h⟩
  · exact word_newline (expText_word _ _ _) h
  · simp at h

theorem curveBody_split (f : K) (row : List K) : pySplit (curveBody f row) = fixedText 4 f :: row.map (expText false 10) := by
  obtain ⟨p, hp, e⟩ := padLeft_eq 10 (fixedText 4 f)
  have h := pySplit_words ((fixedText 4 f, ['\t']) :: row.map fun j => (expText false 10 j, ['\t'])) p hp (by
    intro q hq
    rcases List.mem_cons.1 hq with rfl | hq
    · exact ⟨fixedText_word _ _, by intro c hc; simp at hc; subst hc; rfl, by simp⟩
    · obtain ⟨j, -, rfl⟩ := List.mem_map.1 hq
      exact ⟨expText_word _ _ _, by intro c hc; simp at hc; subst hc; rfl, by simp⟩)
  have e2 : curveBody f row = p ++ ((fixedText 4 f, ['\t']) :: row.map fun j => (expText false 10 j, ['\t'])).flatMap fun q => q.1 ++ q.2 := by
    rw [curveBody, fixedField, e, List.flatMap_cons, List.flatMap_map]
    simp
  rw [e2, h]
  simp [Function.comp_def]

theorem mapM_map_some {α β γ : Type} (g : α → β) (f : β → Option γ) (k : α → γ) (l : List α) (h : ∀ a ∈ l, f (g a) = some (k a)) : (l.map g).mapM f = some (l.map k) := by
  induction l with
  | nil => rfl
  | cons a l ih => rw [List.map_cons, List.mapM_cons, h a (by simp), ih fun b hb => h b (by simp [hb])]; rfl

theorem curveBody_read (f : K) (row : List K) : (pySplit (curveBody f row)).mapM (pyFloat (K := K)) = some (aroundDec 4 f :: row.map sciValue) := by
  have h1 := C111_fixed_eq 4 f [] [] (by intro c hc; simp at hc) (by intro c hc; simp at hc)
  rw [List.nil_append, List.append_nil] at h1
  rw [curveBody_split, List.mapM_cons, h1, mapM_map_some _ _ _ _ fun a _ => sciValue_read a]
  rfl

/-- The text, for as many frequencies as rows. -/
theorem curveText_eq (rows : List (K × List K)) (extra : List K) :
    curveText (rows.map Prod.fst ++ extra) (rows.map Prod.snd) = some ((rows.map fun p => curveBody p.1 p.2).flatMap fun l => l ++ ['\n']) := by
  unfold curveText
  have key : ∀ (rows : List (K × List K)) (pre : List K), ((rows.map Prod.snd).zipIdx pre.length).mapM (fun (p : List K × ℕ) => ((pre ++ rows.map Prod.fst ++ extra)[p.2]?).map fun f => curveLine f p.1) =
      some (rows.map fun p => curveLine p.1 p.2) := by
    intro rows
    induction rows with
    | nil => intro pre; rfl
    | cons r rows ih =>
      intro pre
      have := ih (pre ++ [r.1])
      rw [List.length_append, List.length_singleton] at this
      simp only [List.map_cons, List.zipIdx_cons]
      rw [List.mapM_cons]
      have e : pre ++ r.1 :: rows.map Prod.fst ++ extra = pre ++ [r.1] ++ rows.map Prod.fst ++ extra := by simp
      rw [e, this]
      simp
  have h := key rows []
  rw [List.nil_append] at h
  rw [List.length_nil] at h
  rw [h]
  simp [List.flatMap_def, curveLine_eq, Function.comp_def]

theorem numberTable_curve (rows : List (K × List K)) (m : ℕ) (hm : ∀ p ∈ rows, p.2.length = m) :
    numberTable (rows.map fun p => curveBody p.1 p.2) = some (rows.map fun p => aroundDec 4 p.1 :: p.2.map sciValue) := by
  unfold numberTable
  rw [mapM_map_some (fun p : K × List K => curveBody p.1 p.2) (fun l => (pySplit l).mapM pyFloat) (fun p => aroundDec 4 p.1 :: p.2.map sciValue) rows
    fun (p : K × List K) _ => curveBody_read p.1 p.2]
  rw [Option.bind_some, if_pos]
  intro r hr
  obtain ⟨p, hp, rfl⟩ := List.mem_map.1 hr
  cases rows with
  | nil => simp at hp
  | cons q rows => simp [hm p hp, hm q (by simp)]

/-- Specification: the mean of the columns `g` of a row (counted from 1, as the frequency is column 0 of the file). -/
def groupMean (g : List ℕ) (row : List K) : K := (g.map fun c => row.getD (c - 1) 0).sum / g.length

theorem rowAt_curve (f : K) (row : List K) (c : ℕ) (h : 1 ≤ c ∧ c ≤ row.length) : rowAt (f :: row) (c : ℤ) = some (row.getD (c - 1) 0) := by
  obtain ⟨k, rfl⟩ : ∃ k, c = k + 1 := ⟨c - 1, by omega⟩
  unfold rowAt
  rw [if_pos (by positivity), Int.toNat_natCast, List.getElem?_cons_succ, Nat.add_sub_cancel, List.getElem?_eq_getElem (by omega)]
  simp [List.getD_eq_getElem?_getD, List.getElem?_eq_getElem (show k < row.length by omega)]

theorem sum_map_div_const (l : List K) (n : K) : (l.map fun v => v / n).sum = l.sum / n := by
  induction l with
  | nil => simp
  | cons v l ih => rw [List.map_cons, List.sum_cons, ih, List.sum_cons, add_div]

/-- What is read from the lines of a table of numbers. -/
theorem fitdataRead_lines (rows : List (K × List K)) (m : ℕ) (hm : ∀ p ∈ rows, p.2.length = m) (hne : rows ≠ []) (groups : List (List ℕ)) (hg : ∀ g ∈ groups, ∀ c ∈ g, 1 ≤ c ∧ c ≤ m) :
    fitdataRead (some (groups.map fun g => g.map fun (c : ℕ) => (c : ℤ))) ((rows.map fun p => curveBody p.1 p.2).flatMap fun l => l ++ ['\n']) =
      some (rows.map fun p => aroundDec 4 p.1, groups.map fun g => rows.map fun p => groupMean g (p.2.map sciValue)) := by
  have hlines : fileLines ((rows.map fun p => curveBody p.1 p.2).flatMap fun l => l ++ ['\n']) = rows.map fun p => curveBody p.1 p.2 := by
    refine fileLines_lines _ ?_
    intro l hl
    obtain ⟨p, -, rfl⟩ := List.mem_map.1 hl
    exact curveBody_newline _ _
  unfold fitdataRead
  simp only [hlines, numberTable_curve rows m hm, Option.bind_some]
  rw [if_neg (by simpa using hne), mapM_map_some (fun p : K × List K => aroundDec 4 p.1 :: p.2.map sciValue) (fun r => rowAt r 0) (fun p => aroundDec 4 p.1) rows (fun p _ => by simp [rowAt]),
    Option.bind_some]
  rw [mapM_map_some (fun g : List ℕ => g.map fun (c : ℕ) => (c : ℤ)) _ (fun g => rows.map fun p => groupMean g (p.2.map sciValue)) groups, Option.map_some]
  intro g hgm
  rw [mapM_map_some (fun p : K × List K => aroundDec 4 p.1 :: p.2.map sciValue) _ (fun p => groupMean g (p.2.map sciValue)) rows]
  intro p hp
  have h := mapM_map_some (fun c : ℕ => (c : ℤ)) (rowAt (aroundDec 4 p.1 :: p.2.map sciValue)) (fun c => (p.2.map sciValue).getD (c - 1) 0) g
    fun c hc => rowAt_curve _ _ _ (by rw [List.length_map, hm p hp]; exact hg g hgm c hc)
  rw [h, Option.map_some, sum_map_div_const, List.length_map]
  rfl

/-- The error of the mean of a group. -/
theorem groupMean_error (g : List ℕ) (row : List K) : |groupMean g (row.map sciValue) - groupMean g row| ≤ groupMean g (row.map abs) * (1 / 2 / 10 ^ 10) := by
  unfold groupMean
  rw [← sub_div, abs_div, abs_of_nonneg (Nat.cast_nonneg _ : (0 : K) ≤ (g.length : K)), div_mul_eq_mul_div]
  refine div_le_div_of_nonneg_right ?_ (Nat.cast_nonneg _)
  generalize (g.length : K) = n
  induction g with
  | nil => simp
  | cons c g ih =>
    simp only [List.map_cons, List.sum_cons]
    have h1 : |(row.map sciValue).getD (c - 1) 0 - row.getD (c - 1) 0| ≤ (row.map abs).getD (c - 1) 0 * (1 / 2 / 10 ^ 10) := by
      simp only [List.getD_eq_getElem?_getD, List.getElem?_map]
      cases row[c - 1]? with
      | none => simp
      | some x => simpa using sciValue_error x
    calc |(row.map sciValue).getD (c - 1) 0 + (g.map fun c => (row.map sciValue).getD (c - 1) 0).sum - (row.getD (c - 1) 0 + (g.map fun c => row.getD (c - 1) 0).sum)|
        = |((row.map sciValue).getD (c - 1) 0 - row.getD (c - 1) 0) + ((g.map fun c => (row.map sciValue).getD (c - 1) 0).sum - (g.map fun c => row.getD (c - 1) 0).sum)| := by congr 1; ring
      _ ≤ _ := abs_add_le _ _
      _ ≤ _ := add_le_add h1 ih
      _ = _ := by ring

theorem aroundDec_four_lt (x y : K) (h : 1 / 10000 < y - x) : aroundDec 4 x < aroundDec 4 y := by
  have h1 := abs_le.1 (aroundDec_error 4 x)
  have h2 := abs_le.1 (aroundDec_error 4 y)
  norm_num at h1 h2
  linarith [h1.2, h2.1]

/-- **C112**: a spectrum written to a file is read by fitdata with all its rows: the frequencies to four decimals (in order, if they
are more than 10⁻⁴ apart), and for every group of columns (`-bi`) the mean of these columns to ten digits. More
frequencies than rows (`extra`) do no harm. -/
theorem C112_read (rows : List (K × List K)) (extra : List K) (m : ℕ) (hm : ∀ p ∈ rows, p.2.length = m) (hne : rows ≠ []) (groups : List (List ℕ))
    (hg : ∀ g ∈ groups, ∀ c ∈ g, 1 ≤ c ∧ c ≤ m) :
    ∃ text F C, curveText (rows.map Prod.fst ++ extra) (rows.map Prod.snd) = some text ∧ fitdataRead (some (groups.map fun g => g.map fun (c : ℕ) => (c : ℤ))) text = some (F, C) ∧
      List.Forall₂ (fun p f => |f - p.1| ≤ 1 / 20000) rows F ∧ ((rows.Pairwise fun p q => p.1 + 1 / 10000 < q.1) → F.Pairwise (· < ·)) ∧
      List.Forall₂ (fun g curve => List.Forall₂ (fun p v => |v - groupMean g p.2| ≤ groupMean g (p.2.map abs) * (1 / 2 / 10 ^ 10)) rows curve) groups C := by
  refine ⟨_, _, _, curveText_eq rows extra, fitdataRead_lines rows m hm hne groups hg, ?_, ?_, ?_⟩
  · rw [List.forall₂_map_right_iff, List.forall₂_same]
    intro p _
    have := aroundDec_error 4 p.1
    norm_num at this ⊢
    exact this
  · intro h
    rw [List.pairwise_map]
    exact h.imp fun {p q} hpq => aroundDec_four_lt _ _ (by linarith)
  · rw [List.forall₂_map_right_iff, List.forall₂_same]
    intro g _
    rw [List.forall₂_map_right_iff, List.forall₂_same]
    intro p _
    exact groupMean_error g p.2

/-- C112 is violated for finer frequencies: for a step below 5·10⁻⁵ the first two rows of a spectrum that starts at zero have the same frequency in the file. -/
theorem C112_fine_violated (step : K) (h0 : 0 < step) (h1 : step < 1 / 20000) (r0 r1 : List K) (rows : List (K × List K)) (m : ℕ) (hm : ∀ p ∈ (0, r0) :: (step, r1) :: rows, p.2.length = m) :
    ∃ (text : List Char) (F : List K) (C : List (List K)), curveText (((0, r0) :: (step, r1) :: rows).map Prod.fst) (((0, r0) :: (step, r1) :: rows).map Prod.snd) = some text ∧ fitdataRead (some []) text = some (0 :: 0 :: F, C) := by
  have ht := curveText_eq ((0, r0) :: (step, r1) :: rows) []
  have hr := fitdataRead_lines ((0, r0) :: (step, r1) :: rows) m hm (by simp) [] (by simp)
  rw [List.append_nil] at ht
  refine ⟨_, rows.map fun p => aroundDec 4 p.1, [], ht, ?_⟩
  rw [List.map_nil, List.map_nil] at hr
  rw [hr]
  have e0 : aroundDec 4 (0 : K) = 0 := by simpa using aroundDec_grid (K := K) 4 0
  have e1 : aroundDec 4 step = 0 := by
    have : roundEven (step * 10 ^ 4) = 0 := by
      have hf : ⌊step * 10 ^ 4⌋ = 0 := by
        rw [Int.floor_eq_zero_iff]
        constructor
        · positivity
        · norm_num at h1 ⊢; linarith
      unfold roundEven
      simp only [hf]
      rw [if_pos (by norm_num at h1 ⊢; linarith)]
    unfold aroundDec
    rw [this]
    simp
  simp only [List.map_cons, e0, e1]

/-- C112 is violated without `-bi`: what is read is the file without its first row. -/
theorem C112_first_row_violated (first : K × List K) (rows : List (K × List K)) (m : ℕ) (hm : ∀ p ∈ first :: rows, p.2.length = m) (hne : rows ≠ []) :
    ∃ text rest, curveText ((first :: rows).map Prod.fst) ((first :: rows).map Prod.snd) = some text ∧ curveText (rows.map Prod.fst) (rows.map Prod.snd) = some rest ∧
      fitdataRead (K := K) none text = fitdataRead (some ((List.range' 1 m).map fun (c : ℕ) => [(c : ℤ)])) rest := by
  have ht := curveText_eq (first :: rows) []
  have hr := curveText_eq rows []
  rw [List.append_nil] at ht hr
  refine ⟨_, _, ht, hr, ?_⟩
  have hlines : ∀ rows : List (K × List K), fileLines ((rows.map fun p => curveBody p.1 p.2).flatMap fun l => l ++ ['\n']) = rows.map fun p => curveBody p.1 p.2 := by
    intro rows
    refine fileLines_lines _ ?_
    intro l hl
    obtain ⟨p, -, rfl⟩ := List.mem_map.1 hl
    exact curveBody_newline _ _
  have hl := hm first (by simp)
  have hl1 := hlines (first :: rows)
  simp only [List.map_cons] at hl1
  unfold fitdataRead
  simp only [hlines, hl1, List.map_cons, List.tail_cons, List.headD_cons, curveBody_split, List.length_cons, List.length_map, hl, Nat.add_sub_cancel]

/-- C112: with fewer frequencies than rows there is no file. -/
theorem C112_short (frequencies : List K) (matrix : List (List K)) (h : frequencies.length < matrix.length) : curveText frequencies matrix = none := by
  unfold curveText
  rw [Option.map_eq_none_iff]
  by_contra hne
  obtain ⟨r, hr⟩ := Option.ne_none_iff_exists'.1 hne
  rw [mapM_eq_some_iff] at hr
  have hl := hr.length_eq
  rw [List.length_zipIdx] at hl
  have := (List.forall₂_iff_get.1 hr).2 frequencies.length (by simpa using h) (by omega)
  simp at this

/-- C112: the groups of the option `-bi`, written as numbers separated by blanks and groups separated by commas, in any number of shell words, are the groups used. -/
theorem C112_groups (groups : List (List ℕ)) (args : List (List Char)) (hne : groups ≠ []) (hargs : joinChar ' ' args = joinChar ',' (groups.map fun g => joinChar ' ' (g.map natText))) :
    fitdataIndices args = some (groups.map fun g => g.map fun (c : ℕ) => (c : ℤ)) := by
  have hcomma : ∀ n : ℕ, ',' ∉ natText n := by
    intro n hn
    rw [natText_eq] at hn
    obtain ⟨d, hd, e⟩ := List.mem_map.1 hn
    have : ∀ d : ℕ, d < 10 → digitChar d ≠ ',' := by decide
    exact this d (natDigits_lt n d hd) e
  have hjoin : ∀ g : List ℕ, ',' ∉ joinChar ' ' (g.map natText) := by
    intro g
    induction g with
    | nil => simp [joinChar]
    | cons a g ih =>
      cases g with
      | nil => simpa [joinChar] using hcomma a
      | cons b g =>
        simp only [List.map_cons, joinChar, List.mem_append, List.mem_cons, not_or] at ih ⊢
        exact ⟨hcomma a, by decide, ih⟩
  have hwords : ∀ g : List ℕ, pySplit (joinChar ' ' (g.map natText)) = g.map natText := by
    intro g
    induction g with
    | nil => rfl
    | cons a g ih =>
      cases g with
      | nil =>
        have := C111_words [] [] [] (by intro c hc; simp at hc) (by intro c hc; simp at hc) (by simp) (natText a) (natText_word a)
        simpa [joinChar] using this
      | cons b g =>
        rw [List.map_cons, List.map_cons, joinChar] at *
        unfold pySplit at ih ⊢
        have e : natText a ++ ' ' :: joinChar ' ' (natText b :: g.map natText) = natText a ++ ([' '] ++ joinChar ' ' (natText b :: g.map natText)) := rfl
        rw [e, splitGo_word _ _ _ (natText_word a).2, splitGo_end _ _ _ (by simpa using (natText_word a).1) (by intro c hc; simp at hc; subst hc; rfl) (by simp), ih]
        simp
  unfold fitdataIndices
  rw [hargs, splitChar_join ',' _ (by simpa using hne) (by
    intro w hw
    obtain ⟨g, -, rfl⟩ := List.mem_map.1 hw
    exact hjoin g)]
  refine mapM_map_some _ _ _ _ ?_
  intro g _
  rw [hwords]
  refine mapM_map_some _ _ _ _ ?_
  intro c _
  have := C111_nat c [] [] (by intro c hc; simp at hc) (by intro c hc; simp at hc)
  simpa using this

/-- Example: a spectrum of two bands is written, and read as the sum over both bands; without `-bi` the first row is missing. -/
example : curveText [0, 1 / 2, 1, (3 : ℚ) / 2] [[1, 2], [1 / 3, 0], [4, 6]] =
      some "    0.0000\t1.0000000000e+00\t2.0000000000e+00\t\n    0.5000\t3.3333333333e-01\t0.0000000000e+00\t\n    1.0000\t4.0000000000e+00\t6.0000000000e+00\t\n".toList ∧
    fitdataIndices ["1".toList, "2,".toList, "2".toList] = some [[1, 2], [2]] ∧
    fitdataRead (some [[1, 2], [2]]) "    0.0000\t1.0000000000e+00\t2.0000000000e+00\t\n    1.0000\t4.0000000000e+00\t6.0000000000e+00\t\n".toList = some ([0, (1 : ℚ)], [[3 / 2, 5], [2, 6]]) ∧
    fitdataRead none "    0.0000\t1.0000000000e+00\t2.0000000000e+00\t\n    1.0000\t4.0000000000e+00\t6.0000000000e+00\t\n".toList = some ([(1 : ℚ)], [[4], [6]]) := by
  decide +kernel

/-- Specification: the same column, counted from the front or (negative) from the back of `n` columns. -/
def SameColumn (n : ℕ) (c c' : ℤ) : Prop := 0 ≤ c ∧ c < n ∧ (c' = c ∨ c' = c - n)

theorem rowAt_same (r : List K) (c c' : ℤ) (h : SameColumn r.length c c') : rowAt r c' = rowAt r c := by
  obtain ⟨h0, h1, rfl | rfl⟩ := h
  · rfl
  · unfold rowAt
    rw [if_neg (by omega), if_pos (by omega), if_pos h0]
    congr 1
    omega

theorem mapM_forall₂ {α α' β : Type*} (f : α → Option β) (g : α' → Option β) (l : List α) (l' : List α') (h : List.Forall₂ (fun a b => g b = f a) l l') : l'.mapM g = l.mapM f := by
  induction h with
  | nil => rfl
  | cons h _ ih => simp only [List.mapM_cons, h, ih]

theorem numberTable_length (lines : List (List Char)) (rows : List (List K)) (n : ℕ) (h : numberTable lines = some rows) (hn : ∀ l ∈ lines, (pySplit l).length = n) : ∀ r ∈ rows, r.length = n := by
  unfold numberTable at h
  obtain ⟨t, ht, h⟩ := Option.bind_eq_some_iff.1 h
  split_ifs at h
  rw [Option.some.injEq] at h
  subst h
  rw [mapM_eq_some_iff] at ht
  intro r hr
  obtain ⟨i, hi, rfl⟩ := List.getElem_of_mem hr
  have hl := ht.length_eq
  have hk := (List.forall₂_iff_get.1 ht).2 i (by omega) hi
  have h3 := hn _ (List.getElem_mem (by omega : i < lines.length))
  rw [mapM_eq_some_iff] at hk
  have := hk.length_eq
  simp only [List.get_eq_getElem] at this
  omega

/-- **C112**, columns: a column can be given by its number from the front or by its negative number from the back, in every group of every file. -/
theorem C112_columns (text : List Char) (n : ℕ) (hn : ∀ l ∈ fileLines text, (pySplit l).length = n) (groups groups' : List (List ℤ))
    (h : List.Forall₂ (List.Forall₂ (SameColumn n)) groups groups') : fitdataRead (K := K) (some groups') text = fitdataRead (some groups) text := by
  unfold fitdataRead
  simp only
  cases hrows : numberTable (K := K) (fileLines text) with
  | none => rfl
  | some rows =>
    have hlen := numberTable_length _ _ n hrows hn
    simp only [Option.bind_some]
    have key : (groups'.mapM fun (g : List ℤ) => rows.mapM fun (r : List K) => (g.mapM (rowAt r)).map fun vs => (vs.map fun v => v / (g.length : K)).sum) =
        groups.mapM fun (g : List ℤ) => rows.mapM fun (r : List K) => (g.mapM (rowAt r)).map fun vs => (vs.map fun v => v / (g.length : K)).sum := by
      refine mapM_forall₂ _ _ _ _ (h.imp fun g g' hg => ?_)
      refine mapM_forall₂ _ _ _ _ (List.forall₂_same.2 fun r hr => ?_)
      rw [hg.length_eq, mapM_forall₂ (rowAt r) (rowAt r) g g' (hg.imp fun c c' hc => rowAt_same r c c' (by rw [hlen r hr]; exact hc))]
    rw [key]

/-- Example: the last column of a file with three, and the mean of the second and the third. -/
example : fitdataRead (K := ℚ) (some [[-1], [1, -1]]) "1.0 2.0 4.0\n2.0 3.0 5.0\n".toList = some ([1, 2], [[4, 5], [3, 4]]) := by
  decide +kernel

end
end Verif
