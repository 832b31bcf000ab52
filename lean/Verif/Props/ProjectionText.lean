import Verif.Model.ProjectionText
import Verif.Props.CurveFile
import Verif.Props.PlotLabels
import Verif.Props.Defined

/-! # C146: the files of `save_vc` and `save_vq` can be read back -/

set_option autoImplicit false

namespace Verif

/-! ## What Python's `complex` reads (specification) -/

/-- The text before and from the first sign that is neither at the beginning nor behind an `e`; `acc` is what was read (reversed). -/
def complexSplit (acc : List Char) : List Char → Option (List Char × List Char)
  | [] => none
  | c :: cs => if (c = '+' ∨ c = '-') ∧ acc ≠ [] ∧ acc.head? ≠ some 'e' ∧ acc.head? ≠ some 'E' then some (acc.reverse, c :: cs)
      else complexSplit (c :: acc) cs

/-- `complex(word)` for words of the form `a+bj`: real and imaginary part. -/
def readComplex {K : Type*} [Field K] (w : List Char) : Option (K × K) :=
  if w.getLast? = some 'j' then
    (complexSplit [] w.dropLast).bind fun p => (pyFloat p.1).bind fun a => (pyFloat p.2).map fun b => (a, b)
  else none

/-- The table of complex numbers in a file, line by line. -/
def readComplexTable {K : Type} [Field K] (text : List Char) : Option (List (List (K × K))) :=
  (fileLines text).mapM fun l => (pySplit l).mapM (readComplex (K := K))

example : readComplex "+1.50000000e+00-2.00000000e-01j".toList = some ((3 / 2 : ℚ), (-1 / 5 : ℚ)) := by decide +kernel

/-! ## The pieces of a number -/

section
variable {K : Type} [Field K] [LinearOrder K] [IsStrictOrderedRing K] [FloorRing K]

theorem digitChar_not_sign (d : ℕ) (h : d < 10) : digitChar d ≠ '+' ∧ digitChar d ≠ '-' ∧ digitChar d ≠ 'e' ∧ digitChar d ≠ 'E' := by
  interval_cases d <;> decide

theorem natText_digits (n : ℕ) : natText n ≠ [] ∧ ∀ c ∈ natText n, ∃ d < 10, c = digitChar d := by
  unfold natText
  split_ifs with h
  · refine ⟨by simp, ?_⟩
    intro c hc
    simp only [List.mem_singleton] at hc
    exact ⟨0, by omega, by rw [hc]; decide⟩
  · refine ⟨by simp [Nat.digits_ne_nil_iff_ne_zero, h], ?_⟩
    intro c hc
    obtain ⟨d, hd, rfl⟩ := List.mem_map.1 hc
    exact ⟨d, Nat.digits_lt_base (by omega) (List.mem_reverse.1 hd), rfl⟩

theorem pointText_chars (dec m : ℕ) : pointText dec m ≠ [] ∧ ∀ c ∈ pointText dec m, c ≠ '+' ∧ c ≠ '-' := by
  unfold pointText
  refine ⟨by simp, ?_⟩
  intro c hc
  simp only [List.mem_append, List.mem_cons, List.mem_map] at hc
  rcases hc with hc | rfl | ⟨d, hd, rfl⟩
  · obtain ⟨d, hd, rfl⟩ := (natText_digits _).2 c hc
    exact ⟨(digitChar_not_sign d hd).1, (digitChar_not_sign d hd).2.1⟩
  · decide
  · exact ⟨(digitChar_not_sign d (lastDigits_lt _ _ d hd)).1, (digitChar_not_sign d (lastDigits_lt _ _ d hd)).2.1⟩

omit [IsStrictOrderedRing K] in
/-- A number with sign: sign, digits and point, `e`, sign, digits. -/
theorem expText_shape (dec : ℕ) (x : K) : ∃ (s : Char) (p : List Char) (t : Char) (ds : List Char), expText true dec x = s :: (p ++ 'e' :: t :: ds) ∧
    (s = '+' ∨ s = '-') ∧ (t = '+' ∨ t = '-') ∧ p ≠ [] ∧ (∀ c ∈ p, c ≠ '+' ∧ c ≠ '-') ∧ ds ≠ [] ∧
    ∀ c ∈ ds, c ≠ '+' ∧ c ≠ '-' ∧ c ≠ 'e' ∧ c ≠ 'E' := by
  refine ⟨if x < 0 then '-' else '+', pointText dec (expParts dec x).1, if (expParts dec x).2 < 0 then '-' else '+',
    if (expParts dec x).2.natAbs < 10 then '0' :: natText (expParts dec x).2.natAbs else natText (expParts dec x).2.natAbs, ?_, ?_, ?_,
    (pointText_chars _ _).1, (pointText_chars _ _).2, ?_, ?_⟩
  · unfold expText signText
    by_cases h : x < 0 <;> simp [h]
  · split_ifs <;> simp
  · split_ifs <;> simp
  · split_ifs
    · simp
    · exact (natText_digits _).1
  · intro c hc
    have hd : ∃ d < 10, c = digitChar d := by
      split_ifs at hc with h
      · rcases List.mem_cons.1 hc with rfl | hc
        · exact ⟨0, by omega, by decide⟩
        · exact (natText_digits _).2 c hc
      · exact (natText_digits _).2 c hc
    obtain ⟨d, hd, rfl⟩ := hd
    exact digitChar_not_sign d hd

theorem complexSplit_skip (acc w rest : List Char) (hw : ∀ c ∈ w, c ≠ '+' ∧ c ≠ '-') :
    complexSplit acc (w ++ rest) = complexSplit (w.reverse ++ acc) rest := by
  induction w generalizing acc with
  | nil => rfl
  | cons c w ih =>
    have hc := hw c (by simp)
    rw [List.cons_append, complexSplit, if_neg (by tauto), ih _ fun d hd => hw d (by simp [hd])]
    simp

omit [IsStrictOrderedRing K] in
theorem complexSplit_pair (dec : ℕ) (x y : K) : complexSplit [] (expText true dec x ++ expText true dec y) = some (expText true dec x, expText true dec y) := by
  obtain ⟨s, p, t, ds, hx, hs, ht, hp, hpc, hds, hdc⟩ := expText_shape dec x
  obtain ⟨s', p', t', ds', hy, hs', -⟩ := expText_shape dec y
  rw [hx, hy]
  rw [List.cons_append, complexSplit, if_neg (by simp), List.append_assoc, complexSplit_skip _ _ _ hpc, List.cons_append, complexSplit, if_neg (by simp),
    List.cons_append, complexSplit, if_neg (by simp), complexSplit_skip _ _ _ fun c hc => ⟨(hdc c hc).1, (hdc c hc).2.1⟩]
  have hlast : ∃ c ∈ ds, (ds.reverse ++ (t :: 'e' :: (p.reverse ++ [s]))).head? = some c := by
    obtain ⟨c, l, hl⟩ := List.exists_cons_of_ne_nil (l := ds.reverse) (by simpa using hds)
    refine ⟨c, ?_, by rw [hl]; rfl⟩
    rw [← List.mem_reverse, hl]; simp
  obtain ⟨c, hc, hhead⟩ := hlast
  have hcc := hdc c hc
  rw [complexSplit, if_pos ⟨hs', by simp, by rw [hhead]; simpa using hcc.2.2.1, by rw [hhead]; simpa using hcc.2.2.2⟩]
  simp

theorem replacePlusMinus_skip (w rest : List Char) (hw : '+' ∉ w) : replacePlusMinus (w ++ rest) = w ++ replacePlusMinus rest := by
  induction w with
  | nil => rfl
  | cons c w ih =>
    have hc : c ≠ '+' := fun h => hw (by simp [h])
    rw [List.cons_append, replacePlusMinus.eq_2 _ _ (fun cs h => by simp_all), ih fun h => hw (by simp [h])]
    rfl

theorem replacePlusMinus_sign (s c : Char) (rest : List Char) (hc : c ≠ '-') : replacePlusMinus (s :: c :: rest) = s :: replacePlusMinus (c :: rest) := by
  rw [replacePlusMinus.eq_2]
  intro cs _ h
  simp only [List.cons.injEq] at h
  exact hc h.1

omit [IsStrictOrderedRing K] in
theorem replacePlusMinus_exp (dec : ℕ) (x : K) (rest : List Char) : replacePlusMinus (expText true dec x ++ rest) = expText true dec x ++ replacePlusMinus rest := by
  obtain ⟨s, p, t, ds, hx, hs, ht, hp, hpc, hds, hdc⟩ := expText_shape dec x
  obtain ⟨c, p, rfl⟩ := List.exists_cons_of_ne_nil hp
  obtain ⟨d, ds, rfl⟩ := List.exists_cons_of_ne_nil hds
  have hd := hdc d (by simp)
  have hc := hpc c (by simp)
  rw [hx]
  have h1 : s :: (c :: p ++ 'e' :: t :: d :: ds) ++ rest = s :: c :: (p ++ ['e'] ++ (t :: d :: (ds ++ rest))) := by simp
  rw [h1, replacePlusMinus_sign s c _ hc.2]
  have h2 : c :: (p ++ ['e'] ++ (t :: d :: (ds ++ rest))) = (c :: p ++ ['e']) ++ (t :: d :: (ds ++ rest)) := by simp
  rw [h2, replacePlusMinus_skip _ _ (by
    intro h
    simp only [List.mem_append, List.mem_singleton] at h
    rcases h with h | h
    · exact (hpc _ h).1 rfl
    · exact absurd h (by decide)), replacePlusMinus_sign t d _ hd.2.1]
  have h3 : d :: (ds ++ rest) = (d :: ds) ++ rest := rfl
  rw [h3, replacePlusMinus_skip _ _ fun h => (hdc _ h).1 rfl]
  simp

/-- What a number is read as. -/
theorem expText_read (x : K) : ∃ y : K, pyFloat (expText true 8 x) = some y ∧ |y - x| ≤ |x| * (1 / 2 / 10 ^ 8) := by
  obtain ⟨y, hy, h⟩ := C111_exp true 8 x [] [] (by intro c hc; simp at hc) (by intro c hc; simp at hc)
  rw [List.nil_append, List.append_nil] at hy
  exact ⟨y, hy, h⟩

/-- Relative error of both parts at most `5e-9`. -/
def CloseComplex (z w : K × K) : Prop := |w.1 - z.1| ≤ |z.1| * (1 / 2 / 10 ^ 8) ∧ |w.2 - z.2| ≤ |z.2| * (1 / 2 / 10 ^ 8)

theorem readComplex_word (z : K × K) : ∃ w : K × K, readComplex (expText true 8 z.1 ++ (expText true 8 z.2 ++ ['j'])) = some w ∧ CloseComplex z w := by
  obtain ⟨a, ha, ea⟩ := expText_read z.1
  obtain ⟨b, hb, eb⟩ := expText_read z.2
  refine ⟨(a, b), ?_, ea, eb⟩
  unfold readComplex
  rw [← List.append_assoc, List.getLast?_concat, if_pos rfl, List.dropLast_concat, complexSplit_pair]
  simp [ha, hb]

omit [IsStrictOrderedRing K] in
theorem complexField_eq (z : K × K) : complexField z = (expText true 8 z.1 ++ (expText true 8 z.2 ++ ['j'])) ++ List.replicate 4 ' ' := by
  unfold complexField; simp

theorem complexWord_isWord (z : K × K) : IsWord (expText true 8 z.1 ++ (expText true 8 z.2 ++ ['j'])) := by
  refine ⟨by simp, ?_⟩
  intro c hc
  simp only [List.mem_append, List.mem_singleton] at hc
  rcases hc with hc | hc | rfl
  · exact (expText_word true 8 z.1).2 c hc
  · exact (expText_word true 8 z.2).2 c hc
  · decide

omit [IsStrictOrderedRing K] in
theorem replacePlusMinus_line (row : List (K × K)) (rest : List Char) :
    replacePlusMinus (row.flatMap complexField ++ rest) = row.flatMap complexField ++ replacePlusMinus rest := by
  induction row with
  | nil => rfl
  | cons z row ih =>
    have h : ((z :: row).flatMap complexField ++ rest)
        = expText true 8 z.1 ++ (expText true 8 z.2 ++ (('j' :: List.replicate 4 ' ') ++ (row.flatMap complexField ++ rest))) := by
      simp [complexField]
    rw [h, replacePlusMinus_exp, replacePlusMinus_exp, replacePlusMinus_skip _ _ (by decide), ih]
    simp [complexField]

theorem complexLine_newline (row : List (K × K)) : '\n' ∉ row.flatMap complexField := by
  intro h
  obtain ⟨z, -, hz⟩ := List.mem_flatMap.1 h
  rw [complexField_eq, List.mem_append] at hz
  rcases hz with hz | hz
  · exact word_newline (complexWord_isWord z) hz
  · exact absurd (List.eq_of_mem_replicate hz) (by decide)

theorem complexLine_split (row : List (K × K)) : pySplit (row.flatMap complexField) = row.map fun z => expText true 8 z.1 ++ (expText true 8 z.2 ++ ['j']) := by
  have h := pySplit_words (row.map fun z => (expText true 8 z.1 ++ (expText true 8 z.2 ++ ['j']), List.replicate 4 ' ')) [] (by intro c hc; simp at hc) (by
    intro p hp
    obtain ⟨z, -, rfl⟩ := List.mem_map.1 hp
    refine ⟨complexWord_isWord z, ?_, by simp⟩
    intro c hc
    rw [List.eq_of_mem_replicate hc]; decide)
  rw [List.nil_append, List.flatMap_map, List.map_map] at h
  rw [show (row.flatMap complexField) = row.flatMap fun z => (expText true 8 z.1 ++ (expText true 8 z.2 ++ ['j'])) ++ List.replicate 4 ' ' from
    List.flatMap_congr fun z _ => complexField_eq z]
  exact h

theorem complexFile_lines (rows : List (List (K × K))) : fileLines (complexFile rows) = rows.map fun row => row.flatMap complexField := by
  have h : complexFile rows = (rows.map fun row => row.flatMap complexField).flatMap fun l => l ++ ['\n'] := by
    unfold complexFile
    rw [List.flatMap_map]
    exact List.flatMap_congr fun row _ => by rw [replacePlusMinus_line]; rfl
  rw [h, fileLines_lines]
  intro l hl
  obtain ⟨row, -, rfl⟩ := List.mem_map.1 hl
  exact complexLine_newline row

theorem mapM_exists {α β : Type*} (f : α → Option β) (R : α → β → Prop) (l : List α) (h : ∀ a ∈ l, ∃ b, f a = some b ∧ R a b) :
    ∃ m, l.mapM f = some m ∧ List.Forall₂ R l m := by
  induction l with
  | nil => exact ⟨[], rfl, .nil⟩
  | cons a l ih =>
    obtain ⟨b, hb, hr⟩ := h a (by simp)
    obtain ⟨m, hm, hrel⟩ := ih fun a ha => h a (by simp [ha])
    exact ⟨b :: m, by rw [List.mapM_cons, hb, hm]; rfl, .cons hr hrel⟩

/-- The text of a table, read line by line and word by word, is the table with nine significant digits. -/
theorem complexFile_read (rows : List (List (K × K))) : ∃ M, readComplexTable (complexFile rows) = some M ∧ List.Forall₂ (List.Forall₂ CloseComplex) rows M := by
  unfold readComplexTable
  rw [complexFile_lines]
  obtain ⟨M, hM, hr⟩ := mapM_exists (fun row : List (K × K) => (pySplit (row.flatMap complexField)).mapM (readComplex (K := K))) (List.Forall₂ CloseComplex) rows (by
    intro row _
    rw [complexLine_split]
    obtain ⟨m, hm, hmr⟩ := mapM_exists (fun z : K × K => readComplex (K := K) (expText true 8 z.1 ++ (expText true 8 z.2 ++ ['j']))) CloseComplex row
      fun z _ => readComplex_word z
    exact ⟨m, by rw [List.mapM_map]; exact hm, hmr⟩)
  exact ⟨M, by rw [List.mapM_map]; exact hM, hr⟩

/-- C146: `save_vc` raises an exception exactly for atoms outside `1, ..., natoms`; otherwise the file, read with Python's `complex`, has one line for each step,
with the three components of that atom, each part to a relative error of `5e-9`. -/
theorem C146_save_vc (natoms : ℕ) (vc : List (List (List (K × K)))) (hshape : ∀ frame ∈ vc, frame.length = natoms ∧ ∀ row ∈ frame, row.length = 3) (atom : ℤ) :
    (¬ (1 ≤ atom ∧ atom ≤ natoms) → saveVcText natoms vc atom = none) ∧
    (1 ≤ atom ∧ atom ≤ natoms → ∃ text M, saveVcText natoms vc atom = some text ∧ readComplexTable text = some M ∧ M.length = vc.length ∧
      ∀ (t : ℕ) frame, vc[t]? = some frame → ∃ row w, frame[(atom - 1).toNat]? = some row ∧ row.length = 3 ∧ M[t]? = some w ∧ List.Forall₂ CloseComplex row w) := by
  obtain ⟨h1, h2⟩ := C110_save_vc (id : K × K → K × K) natoms vc hshape atom
  unfold saveVcText
  refine ⟨fun h => by rw [h1.2 h]; rfl, ?_⟩
  intro h
  cases hf : saveVc (id : K × K → K × K) natoms vc atom with
  | none => exact absurd h (h1.1 hf)
  | some file =>
    obtain ⟨hlen, hrow⟩ := h2 file hf
    obtain ⟨M, hM, hrel⟩ := complexFile_read file
    refine ⟨complexFile file, M, rfl, hM, by rw [← hrel.length_eq, hlen], ?_⟩
    intro t frame ht
    obtain ⟨row, hr, hfile⟩ := hrow t frame ht
    rw [List.map_id] at hfile
    obtain ⟨hlt, he⟩ := List.getElem?_eq_some_iff.1 hfile
    have hlt' : t < M.length := hrel.length_eq ▸ hlt
    refine ⟨row, M[t], hr, ?_, List.getElem?_eq_getElem hlt', ?_⟩
    · exact (hshape frame (List.mem_of_getElem? ht)).2 row (List.mem_of_getElem? hr)
    · have := hrel.get hlt hlt'
      simp only [List.get_eq_getElem] at this
      rwa [he] at this

/-- C146: the file of `save_vq`, read with Python's `complex`, has one line for each step with all the modes in their order, each part to a relative error of `5e-9`. -/
theorem C146_save_vq (vq : List (List (K × K))) : ∃ M, readComplexTable (saveVqText vq) = some M ∧ List.Forall₂ (List.Forall₂ CloseComplex) vq M := by
  unfold saveVqText saveVq
  simp only [List.map_id, List.map_id']
  exact complexFile_read vq

end

/-- A line of two modes, with a negative zero exponent sign and a value that rounds to the next power of ten. -/
example : saveVqText [[((3 / 2 : ℚ), (-1 / 5 : ℚ)), (0, 9999999999 / 1000000)]] = "+1.50000000e+00-2.00000000e-01j    +0.00000000e+00+1.00000000e+04j    \n".toList := by
  decide +kernel

/-! ## C110: the curves of `plot_vq` -/

/-- C110: `plot_vq` draws the real part of every selected mode, with its number as label, in the order given; it fails exactly if a mode does not exist. -/
theorem C110_vq {K : Type*} [Field K] (vq : List (List (K × K))) (dt : K) (modes : List ℕ) (hm : modes ≠ []) :
    ((plotVqCurves vq dt modes).isSome ↔ ∀ m ∈ modes, ∀ row ∈ vq, m < row.length) ∧
    ∀ curves, plotVqCurves vq dt modes = some curves → curves.map Prod.fst = modes ∧
      ∀ m pts, (m, pts) ∈ curves → pts.length = vq.length ∧ ∀ (t : ℕ) row, vq[t]? = some row → ∃ z, row[m]? = some z ∧ (pts[t]?).map Prod.snd = some z.1 := by
  unfold plotVqCurves
  rw [if_neg hm]
  constructor
  · rw [mapM_isSome]
    refine forall₂_congr fun m _ => ?_
    have h : ((do let ys ← vq.mapM fun (row : List (K × K)) => (row[m]?).map Prod.fst
                  some (m, (projectionTimes vq.length dt).zip ys)) : Option (ℕ × List (K × K))).isSome ↔
        (vq.mapM fun (row : List (K × K)) => (row[m]?).map Prod.fst).isSome := by
      cases (vq.mapM fun (row : List (K × K)) => (row[m]?).map Prod.fst) <;> simp
    rw [h, mapM_isSome]
    refine forall₂_congr fun row _ => ?_
    simp
  · intro curves h
    rw [mapM_eq_some_iff] at h
    clear hm
    induction h with
    | nil => simp
    | @cons m c ms cs hc _ ih =>
      cases hy : vq.mapM fun (row : List (K × K)) => (row[m]?).map Prod.fst with
      | none => simp [hy] at hc
      | some ys =>
        simp only [hy, Option.bind_eq_bind, Option.bind_some, Option.some.injEq] at hc
        subst hc
        rw [mapM_eq_some_iff] at hy
        refine ⟨by rw [List.map_cons, ih.1], ?_⟩
        intro m' pts hmem
        rcases List.mem_cons.1 hmem with e | hmem
        · obtain ⟨rfl, rfl⟩ := Prod.mk.inj e
          have hlen := hy.length_eq
          have htl : (projectionTimes vq.length dt).length = vq.length := by simp [projectionTimes, linspaceZero]
          refine ⟨by rw [List.length_zip, htl, ← hlen, min_self], ?_⟩
          intro t row ht
          obtain ⟨hlt, he⟩ := List.getElem?_eq_some_iff.1 ht
          have := hy.get hlt (hlen ▸ hlt)
          simp only [List.get_eq_getElem, he] at this
          obtain ⟨z, hz, hz1⟩ := Option.map_eq_some_iff.1 this
          refine ⟨z, hz, ?_⟩
          rw [List.getElem?_eq_getElem (by simp [htl, ← hlen, hlt])]
          simp [hz1]
        · exact ih.2 m' pts hmem

/-- C110: no selection draws mode 0, and the first coordinate of the first atom. -/
theorem C110_default {K : Type*} [Field K] (vq : List (List (K × K))) (vc : List (List (List K))) (dt : K) (atoms coordinates : List ℕ) :
    plotVqCurves vq dt [] = plotVqCurves vq dt [0] ∧ plotVcCurves vc dt [] coordinates = plotVcCurves vc dt [0] coordinates ∧
    plotVcCurves vc dt atoms [] = plotVcCurves vc dt atoms [0] := ⟨rfl, rfl, rfl⟩

example : plotVqCurves [[((1 : ℚ), 2), (3, 4)], [(5, 6), (7, 8)]] 1 [1, 0] = some [(1, [(0, 3), (2, 7)]), (0, [(0, 1), (2, 5)])] := by decide +kernel

end Verif
