import Verif.Model.OutcarStructure
import Mathlib.Data.List.Infix
import Mathlib.Data.List.SplitOn
import Mathlib.Data.Rat.Defs
import Mathlib.Tactic.Ring

/-! # C99: reading a structure from an OUTCAR file -/

set_option autoImplicit false
set_option linter.unusedSectionVars false

namespace Verif

variable {R : Type}

/-! ## Specification: what is in the file -/

/-- Lines of text, each closed by a newline. -/
def unlines (ls : List (List Char)) : List Char := (ls.map (· ++ ['\n'])).flatten

/-- The text `pre` can stand before a keyword: the keyword does not begin inside it. -/
def Before (kw pre : List Char) : Prop := ¬ kw <:+: pre ++ kw.dropLast

/-- An OUTCAR file, cut at the places the reader looks for. The pieces `pre…` are arbitrary text (in particular `pre1` and `pre2`
may contain the `POMASS =` lines of the potentials), `head…` the rest of the line of a keyword. -/
structure OutcarText where
  pre1 : List Char
  nions : List Char
  pre2 : List Char
  skip2 : List Char
  counts : List Char
  pre3 : List Char
  skip3 : List Char
  masses : List (List Char)
  pre4 : List Char
  head4 : List Char
  cell : List (List Char)
  pre5 : List Char
  head5 : List Char
  fractional : List (List Char)
  pre6 : List Char
  head6 : List Char
  cartesian : List (List Char)
  tail : List Char

/-- The text of the file. -/
def OutcarText.text (t : OutcarText) : List Char :=
  t.pre1 ++ (kwNions ++ (t.nions ++ '\n' :: (t.pre2 ++ (kwIonsType ++ (t.skip2 ++ (t.counts ++ '\n' :: (t.pre3 ++ (kwPomass ++
  (t.skip3 ++ (t.masses.flatten ++ (t.pre4 ++ (kwLattice ++ (t.head4 ++ '\n' :: (unlines t.cell ++ (t.pre5 ++ (kwFractional ++
  (t.head5 ++ '\n' :: (unlines t.fractional ++ (t.pre6 ++ (kwCartesian ++ (t.head6 ++ '\n' :: (unlines t.cartesian ++
  t.tail))))))))))))))))))))))

/-- A file as VASP writes it: the keywords are found at their places, lines are lines, the masses are six characters wide and
follow the keyword after one character. -/
structure OutcarText.Ok (t : OutcarText) : Prop where
  b1 : Before kwNions t.pre1
  b2 : Before kwIonsType t.pre2
  b3 : Before kwPomass t.pre3
  b4 : Before kwLattice t.pre4
  b5 : Before kwFractional t.pre5
  b6 : Before kwCartesian t.pre6
  lines : ∀ l ∈ [t.nions, t.counts, t.head4, t.head5, t.head6] ++ t.cell ++ t.fractional ++ t.cartesian, '\n' ∉ l
  skip2 : t.skip2.length = 2
  skip3 : t.skip3.length = 1
  width : ∀ m ∈ t.masses, m.length = 6
  some_type : t.masses ≠ []
  cell3 : t.cell.length = 3

/-! ## Lemmas -/

theorem fromKeyword_skip (kw : List Char) (hk : kw ≠ []) (rest : List Char) : ∀ pre : List Char, Before kw pre →
    fromKeyword kw (pre ++ (kw ++ rest)) = some (kw ++ rest) := by
  intro pre
  induction pre with
  | nil =>
    intro _
    cases kw with
    | nil => exact absurd rfl hk
    | cons c kw =>
      simp only [List.nil_append, List.cons_append, fromKeyword]
      rw [if_pos]
      rw [List.isPrefixOf_iff_prefix]
      exact ⟨rest, by simp⟩
  | cons a pre ih =>
    intro h
    have h' : Before kw pre := by
      intro hi
      exact h (hi.trans (List.infix_cons (List.infix_refl _)))
    simp only [List.cons_append, fromKeyword]
    rw [if_neg]
    · exact ih h'
    · rw [List.isPrefixOf_iff_prefix]
      intro hp
      refine h (List.IsPrefix.isInfix ?_)
      have h2 : (a :: pre) ++ kw.dropLast <+: a :: (pre ++ (kw ++ rest)) := by
        rw [List.cons_append, List.cons_prefix_cons]
        refine ⟨rfl, ?_⟩
        rw [List.prefix_append_right_inj]
        exact (List.dropLast_prefix kw).trans (List.prefix_append _ _)
      refine List.prefix_of_prefix_length_le hp h2 ?_
      simp only [List.length_append, List.length_cons, List.length_dropLast]
      omega

theorem textLine_eq (l rest : List Char) (h : '\n' ∉ l) : textLine (l ++ '\n' :: rest) = (l, rest) := by
  have h1 : ∀ x ∈ l, decide (x ≠ '\n') = true := by
    intro x hx; simp only [decide_eq_true_eq]; rintro rfl; exact h hx
  unfold textLine
  rw [List.takeWhile_append_of_pos h1, List.dropWhile_append_of_pos h1]
  simp

theorem textLines_eq (rest : List Char) : ∀ ls : List (List Char), (∀ l ∈ ls, '\n' ∉ l) →
    textLines ls.length (unlines ls ++ rest) = (ls, rest) := by
  intro ls
  induction ls with
  | nil => intro _; simp [textLines, unlines]
  | cons l ls ih =>
    intro h
    have e : unlines (l :: ls) ++ rest = l ++ '\n' :: (unlines ls ++ rest) := by simp [unlines]
    rw [e, List.length_cons, textLines, textLine_eq l _ (h l (by simp))]
    simp only [ih (fun x hx => h x (by simp [hx]))]

theorem seekBehind_eq (file kw pre rest skip : List Char) (k : ℕ) (hk : kw ≠ []) (hb : Before kw pre)
    (hs : k = kw.length + skip.length) : seekBehind file (pre ++ (kw ++ (skip ++ rest))) kw k = rest := by
  unfold seekBehind
  rw [fromKeyword_skip kw hk _ pre hb]
  simp only
  rw [← List.append_assoc, hs, ← List.length_append, List.drop_left]

theorem seekBehind_eq0 (file cur kw pre rest : List Char) (k : ℕ) (hk : kw ≠ []) (hb : Before kw pre)
    (hs : k = kw.length) (hcur : cur = pre ++ (kw ++ rest)) : seekBehind file cur kw k = rest := by
  unfold seekBehind
  rw [hcur, fromKeyword_skip kw hk _ pre hb]
  simp only
  rw [hs, List.drop_left]

theorem tableBehind_eq (row : List Char → Option (List R)) (kw pre head rest : List Char) (ls : List (List Char)) (n : ℕ)
    (hk : kw ≠ []) (hkn : '\n' ∉ kw) (hb : Before kw pre) (hh : '\n' ∉ head) (hl : ∀ l ∈ ls, '\n' ∉ l) (hn : ls.length = n) :
    tableBehind row (pre ++ (kw ++ (head ++ '\n' :: (unlines ls ++ rest)))) kw n =
      ((ls.mapM row).bind toArray).map fun a => (a, rest) := by
  subst hn
  unfold tableBehind
  rw [fromKeyword_skip kw hk _ pre hb]
  simp only
  have : kw ++ (head ++ '\n' :: (unlines ls ++ rest)) = (kw ++ head) ++ '\n' :: (unlines ls ++ rest) := by simp
  rw [this, textLine_eq _ _ (by simp [hkn, hh]), textLines_eq rest ls hl]

theorem flatten_block (l : List (List Char)) (w : ℕ) (rest : List Char) (h : ∀ m ∈ l, m.length = w) :
    ∀ i (hi : i < l.length), ((l.flatten ++ rest).drop (w * i)).take w = l[i] ∧
      ((l.flatten ++ rest).drop (w * (i + 1))) = (l.drop (i + 1)).flatten ++ rest := by
  induction l with
  | nil => intro i hi; simp at hi
  | cons m l ih =>
    intro i hi
    have hm := h m (by simp)
    have ih := ih (fun x hx => h x (by simp [hx]))
    have e : (m :: l).flatten ++ rest = m ++ (l.flatten ++ rest) := by simp
    rw [e]
    cases i with
    | zero =>
      subst hm
      refine ⟨by simp, ?_⟩
      simp
    | succ i =>
      simp only [List.length_cons] at hi
      obtain ⟨h1, h2⟩ := ih i (by omega)
      constructor
      · rw [show w * (i + 1) = m.length + w * i by rw [hm]; ring, ← List.drop_drop, List.drop_left]
        simpa using h1
      · rw [show w * (i + 1 + 1) = m.length + w * (i + 1) by rw [hm]; ring, ← List.drop_drop, List.drop_left]
        simpa using h2

theorem massFields_eq (file pre skip rest : List Char) (l : List (List Char)) (hb : Before kwPomass pre)
    (hs : skip.length = 1) (h : ∀ m ∈ l, m.length = 6) (hne : l ≠ []) :
    massFields file (pre ++ (kwPomass ++ (skip ++ (l.flatten ++ rest)))) l.length = (l, rest) := by
  have hk : kwPomass ≠ [] := by decide
  have e : ∀ k, seekBehind file (pre ++ (kwPomass ++ (skip ++ (l.flatten ++ rest)))) kwPomass (9 + k) =
      (l.flatten ++ rest).drop k := by
    intro k
    unfold seekBehind
    rw [fromKeyword_skip kwPomass hk _ pre hb]
    simp only
    rw [← List.append_assoc kwPomass, ← List.drop_drop, List.drop_left' (by rw [List.length_append, hs]; rfl)]
  have hpos : 0 < l.length := List.length_pos_iff.2 hne
  unfold massFields
  rw [if_neg (by omega)]
  refine Prod.ext ?_ ?_
  · simp only [e]
    apply List.ext_getElem
    · simp
    · intro i h1 h2
      simp only [List.getElem_map, List.getElem_range]
      exact (flatten_block l 6 rest h i h2).1
  · simp only [e, List.drop_drop]
    have := (flatten_block l 6 rest h (l.length - 1) (by omega)).2
    rw [show l.length - 1 + 1 = l.length by omega] at this
    rw [show 6 * (l.length - 1) + 6 = 6 * l.length by omega, this]
    simp

/-- C99: for every file of this form, whatever text stands between the parts, `read_from_file_structure_outcar` returns the
lattice vectors as rows of the cell, the cartesian positions of all ions in their order, and for each ion the mass of its
type, where the first `counts[0]` ions are of the first type and so on; masses are read from the list behind `ions per type`, not from the
potentials. -/
theorem C99_read (c : OutcarCodec R) (t : OutcarText) (ht : t.Ok) (counts : List ℕ) (masses : List R)
    (cell pos frac rec : List (List R))
    (hn : c.int t.nions = some t.cartesian.length) (hf : t.fractional.length = t.cartesian.length)
    (hc : c.ints t.counts = some counts) (hlen : counts.length = t.masses.length)
    (hm : t.masses.mapM c.float = some masses)
    (hcell : t.cell.mapM c.row = some cell) (hrec : t.cell.mapM c.row2 = some rec)
    (hfrac : t.fractional.mapM c.row = some frac) (hpos : t.cartesian.mapM c.row = some pos)
    (a1 : ∀ r ∈ cell, r.length = 3) (a2 : ∀ r ∈ rec, r.length = 3) (a3 : ∀ r ∈ frac, r.length = 3)
    (a4 : ∀ r ∈ pos, r.length = 3) :
    readOutcarStructure c t.text = some { cell := cell, positions := pos, masses := expandTypes counts masses } := by
  have arr : ∀ x : List (List R), (∀ r ∈ x, r.length = 3) → toArray x = some x := by
    intro x hx
    unfold toArray
    rw [if_pos]
    intro r hr
    cases x with
    | nil => simp at hr
    | cons y x => rw [hx r hr, List.headD_cons, hx y (by simp)]
  have hl := ht.lines
  simp only [List.mem_append, List.mem_cons, List.not_mem_nil, or_false] at hl
  have expand : ∀ (ns : List ℕ) (ms : List (List Char)) (vs : List R), ms.mapM c.float = some vs →
      (expandTypes ns ms).mapM c.float = some (expandTypes ns vs) := by
    have rep : ∀ n m v, c.float m = some v → (List.replicate n m).mapM c.float = some (List.replicate n v) := by
      intro n m v h
      induction n with
      | zero => rfl
      | succ n ih => rw [List.replicate_succ, List.mapM_cons, h]; simp [ih, List.replicate_succ]
    intro ns
    induction ns with
    | nil => intro ms vs _; rfl
    | cons n ns ih =>
      intro ms vs h
      cases ms with
      | nil => simp only [List.mapM_nil] at h; cases h; rfl
      | cons m ms =>
        rw [List.mapM_cons] at h
        obtain ⟨v, h1, h2⟩ := Option.bind_eq_some_iff.1 h
        obtain ⟨vs', h3, h4⟩ := Option.bind_eq_some_iff.1 h2
        cases h4
        have : expandTypes (n :: ns) (m :: ms) = List.replicate n m ++ expandTypes ns ms := by simp [expandTypes]
        rw [this, List.mapM_append, rep n m v h1, ih ms vs' h3]
        simp [expandTypes]
  unfold readOutcarStructure
  dsimp only
  rw [seekBehind_eq0 t.text t.text kwNions t.pre1 _ 7 (by decide) ht.b1 (by decide) rfl, textLine_eq _ _ (hl _ (by simp))]
  simp only [hn, Option.bind_some]
  rw [seekBehind_eq t.text kwIonsType t.pre2 _ t.skip2 15 (by decide) ht.b2 (by rw [ht.skip2]; decide),
    textLine_eq _ _ (hl _ (by simp))]
  simp only [hc, Option.bind_some, hlen]
  rw [massFields_eq t.text t.pre3 t.skip3 _ t.masses ht.b3 ht.skip3 ht.width ht.some_type]
  simp only [expand counts t.masses masses hm, Option.bind_some]
  rw [tableBehind_eq c.row kwLattice t.pre4 t.head4 _ t.cell 3 (by decide) (by decide) ht.b4 (hl _ (by simp))
    (fun l h => hl l (by simp [h])) ht.cell3,
    tableBehind_eq c.row2 kwLattice t.pre4 t.head4 _ t.cell 3 (by decide) (by decide) ht.b4 (hl _ (by simp))
    (fun l h => hl l (by simp [h])) ht.cell3]
  simp only [hcell, hrec, Option.bind_some, arr _ a1, arr _ a2, Option.map_some]
  rw [tableBehind_eq c.row kwFractional t.pre5 t.head5 _ t.fractional _ (by decide) (by decide) ht.b5 (hl _ (by simp))
    (fun l h => hl l (by simp [h])) hf]
  simp only [hfrac, Option.bind_some, arr _ a3, Option.map_some]
  rw [tableBehind_eq c.row kwCartesian t.pre6 t.head6 _ t.cartesian _ (by decide) (by decide) ht.b6 (hl _ (by simp))
    (fun l h => hl l (by simp [h])) rfl]
  simp only [hpos, Option.bind_some, arr _ a4, Option.map_some]

/-- C99: with one count for each type, ion number `k` gets the mass of the type whose range contains `k`; there is one mass for each
counted ion. -/
theorem C99_masses (counts : List ℕ) (m : List R) (h : counts.length = m.length) :
    (expandTypes counts m).length = counts.sum ∧
    ∀ j (hj : j < m.length) k, (counts.take j).sum ≤ k → k < (counts.take (j + 1)).sum →
      (expandTypes counts m)[k]? = some m[j] := by
  induction counts generalizing m with
  | nil =>
    cases m with
    | nil => exact ⟨rfl, fun j hj => by simp at hj⟩
    | cons _ _ => simp at h
  | cons n counts ih =>
    cases m with
    | nil => simp at h
    | cons a m =>
      simp only [List.length_cons, Nat.add_right_cancel_iff] at h
      obtain ⟨h1, h2⟩ := ih m h
      have e : expandTypes (n :: counts) (a :: m) = List.replicate n a ++ expandTypes counts m := by simp [expandTypes]
      rw [e]
      refine ⟨by simp [h1], ?_⟩
      intro j hj k hk1 hk2
      cases j with
      | zero =>
        simp at hk2
        rw [List.getElem?_append_left (by simpa using hk2)]
        simp [List.getElem?_replicate, hk2]
      | succ j =>
        simp only [List.take_succ_cons, List.sum_cons] at hk1 hk2
        simp only [List.length_cons, Nat.add_lt_add_iff_right] at hj
        rw [List.getElem?_append_right (by simp; omega)]
        simp only [List.length_replicate, List.getElem_cons_succ]
        exact h2 j hj (k - n) (by omega) (by omega)

/-! ## Example -/

def exDigits (l : List Char) : Option ℕ :=
  if l ≠ [] ∧ l.all Char.isDigit then some (l.foldl (fun a c => 10 * a + (c.toNat - 48)) 0) else none

def exWords (l : List Char) : List (List Char) := (l.splitOn ' ').filter (· ≠ [])

def exOutcarCodec : OutcarCodec ℕ where
  int l := exDigits (l.filter (· ≠ ' '))
  ints l := (exWords l).mapM exDigits
  float l := exDigits (l.filter (· ≠ ' '))
  row l := ((exWords l).take 3).mapM exDigits
  row2 l := (((exWords l).drop 3).take 3).mapM exDigits

/-- A small file, with a `POMASS =` line of a potential before the number of ions. -/
def exOutcar : OutcarText where
  pre1 := "POTCAR\n POMASS = 77; ZVAL\n NEDOS = 301 ".toList
  nions := "  3".toList
  pre2 := " POMASS = 99\n".toList
  skip2 := " =".toList
  counts := " 2 1".toList
  pre3 := "Mass\n ".toList
  skip3 := " ".toList
  masses := ["    28".toList, "    16".toList]
  pre4 := "\n vectors ".toList
  head4 := " reciprocal".toList
  cell := ["5 0 0 1 2 3".toList, "0 6 0 1 2 3".toList, "0 0 7 1 2 3".toList]
  pre5 := "\n\n".toList
  head5 := " (direct)".toList
  fractional := ["0 0 0".toList, "1 0 0".toList, "0 0 1".toList]
  pre6 := " \n ".toList
  head6 := " (Angst)".toList
  cartesian := ["1 2 3".toList, "4 5 6".toList, "7 8 9".toList]
  tail := "\n end".toList

theorem exOutcar_ok : exOutcar.Ok :=
  ⟨by unfold Before; decide +kernel, by unfold Before; decide +kernel, by unfold Before; decide +kernel,
   by unfold Before; decide +kernel, by unfold Before; decide +kernel, by unfold Before; decide +kernel,
   by decide +kernel, by decide +kernel, by decide +kernel, by decide +kernel, by decide +kernel, by decide +kernel⟩

/-- C99, violated for a file without the number of ions: nothing is reported, the number is taken from whatever stands behind
the sixth character of the file, here the title. -/
theorem C99_missing_violated : ∃ (c : OutcarCodec ℕ) (file : List Char), ¬ kwNions <:+: file ∧
    (readOutcarStructure c file).map (·.positions) = some [[1, 2, 3], [4, 5, 6]] :=
  ⟨exOutcarCodec, ("System2\n".toList ++ (exOutcar.text.drop (exOutcar.pre1.length + 7))), by decide +kernel, by decide +kernel⟩

/-- The hypotheses of `C99_read` are met by this file. -/
example : readOutcarStructure exOutcarCodec exOutcar.text =
    some { cell := [[5, 0, 0], [0, 6, 0], [0, 0, 7]], positions := [[1, 2, 3], [4, 5, 6], [7, 8, 9]],
           masses := [28, 28, 16] } :=
  C99_read exOutcarCodec exOutcar exOutcar_ok [2, 1] [28, 16] _ _ [[0, 0, 0], [1, 0, 0], [0, 0, 1]]
    [[1, 2, 3], [1, 2, 3], [1, 2, 3]] (by decide +kernel) rfl (by decide +kernel) rfl (by decide +kernel) (by decide +kernel)
    (by decide +kernel) (by decide +kernel) (by decide +kernel) (by decide) (by decide) (by decide) (by decide)

end Verif
