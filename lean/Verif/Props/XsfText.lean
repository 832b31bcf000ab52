import Verif.Model.XsfText
import Verif.Props.LammpsText
import Verif.Props.Xsf
import Verif.Props.OutcarText

/-! # C148: the XSF file describes the crystal -/

set_option autoImplicit false
set_option linter.unusedSectionVars false

namespace Verif

open Matrix

section
variable {K : Type} [Field K] [LinearOrder K] [IsStrictOrderedRing K] [FloorRing K]

/-! ## Specification: how an XSF file is read (documentation of XCrySDen): the lines of a crystal are the keyword `CRYSTAL`, `PRIMVEC` and the three primitive vectors, `CONVVEC` and the three conventional vectors,
`PRIMCOORD`, the number of atoms of the primitive cell and the number 1, and for each of the atoms its atomic number and Cartesian position. Words are separated by blanks. -/

/-- What is in an XSF file. -/
structure XsfData (K : Type) where
  primitive : Matrix (Fin 3) (Fin 3) K
  conventional : Matrix (Fin 3) (Fin 3) K
  atoms : ℕ
  rows : List (ℕ × (Fin 3 → K))

/-- Three numbers. -/
def vectorWords : List (List Char) → Option (Fin 3 → K)
  | [a, b, c] => (pyFloat a).bind fun a => (pyFloat b).bind fun b => (pyFloat c).map fun c => ![a, b, c]
  | _ => none

/-- The line of an atom. -/
def xsfAtomWords : List (List Char) → Option (ℕ × (Fin 3 → K))
  | z :: v => (pyIntText z).bind fun z => (vectorWords v).map fun v => (z.toNat, v)
  | [] => none

/-- An XSF file as it is read. -/
def readXsf (text : List Char) : Option (XsfData K) :=
  match (fileLines text).map pySplit with
  | w1 :: w2 :: a :: b :: c :: w3 :: d :: e :: f :: w4 :: [n, one] :: rows =>
    if w1 = ["CRYSTAL".toList] ∧ w2 = ["PRIMVEC".toList] ∧ w3 = ["CONVVEC".toList] ∧ w4 = ["PRIMCOORD".toList] ∧ pyIntText one = some 1 then
      (vectorWords a).bind fun a => (vectorWords b).bind fun b => (vectorWords c).bind fun c =>
      (vectorWords d).bind fun d => (vectorWords e).bind fun e => (vectorWords f).bind fun f =>
      (pyIntText n).bind fun n => (rows.mapM xsfAtomWords).map fun rows =>
      { primitive := Matrix.of ![a, b, c], conventional := Matrix.of ![d, e, f], atoms := n.toNat, rows := rows }
    else none
  | _ => none

/-! ## The words of the lines -/

theorem blank_tab {p : List Char} (hp : IsBlankText p) : IsBlankText ('\t' :: p) := by
  intro c hc
  rcases List.mem_cons.1 hc with rfl | hc
  · rfl
  · exact hp c hc

theorem fixed_read_dec (dec : ℕ) (x : K) : pyFloat (fixedText dec x) = some (aroundDec dec x) := by
  have := C111_fixed_eq dec x [] [] blank_nil blank_nil
  rwa [List.nil_append, List.append_nil] at this

/-- A row without the newline. -/
def xsfRowBody (r : Fin 3 → K) : List Char := fixedField 10 4 (r 0) ++ '\t' :: fixedField 10 4 (r 1) ++ '\t' :: fixedField 10 4 (r 2)

theorem xsfRowBody_words (r : Fin 3 → K) : pySplit (xsfRowBody r) = [fixedText 4 (r 0), fixedText 4 (r 1), fixedText 4 (r 2)] := by
  obtain ⟨p, hp, e1⟩ := padLeft_eq 10 (fixedText 4 (r 0))
  obtain ⟨q, hq, e2⟩ := padLeft_eq 10 (fixedText 4 (r 1))
  obtain ⟨u, hu, e3⟩ := padLeft_eq 10 (fixedText 4 (r 2))
  refine words_of p hp [(fixedText 4 (r 0), '\t' :: q), (fixedText 4 (r 1), '\t' :: u)] ?_ (fixedText 4 (r 2)) [] (fixedText_word _ _) blank_nil _ ?_
  · intro s hs
    simp only [List.mem_cons, List.not_mem_nil, or_false] at hs
    rcases hs with rfl | rfl
    · exact ⟨fixedText_word _ _, blank_tab hq, by simp⟩
    · exact ⟨fixedText_word _ _, blank_tab hu, by simp⟩
  · simp [xsfRowBody, fixedField, e1, e2, e3]

/-- The line of an atom without the newline. -/
def xsfAtomBody (z : ℕ) (r : Fin 3 → K) : List Char := padLeft 4 (natText z) ++ '\t' :: xsfRowBody r

theorem xsfAtomBody_words (z : ℕ) (r : Fin 3 → K) : pySplit (xsfAtomBody z r) = [natText z, fixedText 4 (r 0), fixedText 4 (r 1), fixedText 4 (r 2)] := by
  obtain ⟨b, hb, e0⟩ := padLeft_eq 4 (natText z)
  obtain ⟨p, hp, e1⟩ := padLeft_eq 10 (fixedText 4 (r 0))
  obtain ⟨q, hq, e2⟩ := padLeft_eq 10 (fixedText 4 (r 1))
  obtain ⟨u, hu, e3⟩ := padLeft_eq 10 (fixedText 4 (r 2))
  refine words_of b hb [(natText z, '\t' :: p), (fixedText 4 (r 0), '\t' :: q), (fixedText 4 (r 1), '\t' :: u)] ?_ (fixedText 4 (r 2)) [] (fixedText_word _ _) blank_nil _ ?_
  · intro s hs
    simp only [List.mem_cons, List.not_mem_nil, or_false] at hs
    rcases hs with rfl | rfl | rfl
    · exact ⟨natText_word _, blank_tab hp, by simp⟩
    · exact ⟨fixedText_word _ _, blank_tab hq, by simp⟩
    · exact ⟨fixedText_word _ _, blank_tab hu, by simp⟩
  · simp [xsfAtomBody, xsfRowBody, fixedField, e0, e1, e2, e3]

/-- The line of the counts without the newline. -/
def xsfCountBody (n : ℕ) : List Char := padLeft 10 (natText n) ++ ' ' :: padLeft 10 (natText 1)

theorem xsfCountBody_words (n : ℕ) : pySplit (xsfCountBody n) = [natText n, natText 1] := by
  obtain ⟨b, hb, e0⟩ := padLeft_eq 10 (natText n)
  obtain ⟨p, hp, e1⟩ := padLeft_eq 10 (natText 1)
  refine words_of b hb [(natText n, ' ' :: p)] ?_ (natText 1) [] (natText_word _) blank_nil _ ?_
  · intro s hs
    rw [List.mem_singleton] at hs
    subst hs
    exact ⟨natText_word _, blank_cons hp, by simp⟩
  · simp [xsfCountBody, e0, e1]

theorem padNat_newline (w n : ℕ) : '\n' ∉ padLeft w (natText n) := by
  unfold padLeft
  rw [List.mem_append, not_or]
  exact ⟨fun h => by have := List.eq_of_mem_replicate h; simp at this, word_newline (natText_word n)⟩

theorem xsfRowBody_newline (r : Fin 3 → K) : '\n' ∉ xsfRowBody r := by
  simp [xsfRowBody, fixedField_newline]

/-- The lines of the file. -/
def xsfLines (A B : Matrix (Fin 3) (Fin 3) K) (n : ℕ) (rows : List (ℕ × (Fin 3 → K))) : List Line :=
  ["CRYSTAL".toList, "PRIMVEC".toList, xsfRowBody (A 0), xsfRowBody (A 1), xsfRowBody (A 2), "CONVVEC".toList, xsfRowBody (B 0), xsfRowBody (B 1), xsfRowBody (B 2), "PRIMCOORD".toList, xsfCountBody n]
  ++ rows.map fun a => xsfAtomBody a.1 a.2

theorem xsfLines_newline (A B : Matrix (Fin 3) (Fin 3) K) (n : ℕ) (rows : List (ℕ × (Fin 3 → K))) : ∀ l ∈ xsfLines A B n rows, '\n' ∉ l := by
  intro l hl
  simp only [xsfLines, List.mem_append, List.mem_cons, List.not_mem_nil, or_false, List.mem_map] at hl
  rcases hl with (rfl | rfl | rfl | rfl | rfl | rfl | rfl | rfl | rfl | rfl | rfl) | ⟨a, -, rfl⟩
  · decide
  · decide
  · exact xsfRowBody_newline _
  · exact xsfRowBody_newline _
  · exact xsfRowBody_newline _
  · decide
  · exact xsfRowBody_newline _
  · exact xsfRowBody_newline _
  · exact xsfRowBody_newline _
  · decide
  · simp [xsfCountBody, padNat_newline]
  · simp [xsfAtomBody, padNat_newline, xsfRowBody_newline]

/-- A row rounded to four decimals. -/
def xsfRounded (r : Fin 3 → K) : Fin 3 → K := ![aroundDec 4 (r 0), aroundDec 4 (r 1), aroundDec 4 (r 2)]

theorem xsfRounded_error (r : Fin 3 → K) (k : Fin 3) : |xsfRounded r k - r k| ≤ 1 / 2 / 10 ^ 4 := by
  fin_cases k
  · exact aroundDec_error 4 (r 0)
  · exact aroundDec_error 4 (r 1)
  · exact aroundDec_error 4 (r 2)

theorem vectorWords_row (r : Fin 3 → K) : vectorWords (pySplit (xsfRowBody r)) = some (xsfRounded r) := by
  rw [xsfRowBody_words]
  simp [vectorWords, fixed_read_dec, xsfRounded]

theorem xsfAtomWords_row (z : ℕ) (r : Fin 3 → K) : xsfAtomWords (pySplit (xsfAtomBody z r)) = some (z, xsfRounded r) := by
  rw [xsfAtomBody_words]
  simp [xsfAtomWords, vectorWords, fixed_read_dec, nat_read, xsfRounded]

theorem readXsf_lines (A B : Matrix (Fin 3) (Fin 3) K) (n : ℕ) (rows : List (ℕ × (Fin 3 → K))) :
    readXsf (unlines (xsfLines A B n rows)) = some { primitive := Matrix.of ![xsfRounded (A 0), xsfRounded (A 1), xsfRounded (A 2)], conventional := Matrix.of ![xsfRounded (B 0), xsfRounded (B 1), xsfRounded (B 2)], atoms := n, rows := rows.map fun a => (a.1, xsfRounded a.2) } := by
  have hrows : (rows.map fun a => pySplit (xsfAtomBody a.1 a.2)).mapM xsfAtomWords = some (rows.map fun a => (a.1, xsfRounded a.2)) :=
    mapM_map_some _ _ _ _ fun a _ => xsfAtomWords_row a.1 a.2
  have hw : ∀ w : List Char, IsLiteralWord w → pySplit w = [w] := by
    intro w h
    exact words_of [] blank_nil [] (by simp) w [] (literal_word h) blank_nil _ (by simp)
  have hlines : (fileLines (unlines (xsfLines A B n rows))).map pySplit =
      ["CRYSTAL".toList] :: ["PRIMVEC".toList] :: pySplit (xsfRowBody (A 0)) :: pySplit (xsfRowBody (A 1)) :: pySplit (xsfRowBody (A 2)) :: ["CONVVEC".toList] :: pySplit (xsfRowBody (B 0)) ::
        pySplit (xsfRowBody (B 1)) :: pySplit (xsfRowBody (B 2)) :: ["PRIMCOORD".toList] :: [natText n, natText 1] :: rows.map fun a => pySplit (xsfAtomBody a.1 a.2) := by
    rw [unlines_flatMap, fileLines_lines _ (xsfLines_newline A B n rows)]
    simp only [xsfLines, List.map_cons, List.map_map, List.cons_append, List.nil_append, xsfCountBody_words]
    rw [hw "CRYSTAL".toList (by decide +kernel), hw "PRIMVEC".toList (by decide +kernel), hw "CONVVEC".toList (by decide +kernel), hw "PRIMCOORD".toList (by decide +kernel)]
    rfl
  unfold readXsf
  rw [hlines]
  simp only [vectorWords_row, hrows, Option.bind_some, Option.map_some, nat_read, Int.toNat_natCast]
  simp

theorem xsfText_eq (A B : Matrix (Fin 3) (Fin 3) K) (n : ℕ) (numbers : List ℕ) (positions : List (Fin 3 → K)) (out : List ℕ) (h1 : ∀ i ∈ out, i < numbers.length) (h2 : ∀ i ∈ out, i < positions.length) :
    xsfText A B n numbers positions out = some (unlines (xsfLines A B n (out.map fun i => (numbers.getD i 0, positions.getD i 0)))) := by
  have hrow : ∀ r : Fin 3 → K, xsfRow r = xsfRowBody r ++ ['\n'] := fun r => rfl
  have h : out.mapM (xsfAtom numbers positions) = some (out.map fun i => xsfAtomBody (numbers.getD i 0) (positions.getD i 0) ++ ['\n']) := by
    have := mapM_map_some (fun i : ℕ => i) (xsfAtom numbers positions) (fun i => xsfAtomBody (numbers.getD i 0) (positions.getD i 0) ++ ['\n']) out ?_
    · rwa [List.map_id'] at this
    · intro i hi
      simp [xsfAtom, List.getD_eq_getElem?_getD, List.getElem?_eq_getElem (h1 i hi), List.getElem?_eq_getElem (h2 i hi), xsfAtomBody, hrow]
  have l1 : ("CRYSTAL\n".toList : List Char) = "CRYSTAL".toList ++ ['\n'] := by decide +kernel
  have l2 : ("PRIMVEC\n".toList : List Char) = "PRIMVEC".toList ++ ['\n'] := by decide +kernel
  have l3 : ("CONVVEC\n".toList : List Char) = "CONVVEC".toList ++ ['\n'] := by decide +kernel
  have l4 : ("PRIMCOORD\n".toList : List Char) = "PRIMCOORD".toList ++ ['\n'] := by decide +kernel
  unfold xsfText
  rw [h, l1, l2, l3, l4]
  simp only [Option.map_some, hrow, xsfLines, unlines, xsfCountBody, List.map_append, List.flatten_append, List.map_map, List.map_cons, List.map_nil, List.flatten_cons, List.flatten_nil]
  generalize "CRYSTAL".toList = g1
  generalize "PRIMVEC".toList = g2
  generalize "CONVVEC".toList = g3
  generalize "PRIMCOORD".toList = g4
  simp only [List.append_assoc, List.cons_append, List.nil_append, List.append_nil]
  rfl

/-- **C148**: for a structure with computed types (atoms being of one type iff they are equivalent) the XSF file is written, and read as XSF it is the crystal to four decimals: the primitive vectors (each the
combination of the vectors of the cell given by the primitive matrix), the cell, as many atoms as announced, each with the atomic number and position of an atom of the cell, and for every atom of the cell
there is exactly one equivalent atom in the file. -/
theorem C148_file (same : ℕ → ℕ → Bool) (cell P : Matrix (Fin 3) (Fin 3) K) (numbers : List ℕ) (positions : List (Fin 3 → K)) (hn : numbers.length = positions.length) (R : ℕ → ℕ → Prop) (hR : Equivalence R)
    (hsame : ∀ i j, i < j → j < positions.length → (same i j = true ↔ R i j)) :
    ∃ text, (∀ t, XsfFile cell P (typeLabels same positions.length) numbers positions t ↔ t = text) ∧ ∃ d : XsfData K, readXsf text = some d ∧
      (∀ i k, |d.primitive i k - ∑ j, P j i * cell j k| ≤ 1 / 2 / 10 ^ 4) ∧ (∀ i k, |d.conventional i k - cell i k| ≤ 1 / 2 / 10 ^ 4) ∧ d.atoms = d.rows.length ∧
      ∃ atom : ℕ → ℕ, (∀ v (hv : v < d.rows.length), ∃ h : atom v < positions.length, d.rows[v].1 = numbers[atom v] ∧ ∀ k, |d.rows[v].2 k - positions[atom v] k| ≤ 1 / 2 / 10 ^ 4) ∧
        ∀ i < positions.length, ∃! v, v < d.rows.length ∧ R (atom v) i := by
  have hlab : (typeLabels same positions.length).length = positions.length := by simp [typeLabels]
  obtain ⟨out, hout, hlen, hfirst⟩ := C63_computed same positions.length
  have hlt : ∀ v i, out[v]? = some i → i < positions.length := fun v i h => by
    have := (List.getElem?_eq_some_iff.1 (hfirst v i h).1).1
    omega
  have hmem : ∀ i ∈ out, i < positions.length := fun i hi => by
    obtain ⟨v, hv⟩ := List.mem_iff_getElem?.1 hi
    exact hlt v i hv
  have hfile := xsfText_eq (cell.transpose * P).transpose cell (typeLabels same positions.length).toFinset.card numbers positions out (fun i hi => by rw [hn]; exact hmem i hi) hmem
  refine ⟨_, fun text => ⟨?_, fun h => h ▸ ⟨out, hout, hfile⟩⟩, _, readXsf_lines _ _ _ _, ?_, ?_, ?_, fun v => out.getD v 0, ?_, ?_⟩
  · rintro ⟨out', hout', htext⟩
    have : out' = out := by
      have h' := (C63_ends_iff _ _).2 out' hout'
      refine List.ext_getElem? fun v => ?_
      by_cases hv : v < out.length
      · have hv2 : v < out'.length := by omega
        have a := hfirst v _ (List.getElem?_eq_getElem hv)
        have b := h'.2 v _ (List.getElem?_eq_getElem hv2)
        rw [List.getElem?_eq_getElem hv, List.getElem?_eq_getElem hv2]
        congr 1
        rcases lt_trichotomy out[v] out'[v] with h | h | h
        · exact absurd a.1 (b.2 _ h)
        · exact h.symm
        · exact absurd b.1 (a.2 _ h)
      · rw [List.getElem?_eq_none (by omega), List.getElem?_eq_none (by omega)]
    subst this
    rw [hfile] at htext
    exact (Option.some.inj htext).symm
  · intro i k
    have h : ∑ j, P j i * cell j k = (cell.transpose * P).transpose i k := by
      simp [Matrix.mul_apply, mul_comm]
    rw [h]
    fin_cases i
    · exact xsfRounded_error _ k
    · exact xsfRounded_error _ k
    · exact xsfRounded_error _ k
  · intro i k
    fin_cases i
    · exact xsfRounded_error _ k
    · exact xsfRounded_error _ k
    · exact xsfRounded_error _ k
  · simp [hlen]
  · intro v hv
    have hv' : v < out.length := by simpa using hv
    have hi := hlt v _ (List.getElem?_eq_getElem hv')
    have e : out.getD v 0 = out[v] := by simp [List.getD_eq_getElem?_getD, List.getElem?_eq_getElem hv']
    refine ⟨by simpa only [e] using hi, ?_, fun k => ?_⟩
    · simp only [List.getElem_map, e]
      simp [List.getD_eq_getElem?_getD, List.getElem?_eq_getElem (show out[v] < numbers.length by omega)]
    · simp only [List.getElem_map]
      have e2 : ∀ j (hj : j < positions.length), j = out[v] → positions[j] = positions.getD out[v] 0 := by
        rintro _ hj rfl
        simp [List.getD_eq_getElem?_getD, List.getElem?_eq_getElem hj]
      rw [e2 _ _ e]
      exact xsfRounded_error (positions.getD out[v] 0) k
  · intro i hi
    obtain ⟨w, hw⟩ : ∃ w, (typeLabels same positions.length)[i]? = some w := ⟨_, List.getElem?_eq_getElem (by omega)⟩
    have hwlt : w < out.length := by
      rw [hlen]
      exact (C06_labels same positions.length w).1 (List.mem_of_getElem? hw)
    have hD : ∀ v (hv : v < out.length), out.getD v 0 = out[v] := fun v hv => by simp [List.getD_eq_getElem?_getD, List.getElem?_eq_getElem hv]
    refine ⟨w, ⟨by simpa using hwlt, ?_⟩, ?_⟩
    · have hf := hfirst w _ (List.getElem?_eq_getElem hwlt)
      simp only [hD w hwlt]
      exact (C06_classes same positions.length R hR hsame _ i (hlt w _ (List.getElem?_eq_getElem hwlt)) hi).1 (by rw [hf.1, hw])
    · rintro v ⟨hv, hr⟩
      have hv' : v < out.length := by simpa using hv
      simp only [hD v hv'] at hr
      have hf := hfirst v _ (List.getElem?_eq_getElem hv')
      have := (C06_classes same positions.length R hR hsame _ i (hlt v _ (List.getElem?_eq_getElem hv')) hi).2 hr
      rw [hf.1, hw] at this
      exact Option.some.inj this

/-- Atoms 0, 2 and 1, 3 of a cell of two primitive cells along `x`: the hypotheses hold, with two atoms in the file. -/
example : (∀ i j, i < j → j < 4 → ((fun i j : ℕ => decide (i % 2 = j % 2)) i j = true ↔ i % 2 = j % 2)) ∧ (typeLabels (fun i j : ℕ => decide (i % 2 = j % 2)) 4).toFinset.card = 2 ∧
    Equivalence fun i j : ℕ => i % 2 = j % 2 := by
  refine ⟨by simp, by decide +kernel, fun _ => rfl, fun h => h.symm, fun h h' => h.trans h'⟩

end

end Verif
