import Verif.Model.LammpsText
import Verif.Props.PoscarText
import Verif.Props.LammpsCell
import Verif.Props.OutcarStructure
import Verif.Props.TrajectoryText

/-! # C114: the LAMMPS data file describes the crystal -/

set_option autoImplicit false
set_option linter.unusedSectionVars false

namespace Verif

open Matrix

section
variable {K : Type} [Field K] [LinearOrder K] [IsStrictOrderedRing K] [FloorRing K]

/-! ## Specification: how LAMMPS reads a data file (documentation of `read_data`): the first line is skipped, blank lines are ignored, the lines of the header end with their keyword, then come the sections. -/

/-- What is in a data file. -/
structure LammpsData (K : Type) where
  atoms : ℕ
  types : ℕ
  x : K × K
  y : K × K
  z : K × K
  tilt : K × K × K
  masses : List (ℕ × K)
  rows : List (ℕ × ℕ × Option K × (Fin 3 → K))

/-- The words of the lines that count. -/
def dataWords (text : List Char) : List (List (List Char)) := (((fileLines text).drop 1).map pySplit).filter (· ≠ [])

/-- The `n` words in front of the keyword of the header. -/
def headerWords (key : List (List Char)) (n : ℕ) (h : List (List (List Char))) : Option (List (List Char)) :=
  h.findSome? fun w => if w.length = n + key.length ∧ w.drop n = key then some (w.take n) else none

/-- One integer, two and three numbers. -/
def oneInt : List (List Char) → Option ℕ
  | [a] => (pyIntText a).map Int.toNat
  | _ => none
@[inherit_doc oneInt] def twoNumbers : List (List Char) → Option (K × K)
  | [a, b] => (pyFloat a).bind fun a => (pyFloat b).map fun b => (a, b)
  | _ => none
@[inherit_doc oneInt] def threeNumbers : List (List Char) → Option (K × K × K)
  | [a, b, c] => (pyFloat a).bind fun a => (pyFloat b).bind fun b => (pyFloat c).map fun c => (a, b, c)
  | _ => none

/-- A line of the section `Masses`. -/
def massWords : List (List Char) → Option (ℕ × K)
  | [i, m] => (pyIntText i).bind fun i => (pyFloat m).map fun m => (i.toNat, m)
  | _ => none

/-- A line of the section `Atoms`, in the style `atomic` or `charge`. -/
def atomWords : List (List Char) → Option (ℕ × ℕ × Option K × (Fin 3 → K))
  | [i, t, x, y, z] => (pyIntText i).bind fun i => (pyIntText t).bind fun t => (threeNumbers [x, y, z]).map fun p => (i.toNat, t.toNat, none, ![p.1, p.2.1, p.2.2])
  | [i, t, q, x, y, z] => (pyIntText i).bind fun i => (pyIntText t).bind fun t => (pyFloat q).bind fun q => (threeNumbers [x, y, z]).map fun p => (i.toNat, t.toNat, some q, ![p.1, p.2.1, p.2.2])
  | _ => none

/-- The keywords. -/
def wMasses : List (List Char) := ["Masses".toList]
@[inherit_doc wMasses] def wAtoms : List (List Char) := ["Atoms".toList]

/-- A data file as LAMMPS reads it. -/
def readData (text : List Char) : Option (LammpsData K) :=
  let ws := dataWords text
  let header := ws.takeWhile (· ≠ wMasses)
  let behind := (ws.dropWhile (· ≠ wMasses)).drop 1
  ((headerWords ["atoms".toList] 1 header).bind oneInt).bind fun atoms =>
  ((headerWords ["atom".toList, "types".toList] 1 header).bind oneInt).bind fun types =>
  ((headerWords ["xlo".toList, "xhi".toList] 2 header).bind twoNumbers).bind fun x =>
  ((headerWords ["ylo".toList, "yhi".toList] 2 header).bind twoNumbers).bind fun y =>
  ((headerWords ["zlo".toList, "zhi".toList] 2 header).bind twoNumbers).bind fun z =>
  ((headerWords ["xy".toList, "xz".toList, "yz".toList] 3 header).bind threeNumbers).bind fun tilt =>
  ((behind.takeWhile (· ≠ wAtoms)).mapM massWords).bind fun masses =>
  (((behind.dropWhile (· ≠ wAtoms)).drop 1).mapM atomWords).map fun rows =>
  { atoms := atoms, types := types, x := x, y := y, z := z, tilt := tilt, masses := masses, rows := rows }

/-! ## The words of the lines -/

/-- Words, each followed by a blank, the first one after blanks. -/
theorem words_of (first : List Char) (hf : IsBlankText first) (items : List (List Char × List Char)) (hi : ∀ p ∈ items, IsWord p.1 ∧ IsBlankText p.2 ∧ p.2 ≠ []) (w last : List Char) (hw : IsWord w)
    (hl : IsBlankText last) (l : List Char) (h : l = first ++ (items.flatMap fun p => p.1 ++ p.2) ++ w ++ last) : pySplit l = items.map Prod.fst ++ [w] := by
  rw [h]
  exact C111_words items first last hf hl hi w hw

theorem blank_nil : IsBlankText [] := by intro c hc; simp at hc

theorem blank_space : IsBlankText [' '] := blankText_one _ rfl

theorem blank_cons {p : List Char} (hp : IsBlankText p) : IsBlankText (' ' :: p) := by
  intro c hc
  rcases List.mem_cons.1 hc with rfl | hc
  · rfl
  · exact hp c hc

/-- Literal words. -/
def IsLiteralWord (w : List Char) : Prop := w ≠ [] ∧ ∀ c ∈ w, isBlank c = false
instance (w : List Char) : Decidable (IsLiteralWord w) := by unfold IsLiteralWord; infer_instance
theorem literal_word {w : List Char} (h : IsLiteralWord w) : IsWord w := h

theorem twoFields_words (x y : K) (k1 k2 : List Char) (h1 : IsWord k1) (h2 : IsWord k2) :
    pySplit (twoFields x y ++ ' ' :: k1 ++ ' ' :: k2) = [fixedText 10 x, fixedText 10 y, k1, k2] := by
  obtain ⟨p, hp, e1⟩ := padLeft_eq 20 (fixedText 10 x)
  obtain ⟨q, hq, e2⟩ := padLeft_eq 20 (fixedText 10 y)
  refine words_of p hp [(fixedText 10 x, ' ' :: q), (fixedText 10 y, [' ']), (k1, [' '])] ?_ k2 [] h2 blank_nil _ ?_
  · intro r hr
    simp only [List.mem_cons, List.not_mem_nil, or_false] at hr
    rcases hr with rfl | rfl | rfl
    · exact ⟨fixedText_word _ _, blank_cons hq, by simp⟩
    · exact ⟨fixedText_word _ _, blank_space, by simp⟩
    · exact ⟨h1, blank_space, by simp⟩
  · simp [twoFields, fixedField, e1, e2]

theorem threeFields_words (x y z : K) (k1 k2 k3 : List Char) (h1 : IsWord k1) (h2 : IsWord k2) (h3 : IsWord k3) :
    pySplit (threeFields x y z ++ ' ' :: k1 ++ ' ' :: k2 ++ ' ' :: k3) = [fixedText 10 x, fixedText 10 y, fixedText 10 z, k1, k2, k3] := by
  obtain ⟨p, hp, e1⟩ := padLeft_eq 20 (fixedText 10 x)
  obtain ⟨q, hq, e2⟩ := padLeft_eq 20 (fixedText 10 y)
  obtain ⟨r, hr', e3⟩ := padLeft_eq 20 (fixedText 10 z)
  refine words_of p hp [(fixedText 10 x, ' ' :: q), (fixedText 10 y, ' ' :: r), (fixedText 10 z, [' ']), (k1, [' ']), (k2, [' '])] ?_ k3 [] h3 blank_nil _ ?_
  · intro s hs
    simp only [List.mem_cons, List.not_mem_nil, or_false] at hs
    rcases hs with rfl | rfl | rfl | rfl | rfl
    · exact ⟨fixedText_word _ _, blank_cons hq, by simp⟩
    · exact ⟨fixedText_word _ _, blank_cons hr', by simp⟩
    · exact ⟨fixedText_word _ _, blank_space, by simp⟩
    · exact ⟨h1, blank_space, by simp⟩
    · exact ⟨h2, blank_space, by simp⟩
  · simp [threeFields, fixedField, e1, e2, e3]

/-- The line of a mass without the newline. -/
def massBody (id : ℕ) (m : K) : List Char := natText id ++ ' ' :: fixedField 20 10 m ++ [' ']

theorem massBody_words (id : ℕ) (m : K) : pySplit (massBody id m) = [natText id, fixedText 10 m] := by
  obtain ⟨p, hp, e1⟩ := padLeft_eq 20 (fixedText 10 m)
  refine words_of [] blank_nil [(natText id, ' ' :: p)] ?_ (fixedText 10 m) [' '] (fixedText_word _ _) blank_space _ ?_
  · intro s hs
    simp only [List.mem_cons, List.not_mem_nil, or_false] at hs
    subst hs
    exact ⟨natText_word _, blank_cons hp, by simp⟩
  · simp [massBody, fixedField, e1]

/-- The line of an atom without the newline. -/
def atomBody (charge : Option (List Char)) (id type : ℕ) (row : Fin 3 → K) : List Char :=
  match charge with
  | some c => natText id ++ ' ' :: natText type ++ ' ' :: c ++ ' ' :: threeFields (row 0) (row 1) (row 2)
  | none => padLeft 10 (natText id) ++ ' ' :: natText type ++ ' ' :: threeFields (row 0) (row 1) (row 2)

theorem atomBody_words (charge : Option (List Char)) (hc : ∀ c ∈ charge, IsWord c) (id type : ℕ) (row : Fin 3 → K) :
    pySplit (atomBody charge id type row) = natText id :: natText type :: (charge.toList ++ [fixedText 10 (row 0), fixedText 10 (row 1), fixedText 10 (row 2)]) := by
  obtain ⟨p, hp, e1⟩ := padLeft_eq 20 (fixedText 10 (row 0))
  obtain ⟨q, hq, e2⟩ := padLeft_eq 20 (fixedText 10 (row 1))
  obtain ⟨r, hr, e3⟩ := padLeft_eq 20 (fixedText 10 (row 2))
  cases charge with
  | none =>
    obtain ⟨u, hu, e4⟩ := padLeft_eq 10 (natText id)
    refine words_of u hu [(natText id, [' ']), (natText type, ' ' :: p), (fixedText 10 (row 0), ' ' :: q), (fixedText 10 (row 1), ' ' :: r)] ?_ (fixedText 10 (row 2)) []
      (fixedText_word _ _) blank_nil _ ?_
    · intro s hs
      simp only [List.mem_cons, List.not_mem_nil, or_false] at hs
      rcases hs with rfl | rfl | rfl | rfl
      · exact ⟨natText_word _, blank_space, by simp⟩
      · exact ⟨natText_word _, blank_cons hp, by simp⟩
      · exact ⟨fixedText_word _ _, blank_cons hq, by simp⟩
      · exact ⟨fixedText_word _ _, blank_cons hr, by simp⟩
    · simp [atomBody, threeFields, fixedField, e1, e2, e3, e4]
  | some c =>
    refine words_of [] blank_nil [(natText id, [' ']), (natText type, [' ']), (c, ' ' :: p), (fixedText 10 (row 0), ' ' :: q), (fixedText 10 (row 1), ' ' :: r)] ?_ (fixedText 10 (row 2)) []
      (fixedText_word _ _) blank_nil _ ?_
    · intro s hs
      simp only [List.mem_cons, List.not_mem_nil, or_false] at hs
      rcases hs with rfl | rfl | rfl | rfl | rfl
      · exact ⟨natText_word _, blank_space, by simp⟩
      · exact ⟨natText_word _, blank_space, by simp⟩
      · exact ⟨hc c rfl, blank_cons hp, by simp⟩
      · exact ⟨fixedText_word _ _, blank_cons hq, by simp⟩
      · exact ⟨fixedText_word _ _, blank_cons hr, by simp⟩
    · simp [atomBody, threeFields, fixedField, e1, e2, e3]

theorem fixed_read (x : K) : pyFloat (fixedText 10 x) = some (aroundDec 10 x) := by
  have := C111_fixed_eq 10 x [] [] blank_nil blank_nil
  rwa [List.nil_append, List.append_nil] at this

theorem nat_read (n : ℕ) : pyIntText (natText n) = some (n : ℤ) := by
  have := C111_nat n [] [] blank_nil blank_nil
  rwa [List.nil_append, List.append_nil] at this

/-- The lines of the file. -/
def dataLines (n types : ℕ) (box : K × K × K × K × K × K) (ms : List (ℕ × K)) (as : List (Option (List Char) × ℕ × ℕ × (Fin 3 → K))) : List Line :=
  ["Generated using dynaphopy".toList, [], natText n ++ " atoms".toList, [], natText types ++ " atom types".toList, [], [], twoFields 0 box.1 ++ " xlo xhi".toList, twoFields 0 box.2.1 ++ " ylo yhi".toList,
   twoFields 0 box.2.2.1 ++ " zlo zhi".toList, threeFields box.2.2.2.1 box.2.2.2.2.1 box.2.2.2.2.2 ++ " xy xz yz".toList, [], "Masses".toList, []]
  ++ (ms.map (fun m => massBody m.1 m.2) ++ ([[], "Atoms".toList, []] ++ as.map fun a => atomBody a.1 a.2.1 a.2.2.1 a.2.2.2))

theorem dataLines_newline (n types : ℕ) (box : K × K × K × K × K × K) (ms : List (ℕ × K)) (as : List (Option (List Char) × ℕ × ℕ × (Fin 3 → K))) (hc : ∀ a ∈ as, ∀ c ∈ a.1, IsWord c) :
    ∀ l ∈ dataLines n types box ms as, '\n' ∉ l := by
  have hN : ∀ k : ℕ, '\n' ∉ natText k := fun k => word_newline (natText_word k)
  have hF := fun x : K => fixedField_newline 20 10 x
  have h2 : ∀ x y : K, '\n' ∉ twoFields x y := by intro x y; simp [twoFields, hF]
  have h3 : ∀ x y z : K, '\n' ∉ threeFields x y z := by intro x y z; simp [threeFields, hF]
  have hP : ∀ k : ℕ, '\n' ∉ padLeft 10 (natText k) := by
    intro k
    unfold padLeft
    rw [List.mem_append, not_or]
    exact ⟨fun h => by have := List.eq_of_mem_replicate h; simp at this, hN k⟩
  intro l hl
  simp only [dataLines, List.mem_append, List.mem_cons, List.not_mem_nil, or_false, List.mem_map] at hl
  rcases hl with (rfl | rfl | rfl | rfl | rfl | rfl | rfl | rfl | rfl | rfl | rfl | rfl | rfl | rfl) | ⟨m, -, rfl⟩ | (rfl | rfl | rfl) | ⟨a, ha, rfl⟩
  · decide
  · simp
  · simp [hN]
  · simp
  · simp [hN]
  · simp
  · simp
  · simp [h2]
  · simp [h2]
  · simp [h2]
  · simp [h3]
  · simp
  · decide
  · simp
  · simp [massBody, hN, hF]
  · simp
  · decide
  · simp
  · obtain ⟨c, i, t, row⟩ := a
    cases c with
    | none => simp [atomBody, hN, hP, h3]
    | some c => simp [atomBody, hN, h3, word_newline (hc _ ha c rfl)]

theorem dataWords_eq (n types : ℕ) (box : K × K × K × K × K × K) (ms : List (ℕ × K)) (as : List (Option (List Char) × ℕ × ℕ × (Fin 3 → K))) (hc : ∀ a ∈ as, ∀ c ∈ a.1, IsWord c) :
    dataWords (unlines (dataLines n types box ms as)) =
      [[natText n, "atoms".toList], [natText types, "atom".toList, "types".toList], [fixedText 10 (0 : K), fixedText 10 box.1, "xlo".toList, "xhi".toList],
       [fixedText 10 (0 : K), fixedText 10 box.2.1, "ylo".toList, "yhi".toList], [fixedText 10 (0 : K), fixedText 10 box.2.2.1, "zlo".toList, "zhi".toList],
       [fixedText 10 box.2.2.2.1, fixedText 10 box.2.2.2.2.1, fixedText 10 box.2.2.2.2.2, "xy".toList, "xz".toList, "yz".toList], wMasses]
      ++ (ms.map (fun m => [natText m.1, fixedText 10 m.2]) ++ (wAtoms ::
        as.map fun a => natText a.2.1 :: natText a.2.2.1 :: (a.1.toList ++ [fixedText 10 (a.2.2.2 0), fixedText 10 (a.2.2.2 1), fixedText 10 (a.2.2.2 2)]))) := by
  have e1 : pySplit (natText n ++ " atoms".toList) = [natText n, "atoms".toList] :=
    words_of [] blank_nil [(natText n, [' '])] (by simp [natText_word, blank_space]) "atoms".toList [] (literal_word (by decide +kernel)) blank_nil _ (by simp)
  have e2 : pySplit (natText types ++ " atom types".toList) = [natText types, "atom".toList, "types".toList] :=
    words_of [] blank_nil [(natText types, [' ']), ("atom".toList, [' '])] (by
      intro s hs
      rcases List.mem_cons.1 hs with rfl | hs
      · exact ⟨natText_word _, blank_space, by simp⟩
      · rw [List.mem_singleton] at hs
        subst hs
        exact ⟨literal_word (by decide +kernel), blank_space, by simp⟩) "types".toList [] (literal_word (by decide +kernel)) blank_nil _ (by simp)
  have e3 : ∀ x y : K, pySplit (twoFields x y ++ " xlo xhi".toList) = [fixedText 10 x, fixedText 10 y, "xlo".toList, "xhi".toList] := by
    intro x y
    have := twoFields_words x y "xlo".toList "xhi".toList (literal_word (by decide +kernel)) (literal_word (by decide +kernel))
    rw [← this]; congr 1; simp
  have e4 : ∀ x y : K, pySplit (twoFields x y ++ " ylo yhi".toList) = [fixedText 10 x, fixedText 10 y, "ylo".toList, "yhi".toList] := by
    intro x y
    have := twoFields_words x y "ylo".toList "yhi".toList (literal_word (by decide +kernel)) (literal_word (by decide +kernel))
    rw [← this]; congr 1; simp
  have e5 : ∀ x y : K, pySplit (twoFields x y ++ " zlo zhi".toList) = [fixedText 10 x, fixedText 10 y, "zlo".toList, "zhi".toList] := by
    intro x y
    have := twoFields_words x y "zlo".toList "zhi".toList (literal_word (by decide +kernel)) (literal_word (by decide +kernel))
    rw [← this]; congr 1; simp
  have e6 : ∀ x y z : K, pySplit (threeFields x y z ++ " xy xz yz".toList) = [fixedText 10 x, fixedText 10 y, fixedText 10 z, "xy".toList, "xz".toList, "yz".toList] := by
    intro x y z
    have := threeFields_words x y z "xy".toList "xz".toList "yz".toList (literal_word (by decide +kernel)) (literal_word (by decide +kernel)) (literal_word (by decide +kernel))
    rw [← this]; congr 1; simp
  have e7 : pySplit [] = [] := rfl
  have e8 : pySplit "Masses".toList = wMasses := by decide +kernel
  have e9 : pySplit "Atoms".toList = wAtoms := by decide +kernel
  have hne : wMasses ≠ [] ∧ wAtoms ≠ [] := by constructor <;> simp [wMasses, wAtoms]
  unfold dataWords
  rw [show unlines (dataLines n types box ms as) = (dataLines n types box ms as).flatMap fun l => l ++ ['\n'] from by rw [unlines, List.flatMap_def], fileLines_lines _ (dataLines_newline n types box ms as hc)]
  have hm : (ms.map fun m => massBody m.1 m.2).map pySplit = ms.map fun m => [natText m.1, fixedText 10 m.2] := by
    rw [List.map_map]; exact List.map_congr_left fun m _ => massBody_words m.1 m.2
  have ha : (as.map fun a => atomBody a.1 a.2.1 a.2.2.1 a.2.2.2).map pySplit =
      as.map fun a => natText a.2.1 :: natText a.2.2.1 :: (a.1.toList ++ [fixedText 10 (a.2.2.2 0), fixedText 10 (a.2.2.2 1), fixedText 10 (a.2.2.2 2)]) := by
    rw [List.map_map]; exact List.map_congr_left fun a h => atomBody_words a.1 (hc a h) a.2.1 a.2.2.1 a.2.2.2
  have f1 : (ms.map fun m => [natText m.1, fixedText 10 m.2]).filter (fun w : List (List Char) => decide (w ≠ [])) = ms.map fun m => [natText m.1, fixedText 10 m.2] := by
    rw [List.filter_eq_self]
    intro w hw
    obtain ⟨m, -, rfl⟩ := List.mem_map.1 hw
    simp
  have f2 : ∀ (g : (Option (List Char) × ℕ × ℕ × (Fin 3 → K)) → List (List Char)) , (∀ a, g a ≠ []) → (as.map g).filter (fun w : List (List Char) => decide (w ≠ [])) = as.map g := by
    intro g hg
    rw [List.filter_eq_self]
    intro w hw
    obtain ⟨a, -, rfl⟩ := List.mem_map.1 hw
    simp [hg]
  rw [dataLines, List.cons_append, List.drop_succ_cons, List.drop_zero]
  simp only [List.map_append, List.map_cons, List.map_nil, e1, e2, e3, e4, e5, e6, e7, e8, e9, hm, ha, List.filter_append, List.filter_cons, List.filter_nil, f1,
    f2 _ (fun _ => List.cons_ne_nil _ _), ne_eq, not_true_eq_false, decide_false, Bool.false_eq_true, if_false, reduceCtorEq, not_false_eq_true, decide_true, if_true, hne, List.cons_append, List.nil_append]

theorem takeWhile_stop {β : Type} [DecidableEq β] (w : β) (rest : List β) : ∀ l : List β, (∀ x ∈ l, x ≠ w) → (l ++ w :: rest).takeWhile (· ≠ w) = l ∧ (l ++ w :: rest).dropWhile (· ≠ w) = w :: rest
  | [], _ => by simp
  | x :: l, h => by
    obtain ⟨h1, h2⟩ := takeWhile_stop w rest l fun y hy => h y (by simp [hy])
    have hx : x ≠ w := h x (by simp)
    have hd : decide (x ≠ w) = true := decide_eq_true hx
    refine ⟨?_, ?_⟩
    · rw [List.cons_append, List.takeWhile_cons_of_pos (p := fun x => decide (x ≠ w)) hd, h1]
    · rw [List.cons_append, List.dropWhile_cons_of_pos (p := fun x => decide (x ≠ w)) hd, h2]

/-- LAMMPS reads the file. -/
theorem readData_eq (n types : ℕ) (box : K × K × K × K × K × K) (ms : List (ℕ × K)) (as : List (Option (List Char) × ℕ × ℕ × (Fin 3 → K))) (hc : ∀ a ∈ as, ∀ c ∈ a.1, IsWord c ∧ ∃ q : K, pyFloat c = some q) :
    readData (K := K) (unlines (dataLines n types box ms as)) = some
      { atoms := n, types := types, x := (aroundDec 10 0, aroundDec 10 box.1), y := (aroundDec 10 0, aroundDec 10 box.2.1), z := (aroundDec 10 0, aroundDec 10 box.2.2.1)
        tilt := (aroundDec 10 box.2.2.2.1, aroundDec 10 box.2.2.2.2.1, aroundDec 10 box.2.2.2.2.2), masses := ms.map fun m => (m.1, aroundDec 10 m.2)
        rows := as.map fun a => (a.2.1, a.2.2.1, a.1.bind pyFloat, ![aroundDec 10 (a.2.2.2 0), aroundDec 10 (a.2.2.2 1), aroundDec 10 (a.2.2.2 2)]) } := by
  unfold readData
  simp only [dataWords_eq n types box ms as fun a ha c hcc => (hc a ha c hcc).1]
  set masses := ms.map fun m => [natText m.1, fixedText 10 m.2] with hmasses
  set atoms := as.map fun a => natText a.2.1 :: natText a.2.2.1 :: (a.1.toList ++ [fixedText 10 (a.2.2.2 0), fixedText 10 (a.2.2.2 1), fixedText 10 (a.2.2.2 2)]) with hatoms
  set header : List (List (List Char)) := [[natText n, "atoms".toList], [natText types, "atom".toList, "types".toList], [fixedText 10 (0 : K), fixedText 10 box.1, "xlo".toList, "xhi".toList],
       [fixedText 10 (0 : K), fixedText 10 box.2.1, "ylo".toList, "yhi".toList], [fixedText 10 (0 : K), fixedText 10 box.2.2.1, "zlo".toList, "zhi".toList],
       [fixedText 10 box.2.2.2.1, fixedText 10 box.2.2.2.2.1, fixedText 10 box.2.2.2.2.2, "xy".toList, "xz".toList, "yz".toList]] with hheader
  have hsplit : (header ++ [wMasses]) ++ (masses ++ wAtoms :: atoms) = header ++ wMasses :: (masses ++ wAtoms :: atoms) := by simp
  have h0 : ∀ x ∈ header, x ≠ wMasses := by
    intro x hx e
    have hl : x.length = 1 := by rw [e]; rfl
    rw [hheader] at hx
    simp only [List.mem_cons, List.not_mem_nil, or_false] at hx
    rcases hx with rfl | rfl | rfl | rfl | rfl | rfl <;> simp at hl
  have h1 : ∀ x ∈ masses, x ≠ wAtoms := by
    intro x hx e
    have hl : x.length = 1 := by rw [e]; rfl
    obtain ⟨m, -, rfl⟩ := List.mem_map.1 hx
    simp at hl
  obtain ⟨t1, t2⟩ := takeWhile_stop wMasses (masses ++ wAtoms :: atoms) header h0
  obtain ⟨t3, t4⟩ := takeWhile_stop wAtoms atoms masses h1
  have hwhole : ([[natText n, "atoms".toList], [natText types, "atom".toList, "types".toList], [fixedText 10 (0 : K), fixedText 10 box.1, "xlo".toList, "xhi".toList],
       [fixedText 10 (0 : K), fixedText 10 box.2.1, "ylo".toList, "yhi".toList], [fixedText 10 (0 : K), fixedText 10 box.2.2.1, "zlo".toList, "zhi".toList],
       [fixedText 10 box.2.2.2.1, fixedText 10 box.2.2.2.2.1, fixedText 10 box.2.2.2.2.2, "xy".toList, "xz".toList, "yz".toList], wMasses] : List (List (List Char))) ++ (masses ++ wAtoms :: atoms) =
      header ++ wMasses :: (masses ++ wAtoms :: atoms) := by rw [hheader]; rfl
  rw [hwhole, t1, t2, List.drop_succ_cons, List.drop_zero, t3, t4, List.drop_succ_cons, List.drop_zero]
  have g1 : headerWords ["atoms".toList] 1 header = some [natText n] := rfl
  have g2 : headerWords ["atom".toList, "types".toList] 1 header = some [natText types] := rfl
  have g3 : headerWords ["xlo".toList, "xhi".toList] 2 header = some [fixedText 10 (0 : K), fixedText 10 box.1] := rfl
  have g4 : headerWords ["ylo".toList, "yhi".toList] 2 header = some [fixedText 10 (0 : K), fixedText 10 box.2.1] := rfl
  have g5 : headerWords ["zlo".toList, "zhi".toList] 2 header = some [fixedText 10 (0 : K), fixedText 10 box.2.2.1] := rfl
  have g6 : headerWords ["xy".toList, "xz".toList, "yz".toList] 3 header = some [fixedText 10 box.2.2.2.1, fixedText 10 box.2.2.2.2.1, fixedText 10 box.2.2.2.2.2] := rfl
  have hm : masses.mapM (massWords (K := K)) = some (ms.map fun m => (m.1, aroundDec 10 m.2)) := by
    rw [hmasses]
    refine mapM_map_some _ _ _ _ fun m _ => ?_
    simp [massWords, nat_read, fixed_read]
  have ha : atoms.mapM (atomWords (K := K)) = some (as.map fun a => (a.2.1, a.2.2.1, a.1.bind pyFloat, ![aroundDec 10 (a.2.2.2 0), aroundDec 10 (a.2.2.2 1), aroundDec 10 (a.2.2.2 2)])) := by
    rw [hatoms]
    refine mapM_map_some _ _ _ _ fun a hmem => ?_
    obtain ⟨c, i, t, row⟩ := a
    cases c with
    | none => simp [atomWords, nat_read, fixed_read, threeNumbers]
    | some c =>
      obtain ⟨-, q, hq⟩ := hc _ hmem c rfl
      simp [atomWords, nat_read, fixed_read, threeNumbers, hq]
  rw [g1, g2, g3, g4, g5, g6, hm, ha]
  simp [oneInt, twoNumbers, threeNumbers, nat_read, fixed_read]

/-- The text of the file is these lines. -/
theorem lammpsDataText_eq {α : Type} [LinearOrder α] (str : K → List Char) (types : List α) (masses : List K) (charges : Option (List K)) (box : K × K × K × K × K × K) (positions : List (Fin 3 → K))
    (hm : masses.length = types.length) (hp : positions.length = types.length) (hq : ∀ l ∈ charges, l.length = types.length) :
    lammpsDataText str types masses charges box positions = some (unlines (dataLines positions.length (firstElements types).length box
      ((firstAtoms types).zipIdx.map fun vi => (vi.2 + 1, masses.getD vi.1 0))
      (positions.zipIdx.map fun ri => (charges.map fun l => str (l.getD ri.2 0), ri.2 + 1, (lammpsAtomType types ri.2).getD 0, ri.1)))) := by
  have hfirst : ∀ v ∈ firstAtoms types, v < types.length := by
    intro v hv
    obtain ⟨e, he, rfl⟩ := List.mem_map.1 hv
    exact List.idxOf_lt_length_iff.2 ((mem_firstElements types e).1 he)
  have h1 : ((lammpsMasses types masses).mapM fun (im : ℕ × Option K) => im.2.map (massLine im.1)) =
      some ((firstAtoms types).zipIdx.map fun vi => massLine (vi.2 + 1) (masses.getD vi.1 0)) := by
    unfold lammpsMasses
    rw [lammpsUniqueIndex_eq]
    refine mapM_map_some _ _ _ _ fun vi hvi => ?_
    have hv := hfirst vi.1 (List.fst_mem_of_mem_zipIdx hvi)
    simp [List.getD_eq_getElem?_getD, List.getElem?_eq_getElem (show vi.1 < masses.length by omega)]
  have h2 : ((positions.zipIdx).mapM fun (ri : (Fin 3 → K) × ℕ) => (lammpsAtomType types ri.2).bind fun t => (chargeText str charges ri.2).map fun c => atomLine c (ri.2 + 1) t ri.1) =
      some (positions.zipIdx.map fun ri => atomLine (charges.map fun l => str (l.getD ri.2 0)) (ri.2 + 1) ((lammpsAtomType types ri.2).getD 0) ri.1) := by
    have := mapM_map_some (fun x : (Fin 3 → K) × ℕ => x) (fun (ri : (Fin 3 → K) × ℕ) => (lammpsAtomType types ri.2).bind fun t => (chargeText str charges ri.2).map fun c => atomLine c (ri.2 + 1) t ri.1)
      (fun ri => atomLine (charges.map fun l => str (l.getD ri.2 0)) (ri.2 + 1) ((lammpsAtomType types ri.2).getD 0) ri.1) positions.zipIdx ?_
    · rwa [List.map_id'] at this
    · intro ri hri
      have hi : ri.2 < types.length := by
        have := List.snd_lt_of_mem_zipIdx hri
        omega
      rw [lammpsAtomType_eq types ri.2 types[ri.2] (List.getElem?_eq_getElem hi)]
      cases charges with
      | none => simp [chargeText]
      | some l =>
        have hl := hq l rfl
        simp [chargeText, List.getD_eq_getElem?_getD, List.getElem?_eq_getElem (show ri.2 < l.length by omega)]
  have hbody : ∀ (c : Option (List Char)) (i t : ℕ) (r : Fin 3 → K), atomLine c i t r = atomBody c i t r ++ ['\n'] := by
    intro c i t r
    cases c <;> simp [atomLine, atomBody]
  have hmass : ∀ (i : ℕ) (m : K), massLine i m = massBody i m ++ ['\n'] := by
    intro i m
    simp [massLine, massBody]
  have hlen : (lammpsUniqueIndex types).length = (firstElements types).length := by rw [lammpsUniqueIndex_eq]; simp [firstAtoms]
  unfold lammpsDataText
  rw [h1, h2, hlen]
  have l1 : ("Generated using dynaphopy\n\n".toList : List Char) = "Generated using dynaphopy".toList ++ ['\n'] ++ ['\n'] := by decide +kernel
  have l2 : (" atoms\n\n".toList : List Char) = " atoms".toList ++ ['\n'] ++ ['\n'] := by decide +kernel
  have l3 : (" atom types\n\n".toList : List Char) = " atom types".toList ++ ['\n'] ++ ['\n'] := by decide +kernel
  have l4 : (" xlo xhi\n".toList : List Char) = " xlo xhi".toList ++ ['\n'] := by decide +kernel
  have l5 : (" ylo yhi\n".toList : List Char) = " ylo yhi".toList ++ ['\n'] := by decide +kernel
  have l6 : (" zlo zhi\n".toList : List Char) = " zlo zhi".toList ++ ['\n'] := by decide +kernel
  have l7 : (" xy xz yz\n\n".toList : List Char) = " xy xz yz".toList ++ ['\n'] ++ ['\n'] := by decide +kernel
  have l8 : ("Masses\n\n".toList : List Char) = "Masses".toList ++ ['\n'] ++ ['\n'] := by decide +kernel
  have l9 : ("\nAtoms\n\n".toList : List Char) = ['\n'] ++ ("Atoms".toList ++ ['\n'] ++ ['\n']) := by decide +kernel
  rw [l1, l2, l3, l4, l5, l6, l7, l8, l9]
  simp only [Option.bind_some, Option.map_some, hbody, hmass, dataLines, unlines, List.map_append, List.flatten_append, List.map_map, List.map_cons, List.map_nil, List.flatten_cons, List.flatten_nil]
  generalize "Generated using dynaphopy".toList = g1
  generalize " atoms".toList = g2
  generalize " atom types".toList = g3
  generalize " xlo xhi".toList = g4
  generalize " ylo yhi".toList = g5
  generalize " zlo zhi".toList = g6
  generalize " xy xz yz".toList = g7
  generalize "Masses".toList = g8
  generalize "Atoms".toList = g9
  generalize natText positions.length = a1
  generalize natText (firstElements types).length = a2
  generalize twoFields 0 box.1 = a3
  generalize twoFields 0 box.2.1 = a4
  generalize twoFields 0 box.2.2.1 = a5
  generalize threeFields box.2.2.2.1 box.2.2.2.2.1 box.2.2.2.2.2 = a6
  simp only [List.append_assoc, List.cons_append, List.nil_append, List.append_nil]
  rfl

end

/-- **C114**: the LAMMPS data file written for a structure, read as LAMMPS reads it, is the same crystal to ten decimals: the right number of atoms and elements, a box and positions that are those of the structure turned
by one rotation (for a left-handed cell: by one rotation with inversion, as LAMMPS has right-handed boxes only), in the same order, a type for each atom that stands for its element, and the mass and the charge of each atom. -/
theorem C114_file {α : Type} [LinearOrder α] (str : ℝ → List Char) (types : List α) (massOf : α → ℝ) (charges : Option (List ℝ)) (cell : Matrix (Fin 3) (Fin 3) ℝ) (positions : List (Fin 3 → ℝ))
    (hdet : cell.det ≠ 0) (hp : positions.length = types.length) (hq : ∀ l ∈ charges, l.length = types.length ∧ ∀ q ∈ l, IsWord (str q) ∧ pyFloat (str q) = some q) :
    ∃ text, lammpsFile str types (types.map massOf) charges cell positions = some text ∧ ∃ d : LammpsData ℝ, readData text = some d ∧
      d.atoms = positions.length ∧ d.types = types.dedup.length ∧ d.masses.map Prod.fst = (List.range d.types).map (· + 1) ∧ d.rows.length = positions.length ∧
      (∀ i j (hi : i < types.length) (hj : j < types.length), (d.rows[i]?).map (·.2.1) = (d.rows[j]?).map (·.2.1) ↔ types[i] = types[j]) ∧
      ∃ T : Matrix (Fin 3) (Fin 3) ℝ, T * Tᵀ = 1 ∧ (0 < cell.det → T.det = 1) ∧
        (∀ i j, |(!![d.x.2 - d.x.1, 0, 0; d.tilt.1, d.y.2 - d.y.1, 0; d.tilt.2.1, d.tilt.2.2, d.z.2 - d.z.1] : Matrix (Fin 3) (Fin 3) ℝ) i j - (cell * T) i j| ≤ 1 / 2 / 10 ^ 10) ∧
        ∀ i (hi : i < positions.length) (ht : i < types.length), ∃ t m p, d.rows[i]? = some (i + 1, t, charges.bind (·[i]?), p) ∧ (t, m) ∈ d.masses ∧ |m - massOf types[i]| ≤ 1 / 2 / 10 ^ 10 ∧
          ∀ k, |p k - vecMul positions[i] T k| ≤ 1 / 2 / 10 ^ 10 := by
  have hm : (types.map massOf).length = types.length := by simp
  have hp' : (positions.map (lammpsPosition cell)).length = types.length := by simpa using hp
  refine ⟨_, lammpsDataText_eq str types _ charges _ _ hm hp' fun l hl => (hq l hl).1, _, readData_eq _ _ _ _ _ ?_, ?_⟩
  · intro a ha c hc
    obtain ⟨ri, hri, rfl⟩ := List.mem_map.1 ha
    simp only [Option.mem_def, Option.map_eq_some_iff] at hc
    obtain ⟨l, hl, rfl⟩ := hc
    have hi := List.snd_lt_of_mem_zipIdx hri
    rw [hp', add_zero] at hi
    have hlen := (hq l hl).1
    have hmem : l.getD ri.2 0 ∈ l := by
      rw [List.getD_eq_getElem?_getD, List.getElem?_eq_getElem (show ri.2 < l.length by omega)]
      exact List.getElem_mem _
    have := (hq l hl).2 _ hmem
    exact ⟨this.1, _, this.2⟩
  have hu : IsUnit cell.det := isUnit_iff_ne_zero.2 hdet
  have hT : transCell cell * (transCell cell)ᵀ = 1 := by
    unfold transCell
    rw [Matrix.transpose_mul, ← Matrix.mul_assoc, Matrix.mul_assoc (cell⁻¹), (C57_gram cell hdet).1, ← Matrix.mul_assoc, Matrix.nonsing_inv_mul _ hu, Matrix.one_mul, Matrix.transpose_nonsing_inv,
      Matrix.mul_nonsing_inv _ (by rwa [Matrix.det_transpose])]
  have hdetT : 0 < cell.det → (transCell cell).det = 1 := by
    intro hpos
    have hL : 0 ≤ (lammpsCellT cell).det := by
      rw [Matrix.det_fin_three]
      simp only [lammpsCellT, Matrix.of_apply, Matrix.cons_val', Matrix.cons_val_zero, Matrix.cons_val_one, Matrix.cons_val, mul_zero, zero_mul, sub_zero, add_zero]
      exact mul_nonneg (mul_nonneg (norm3_nonneg _) (norm3_nonneg _)) (Real.sqrt_nonneg _)
    have h1 : 0 ≤ (transCell cell).det := by
      rw [transCell, Matrix.det_mul, Matrix.det_nonsing_inv, Ring.inverse_eq_inv']
      exact mul_nonneg (inv_nonneg.2 hpos.le) hL
    have h2 : (transCell cell).det * (transCell cell).det = 1 := by
      have := congrArg Matrix.det hT
      rwa [Matrix.det_mul, Matrix.det_transpose, Matrix.det_one] at this
    nlinarith
  have hB : cell * transCell cell = lammpsBoxCell (lammpsBoxNumbers cell) := by
    rw [C57_box cell hdet, transCell, ← Matrix.mul_assoc, Matrix.mul_nonsing_inv _ hu, Matrix.one_mul]
  have z10 : aroundDec 10 (0 : ℝ) = 0 := by
    have := aroundDec_grid (K := ℝ) 10 0
    simpa using this
  have herr := fun x : ℝ => aroundDec_error 10 x
  have hrow : ∀ i (hi : i < types.length) (hi' : i < positions.length), (((positions.map (lammpsPosition cell)).zipIdx.map fun ri => ((charges.map fun l => str (l.getD ri.2 0)), ri.2 + 1, (lammpsAtomType types ri.2).getD 0, ri.1)).map
      fun a : Option (List Char) × ℕ × ℕ × (Fin 3 → ℝ) => (a.2.1, a.2.2.1, a.1.bind (pyFloat (K := ℝ)), ![aroundDec 10 (a.2.2.2 0), aroundDec 10 (a.2.2.2 1), aroundDec 10 (a.2.2.2 2)]))[i]? =
      some (i + 1, (firstElements types).idxOf types[i] + 1, charges.bind (·[i]?), ![aroundDec 10 (lammpsPosition cell positions[i] 0), aroundDec 10 (lammpsPosition cell positions[i] 1),
        aroundDec 10 (lammpsPosition cell positions[i] 2)]) := by
    intro i hi hi'
    rw [List.map_map, List.getElem?_map, List.getElem?_eq_getElem (by simpa using hi'), List.getElem_zipIdx]
    simp only [Function.comp_def, Option.map_some, zero_add, List.getElem_map, Option.some.injEq, Prod.mk.injEq, true_and, and_true]
    refine ⟨by rw [lammpsAtomType_eq types i types[i] (List.getElem?_eq_getElem hi)]; rfl, ?_⟩
    cases hch : charges with
    | none => rfl
    | some l =>
      have hl := hq l hch
      have hil : i < l.length := by omega
      simp only [Option.map_some, Option.bind_some, List.getD_eq_getElem?_getD, List.getElem?_eq_getElem hil, Option.getD_some]
      exact (hl.2 _ (List.getElem_mem hil)).2
  refine ⟨by simp, (firstElements_perm types).length_eq, ?_, by simp, ?_, transCell cell, hT, hdetT, ?_, ?_⟩
  · rw [List.map_map, List.map_map]
    have : ((Prod.fst ∘ fun m : ℕ × ℝ => (m.1, aroundDec 10 m.2)) ∘ fun vi : ℕ × ℕ => (vi.2 + 1, (types.map massOf).getD vi.1 0)) = (· + 1) ∘ Prod.snd := rfl
    rw [this, ← List.map_map, List.zipIdx_map_snd, ← List.range_eq_range']
    simp [firstAtoms]
  · intro i j hi hj
    rw [hrow i hi (by omega), hrow j hj (by omega)]
    simp only [Option.map_some, Option.some.injEq, Nat.add_right_cancel_iff]
    exact List.idxOf_inj ((mem_firstElements types _).2 (List.getElem_mem hi))
  · intro i j
    rw [hB]
    simp only [z10, sub_zero, lammpsBoxCell]
    have h0 : |(0 : ℝ) - 0| ≤ 1 / 2 / 10 ^ 10 := by rw [sub_zero, abs_zero]; positivity
    fin_cases i <;> fin_cases j <;> first | exact h0 | exact herr _
  · intro i hi ht
    refine ⟨_, aroundDec 10 (massOf types[i]), _, hrow i ht hi, ?_, herr _, ?_⟩
    · refine List.mem_map.2 ⟨((firstElements types).idxOf types[i] + 1, massOf types[i]), List.mem_map.2 ⟨(types.idxOf types[i], (firstElements types).idxOf types[i]), ?_, ?_⟩, rfl⟩
      · rw [List.mk_mem_zipIdx_iff_getElem?]
        unfold firstAtoms
        rw [List.getElem?_map, List.getElem?_idxOf ((mem_firstElements types _).2 (List.getElem_mem ht))]
        rfl
      · simp only [Prod.mk.injEq, true_and]
        rw [List.getD_eq_getElem?_getD, List.getElem?_map, List.getElem?_idxOf (List.getElem_mem ht)]
        rfl
    · intro k
      have : lammpsPosition cell positions[i] = vecMul positions[i] (transCell cell) := rfl
      rw [← this]
      fin_cases k <;> exact herr _

/-! ## Example -/

/-- A file with charges, and one without, in exact numbers. -/
example : lammpsDataText (K := ℚ) (fun _ => "-0.5".toList) [1, 2] [3, 4] (some [-1 / 2, -1 / 2]) (1, 2, 3, 0, 0, 0) [![0, 0, 0], ![1 / 2, 1, 3 / 2]] =
    some ("Generated using dynaphopy\n\n2 atoms\n\n2 atom types\n\n\n        0.0000000000         1.0000000000 xlo xhi\n        0.0000000000         2.0000000000 ylo yhi\n        0.0000000000         3.0000000000 zlo zhi\n        0.0000000000         0.0000000000         0.0000000000 xy xz yz\n\nMasses\n\n1         3.0000000000 \n2         4.0000000000 \n\nAtoms\n\n1 1 -0.5         0.0000000000         0.0000000000         0.0000000000\n2 2 -0.5         0.5000000000         1.0000000000         1.5000000000\n").toList := by
  decide +kernel

/-- The hypotheses of `C114_file` are met. -/
example : ∃ text, lammpsFile (fun _ => "0.25".toList) [31, 7, 31] ([31, 7, 31].map fun n : ℕ => (2 * n : ℝ)) (some [1 / 4, 1 / 4, 1 / 4]) !![4, 0, 0; 1, 5, 0; 0, 0, 6] [![0, 0, 0], ![1, 1, 1], ![2, 2, 2]] = some text ∧
    ∃ d : LammpsData ℝ, readData text = some d ∧ d.atoms = 3 ∧ d.types = 2 := by
  obtain ⟨text, h1, d, h2, h3, h4, -⟩ := C114_file (fun _ => "0.25".toList) [31, 7, 31] (fun n : ℕ => (2 * n : ℝ)) (some [1 / 4, 1 / 4, 1 / 4]) !![4, 0, 0; 1, 5, 0; 0, 0, 6]
    [![0, 0, 0], ![1, 1, 1], ![2, 2, 2]] (by rw [Matrix.det_fin_three]; simp [Matrix.of_apply, Matrix.cons_val_two]) rfl (by
      intro l hl
      rw [Option.mem_some_iff] at hl
      subst hl
      refine ⟨rfl, fun q hq => ⟨literal_word (by decide +kernel), ?_⟩⟩
      have : q = 1 / 4 := by simpa using hq
      rw [this]
      have e : ("0.25".toList : List Char) = [] ++ ([] ++ pointText 2 25 ++ []) ++ [] := by decide +kernel
      rw [e, pyFloat_parts [] [] [] [] 2 25 0 false blank_nil blank_nil (Or.inl ⟨rfl, rfl⟩) rfl (by simp) (by simp)]
      norm_num)
  exact ⟨text, h1, d, h2, h3, h4⟩

end Verif
