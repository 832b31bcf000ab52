import Verif.Model.TrajectoryText
import Verif.Props.PoscarText
import Verif.Props.Parsers
import Verif.Props.LammpsBox

/-! # C48, C49, C59: trajectories character by character -/

set_option autoImplicit false
set_option linter.unusedSectionVars false

namespace Verif

open Matrix

/-- The characters of numbers, and blanks. -/
def isNumeric (c : Char) : Bool := isBlank c || (48 ≤ c.toNat && c.toNat ≤ 57) || c = '+' || c = '-' || c = '.' || c = 'e' || c = 'E'

/-- Specification: a line of numbers. -/
def NumericLine (l : Line) : Prop := '\n' ∉ l ∧ ∀ c ∈ l, isNumeric c = true

theorem fromKeyword_mem (kw l s : Line) (h : fromKeyword kw l = some s) : ∀ c ∈ kw, c ∈ l := by
  induction l with
  | nil =>
    rw [fromKeyword] at h
    split_ifs at h with hk
    rw [hk]
    simp
  | cons d l ih =>
    rw [fromKeyword] at h
    split_ifs at h with hp
    · exact fun c hc => (List.isPrefixOf_iff_prefix.1 hp).subset hc
    · exact fun c hc => List.mem_cons_of_mem _ (ih h c hc)

theorem hasKeyword_false (kw l : Line) (c : Char) (hc : c ∈ kw) (h : c ∉ l) : hasKeyword kw l = false := by
  unfold hasKeyword
  rw [Option.isSome_eq_false_iff, Option.isNone_iff_eq_none]
  by_contra hne
  obtain ⟨s, hs⟩ := Option.ne_none_iff_exists'.1 hne
  exact h (fromKeyword_mem kw l s hs c hc)

theorem hasKeyword_numeric (kw l : Line) (c : Char) (hc : c ∈ kw) (hn : isNumeric c = false) (h : NumericLine l) : hasKeyword kw l = false :=
  hasKeyword_false kw l c hc fun hm => by have := h.2 c hm; rw [hn] at this; exact absurd this (by simp)

theorem natText_numeric (n : ℕ) : NumericLine (natText n) := by
  refine ⟨word_newline (natText_word n), ?_⟩
  rw [natText_eq]
  intro c hc
  obtain ⟨d, hd, rfl⟩ := List.mem_map.1 hc
  have : ∀ d : ℕ, d < 10 → isNumeric (digitChar d) = true := by decide
  exact this d (natDigits_lt n d hd)

section
variable {K : Type} [Field K] [LinearOrder K] [IsStrictOrderedRing K] [FloorRing K]

/-- Specification: a step of a trajectory file: its number, lines of bounds (LAMMPS only), the lines of the atoms, and the coordinates that these lines begin with. -/
structure TextStep (K : Type) where
  number : ℕ
  bounds : List Line
  rows : List Line
  coords : List (Fin 3 → K)

/-- Specification: the lines of the atoms are `n` lines of numbers, beginning with the coordinates. -/
structure TextStep.Ok (n : ℕ) (s : TextStep K) : Prop where
  numeric : ∀ l ∈ s.rows, NumericLine l
  count : s.rows.length = n
  reads : List.Forall₂ (fun line r => ∃ more, ThreeNumbers line r more) s.rows s.coords
  bounds : ∀ l ∈ s.bounds, NumericLine l

/-- The fixed lines of a LAMMPS dump. -/
def itemTimestep : Line := "ITEM: TIMESTEP".toList
@[inherit_doc itemTimestep] def itemNumber : Line := "ITEM: NUMBER OF ATOMS".toList
@[inherit_doc itemTimestep] def itemBox : Line := "ITEM: BOX BOUNDS".toList
@[inherit_doc itemTimestep] def itemAtoms : Line := "ITEM: ATOMS".toList

/-- The lines of a step of a LAMMPS dump, `kind` being what follows `BOX BOUNDS`, `columns` what follows `ATOMS`. -/
def TextStep.dump (kind columns : List Char) (n : ℕ) (s : TextStep K) : DumpStep where
  hTime := itemTimestep
  step := natText s.number
  hNumber := itemNumber
  number := natText n
  hBox := itemBox ++ kind
  box := s.bounds
  hAtoms := itemAtoms ++ columns
  rows := s.rows

/-- Specification: the text of a LAMMPS dump. -/
def dumpText (kind columns : List Char) (n : ℕ) (steps : List (TextStep K)) : List Char :=
  ((steps.map fun s => (s.dump kind columns n).lines).flatten).flatMap fun l => l ++ ['\n']

theorem rows_read (nd : ℕ) (hnd : nd = 3) (rows : List Line) (coords : List (Fin 3 → K)) (h : List.Forall₂ (fun line r => ∃ more, ThreeNumbers line r more) rows coords) :
    rows.mapM (textCodec (K := K) nd).row = some (coords.map fun r => [r 0, r 1, r 2]) := by
  rw [mapM_eq_some_iff, List.forall₂_map_right_iff]
  refine h.imp fun line r ⟨more, hr⟩ => ?_
  subst hnd
  exact mapM_pyFloat_three hr

theorem natText_float (n : ℕ) : pyFloat (K := K) (natText n) = some (n : K) := by
  unfold pyFloat
  have hs := pyStrip_word [] (natText n) [] (by intro c hc; simp at hc) (by intro c hc; simp at hc) (natText_word n)
  rw [List.nil_append, List.append_nil] at hs
  have h1 := takeSign_digits (natDigits n) [] (natDigits_lt n) (natDigits_ne n)
  have h2 := takeDigits_append (natDigits n) [] (natDigits_lt n) (by simp)
  rw [List.append_nil] at h1 h2
  rw [hs, natText_eq]
  simp only [h1, h2, takeFraction, takeExponent, natDigits_ne]
  simp [natDigits_value]

theorem natText_int (n : ℕ) : (pyIntText (natText n)).map Int.toNat = some n := by
  have := C111_nat n [] [] (by intro c hc; simp at hc) (by intro c hc; simp at hc)
  rw [List.nil_append, List.append_nil] at this
  rw [this]
  simp

theorem hasKeyword_append (kw pre l : Line) (c : Char) (hc : c ∈ kw) (hu : c.isUpper = true) (hp : c ∉ pre) (h : ∀ d ∈ l, d.isUpper = false) : hasKeyword kw (pre ++ l) = false :=
  hasKeyword_false kw _ c hc fun hm => by
    rcases List.mem_append.1 hm with hm | hm
    · exact hp hm
    · rw [h c hm] at hu; exact absurd hu (by simp)

/-- A step of the text is a well formed step. -/
theorem TextStep.dump_ok (nd : ℕ) (hnd : nd = 3) (kind columns : List Char) (n : ℕ) (s : TextStep K) (h : s.Ok n) (hb : s.bounds.length = 3)
    (hkind : ∀ c ∈ kind, c.isUpper = false) (hcol : ∀ c ∈ columns, c.isUpper = false) :
    (s.dump kind columns n).Ok (textCodec (K := K) nd) n nd (itemAtoms ++ columns) (s.number : K) (s.coords.map fun r => [r 0, r 1, r 2]) where
  time := (by decide +kernel : hasKeyword kwTimestep itemTimestep = true)
  noTime := by
    intro l hl
    simp only [DumpStep.middle, TextStep.dump, List.mem_append, List.mem_cons, List.not_mem_nil, or_false] at hl
    have hT : 'T' ∈ kwTimestep := by decide +kernel
    have hP : 'P' ∈ kwTimestep := by decide +kernel
    rcases hl with ((rfl | rfl | rfl | rfl) | hl) | rfl | hl
    · exact hasKeyword_numeric _ _ 'T' hT rfl (natText_numeric _)
    · decide +kernel
    · exact hasKeyword_numeric _ _ 'T' hT rfl (natText_numeric _)
    · exact hasKeyword_append _ _ _ 'P' hP rfl (by decide +kernel) hkind
    · exact hasKeyword_numeric _ _ 'T' hT rfl (h.bounds l hl)
    · exact hasKeyword_append _ _ _ 'P' hP rfl (by decide +kernel) hcol
    · exact hasKeyword_numeric _ _ 'T' hT rfl (h.numeric l hl)
  atoms := by
    show fromKeyword kwAtoms (itemAtoms ++ columns) = _
    rfl
  noAtoms := by
    intro l hl
    simp only [DumpStep.middle, TextStep.dump, List.mem_append, List.mem_cons, List.not_mem_nil, or_false] at hl
    have hA : 'A' ∈ kwAtoms := by decide +kernel
    rcases hl with (rfl | rfl | rfl | rfl) | hl
    · exact hasKeyword_numeric _ _ 'A' hA rfl (natText_numeric _)
    · decide +kernel
    · exact hasKeyword_numeric _ _ 'A' hA rfl (natText_numeric _)
    · exact hasKeyword_append _ _ _ 'A' hA rfl (by decide +kernel) hkind
    · exact hasKeyword_numeric _ _ 'A' hA rfl (h.bounds l hl)
  number := (by decide +kernel : hasKeyword kwNumber itemNumber = true)
  noNumber := ⟨(by decide +kernel : hasKeyword kwNumber itemTimestep = false), hasKeyword_numeric _ _ 'N' (by decide +kernel) rfl (natText_numeric _)⟩
  parseNumber := natText_int n
  bounds := by
    show hasKeyword kwBounds (itemBox ++ kind) = true
    rfl
  noBounds := ⟨(by decide +kernel : hasKeyword kwBounds itemTimestep = false), hasKeyword_numeric _ _ 'B' (by decide +kernel) rfl (natText_numeric _),
    (by decide +kernel : hasKeyword kwBounds itemNumber = false), hasKeyword_numeric _ _ 'B' (by decide +kernel) rfl (natText_numeric _)⟩
  three := hb
  count := h.count
  parseStep := natText_float _
  parseRows := rows_read nd hnd _ _ h.reads
  dims := by
    intro r hr
    obtain ⟨p, -, rfl⟩ := List.mem_map.1 hr
    rw [hnd]
    rfl

theorem dumpText_lines (kind columns : List Char) (n : ℕ) (steps : List (TextStep K)) (hs : ∀ s ∈ steps, s.Ok n) (hkind : '\n' ∉ kind) (hcol : '\n' ∉ columns) :
    fileLines (dumpText kind columns n steps) = (steps.map fun s => (s.dump kind columns n).lines).flatten := by
  refine fileLines_lines _ ?_
  intro l hl
  obtain ⟨L, hL, hl⟩ := List.mem_flatten.1 hl
  obtain ⟨s, hsm, rfl⟩ := List.mem_map.1 hL
  have h := hs s hsm
  have happ : ∀ a b : Line, '\n' ∉ a → '\n' ∉ b → '\n' ∉ a ++ b := by
    intro a b ha hb
    rw [List.mem_append, not_or]
    exact ⟨ha, hb⟩
  simp only [DumpStep.lines, DumpStep.middle, TextStep.dump, List.mem_append, List.mem_cons, List.not_mem_nil, or_false] at hl
  rcases hl with rfl | ((rfl | rfl | rfl | rfl) | hl) | rfl | hl
  · decide +kernel
  · exact (natText_numeric _).1
  · decide +kernel
  · exact (natText_numeric _).1
  · exact happ _ _ (by decide +kernel) hkind
  · exact (h.bounds l hl).1
  · exact happ _ _ (by decide +kernel) hcol
  · exact (h.numeric l hl).1

/-- **C48**, for the text of the file: of a LAMMPS dump with any number of steps and atoms, any spacing and any form of the numbers, exactly the steps `i`, ..., `min(e, last)` are read, with the numbers
of these steps times the time step and the first three numbers of each line of atoms (rotated by `rotate`). -/
theorem C48_text {G : Type} (g : LGeometry K G) (geo : G) (a : ReadArgs K) (hnd : a.nd = 3) (hix : a.indexing = none) (kind columns : List Char) (n : ℕ) (steps : List (TextStep K)) (hne : steps ≠ [])
    (hs : ∀ s ∈ steps, s.Ok n ∧ s.bounds.length = 3) (hkind : ∀ c ∈ kind, c.isUpper = false ∧ c ≠ '\n') (hcol : ∀ c ∈ columns, c.isUpper = false ∧ c ≠ '\n')
    (hvel : hasKeyword "vx vy".toList (itemAtoms ++ columns) = true ∨ hasKeyword "x y".toList (itemAtoms ++ columns) = true)
    (hbox : ∀ s ∈ steps.head?, g.box s.bounds = some geo) (rotate : (Fin 3 → K) → (Fin 3 → K))
    (hrot : ∀ coords : List (Fin 3 → K), g.rotate geo (coords.map fun r => [r 0, r 1, r 2]) = some (coords.map fun r => [rotate r 0, rotate r 1, rotate r 2]))
    (i e : ℕ) (hi : a.initialCut = i) (he : a.endCut = some e) (h1 : 1 ≤ i) (h2 : i ≤ e) (hlim : e + 1 - i ≤ a.limit + 2) (hm : a.memmap = false) (hl : a.lastSteps = none) :
    readLammpsText g a (dumpText kind columns n steps) = some ⟨hasKeyword "vx vy".toList (itemAtoms ++ columns),
      (window steps i e).map (fun s => (s.number : K) * a.timeStep), (window steps i e).map fun s => s.coords.map fun r => [rotate r 0, rotate r 1, rotate r 2]⟩ := by
  unfold readLammpsText
  rw [dumpText_lines kind columns n steps (fun s h => (hs s h).1) (fun h => (hkind _ h).2 rfl) (fun h => (hcol _ h).2 rfl)]
  set frames : List (DumpFrame K) := steps.map fun s => ⟨s.dump kind columns n, (s.number : K), s.coords.map fun r => [r 0, r 1, r 2], s.coords.map fun r => [rotate r 0, rotate r 1, rotate r 2]⟩ with hframes
  have hlines : (steps.map fun s => (s.dump kind columns n).lines) = frames.map (·.text.lines) := by rw [hframes, List.map_map]; rfl
  have hfile : DumpFile (textCodec a.nd) g a n a.nd geo (itemAtoms ++ columns) frames :=
    { ok := by
        intro f hf
        obtain ⟨s, hsm, rfl⟩ := List.mem_map.1 hf
        exact s.dump_ok a.nd hnd kind columns n (hs s hsm).1 (hs s hsm).2 (fun c hc => (hkind c hc).1) (fun c hc => (hcol c hc).1)
      stored := by
        intro f hf
        obtain ⟨s, hsm, rfl⟩ := List.mem_map.1 hf
        exact ⟨_, by unfold reorder; rw [hix], hrot s.coords⟩
      box := by
        intro f hf
        rw [hframes, List.head?_map] at hf
        obtain ⟨s, hsm, rfl⟩ := Option.map_eq_some_iff.1 hf
        exact hbox s hsm }
  rw [hlines, C48_window (textCodec a.nd) g a n a.nd geo _ frames hfile (by simpa [hframes] using hne) i e hi he h1 h2 hlim hm hl hvel]
  have hw : window frames i e = (window steps i e).map fun s => (⟨s.dump kind columns n, (s.number : K), s.coords.map fun r => [r 0, r 1, r 2], s.coords.map fun r => [rotate r 0, rotate r 1, rotate r 2]⟩ : DumpFrame K) := by
    rw [hframes]
    unfold window
    rw [← List.map_take, ← List.map_drop]
  rw [hw, List.map_map, List.map_map]
  rfl

/-- The first line of a step of an XDATCAR file, `pad` being the blanks before the number. -/
def xdatcarHeader (pad : List Char) (k : ℕ) : Line := "Direct configuration=".toList ++ pad ++ natText k

/-- Specification: the text of an XDATCAR file: seven lines, then the steps. -/
def xdatcarText (header : List Line) (pad : List Char) (steps : List (TextStep K)) : List Char :=
  (header ++ (steps.map fun s => xdatcarHeader pad s.number :: s.rows).flatten).flatMap fun l => l ++ ['\n']

theorem xdatcarHeader_step (pad : List Char) (hpad : ∀ c ∈ pad, c = ' ') (k : ℕ) :
    ∃ s, fromKeyword kwDirect (xdatcarHeader pad k) = some s ∧ xdatcarStep (K := K) s = some (k : K) := by
  refine ⟨xdatcarHeader pad k, rfl, ?_⟩
  have hb : IsBlankText pad := fun c hc => by rw [hpad c hc]; rfl
  have heq : '=' ∉ pad ++ natText k := by
    intro h
    rcases List.mem_append.1 h with h | h
    · exact absurd (hpad _ h) (by decide)
    · have := (natText_numeric k).2 _ h
      exact absurd this (by decide)
  have hsplit : splitChar '=' (xdatcarHeader pad k) = ["Direct configuration".toList, pad ++ natText k] := by
    have := splitChar_sep '=' "Direct configuration".toList (pad ++ natText k) (by decide +kernel)
    rw [splitChar_none '=' _ heq] at this
    exact this
  unfold xdatcarStep
  rw [hsplit]
  show pyFloat (pad ++ natText k) = _
  have h := natText_float (K := K) k
  unfold pyFloat at h ⊢
  have e1 := pyStrip_word pad (natText k) [] hb (by intro c hc; simp at hc) (natText_word k)
  have e2 := pyStrip_word [] (natText k) [] (by intro c hc; simp at hc) (by intro c hc; simp at hc) (natText_word k)
  rw [List.append_nil] at e1
  rw [List.nil_append, List.append_nil] at e2
  rw [e2] at h
  rw [e1]
  exact h

/-- C49, for the text of the file: of an XDATCAR file with any number of steps and atoms, any spacing and any form of the numbers, the steps `i`, ..., `min(e, last)` are read with the first three numbers of each line.
Missing, and false: the time stamps are those of the steps from 1 on (right only for `i = 1`). -/
theorem C49_text_partial (a : ReadArgs K) (hnd : a.nd = 3) (hix : a.indexing = none) (header : List Line) (pad : List Char) (hpad : ∀ c ∈ pad, c = ' ') (ns : List ℕ)
    (hh : header.length = 7) (hhn : ∀ l ∈ header, '\n' ∉ l) (hcounts : pySplit (header.getD 6 []) = ns.map natText) (steps : List (TextStep K)) (hne : steps ≠ [])
    (hs : ∀ s ∈ steps, s.Ok ns.sum) (i e : ℕ) (hi : a.initialCut = i) (he : a.endCut = some e) (h1 : 1 ≤ i) (h2 : i ≤ e) (hlim : e + 1 - i ≤ a.limit + 2) (hm : a.memmap = false)
    (hl : a.lastSteps = none) :
    readXdatcarText a (xdatcarText header pad steps) = some ⟨false, (window steps 1 e).map (fun s => (s.number : K) * a.timeStep),
      (window steps i e).map fun s => s.coords.map fun r => [r 0, r 1, r 2]⟩ := by
  unfold readXdatcarText
  have hlines : fileLines (xdatcarText header pad steps) = header ++ (steps.map fun s => xdatcarHeader pad s.number :: s.rows).flatten := by
    refine fileLines_lines _ ?_
    intro l hl
    rcases List.mem_append.1 hl with hl | hl
    · exact hhn l hl
    · obtain ⟨L, hL, hl⟩ := List.mem_flatten.1 hl
      obtain ⟨s, hsm, rfl⟩ := List.mem_map.1 hL
      rcases List.mem_cons.1 hl with rfl | hl
      · unfold xdatcarHeader
        rw [List.mem_append, List.mem_append, not_or, not_or]
        exact ⟨⟨by decide +kernel, fun h => absurd (hpad _ h) (by decide)⟩, (natText_numeric _).1⟩
      · exact ((hs s hsm).numeric l hl).1
  rw [hlines]
  set frames : List (XFrame K) := steps.map fun s => ⟨xdatcarHeader pad s.number, s.rows, (s.number : K), s.coords.map fun r => [r 0, r 1, r 2], s.coords.map fun r => [r 0, r 1, r 2]⟩ with hframes
  have hl2 : (steps.map fun s => xdatcarHeader pad s.number :: s.rows) = frames.map (·.lines) := by rw [hframes, List.map_map]; rfl
  have hok : ∀ f ∈ frames, f.Ok (textCodec a.nd) xdatcarStep a ns.sum a.nd := by
    intro f hf
    obtain ⟨s, hsm, rfl⟩ := List.mem_map.1 hf
    have h := hs s hsm
    exact
      { header := xdatcarHeader_step pad hpad s.number
        noHeader := fun l hl => hasKeyword_numeric _ _ 'D' (by decide +kernel) rfl (h.numeric l hl)
        count := h.count
        parseRows := rows_read a.nd hnd _ _ h.reads
        dims := by
          intro r hr
          obtain ⟨p, -, rfl⟩ := List.mem_map.1 hr
          rw [hnd]
          rfl
        order := by unfold reorder; rw [hix] }
  have hc : xdatcarCounts (header.getD 6 []) = some ns.sum := by
    unfold xdatcarCounts
    rw [hcounts, mapM_natText, Option.map_some, sum_map_natCast]
  have hw : ∀ i, window frames i e = (window steps i e).map fun s => (⟨xdatcarHeader pad s.number, s.rows, (s.number : K), s.coords.map fun r => [r 0, r 1, r 2], s.coords.map fun r => [r 0, r 1, r 2]⟩ : XFrame K) := by
    intro i
    rw [hframes]
    unfold window
    rw [← List.map_take, ← List.map_drop]
  rw [hl2, C49_frames_partial (textCodec a.nd) xdatcarStep xdatcarCounts a ns.sum a.nd header frames hh hc hok (by simpa [hframes] using hne) i e hi he h1 h2 hlim hm hl, hw, hw, List.map_map,
    List.map_map]
  rfl

end

/-- **C59**, for the text of the file: the dump of a simulation whose cell is the supercell of the structure, rotated by `R`, is read as the positions in the orientation of the structure, for any number of
steps and atoms, spacing and form of the numbers. `steps` are the steps of the file with the positions they stand for. -/
theorem C59_text (cell R : Matrix (Fin 3) (Fin 3) ℝ) (hdet : cell.det ≠ 0) (hR : R * Rᵀ = 1) (m : Fin 3 → ℕ) (hm : ∀ i, 0 < m i) (xlo xhi ylo yhi zlo zhi xy xz yz : ℝ)
    (hcell : !![xhi - xlo, 0, 0; xy, yhi - ylo, 0; xz, yz, zhi - zlo] = diagflatCell cell m * R)
    (b : Matrix (Fin 3) (Fin 3) ℝ) (hb : b = dumpBounds xlo xhi ylo yhi zlo zhi xy xz yz) (a : ReadArgs ℝ) (hnd : a.nd = 3) (ha : a.indexing = none) (kind columns : List Char) (n : ℕ)
    (steps : List (TextStep ℝ × List (Fin 3 → ℝ))) (hne : steps ≠ []) (hs : ∀ s ∈ steps, s.1.Ok n ∧ s.1.coords = s.2.map fun p => vecMul p R)
    (hbox : ∀ s ∈ steps, List.Forall₂ (fun line r => ThreeNumbers line r []) s.1.bounds [b 0, b 1, b 2])
    (hkind : ∀ c ∈ kind, c.isUpper = false ∧ c ≠ '\n') (hcol : ∀ c ∈ columns, c.isUpper = false ∧ c ≠ '\n')
    (h1 : 1 ≤ a.initialCut) (he : a.endCut = none) (hlim : steps.length + 1 ≤ a.initialCut + a.limit + 2) (hmm : a.memmap = false) (hl : a.lastSteps = none)
    (hlab : hasKeyword "vx vy".toList (itemAtoms ++ columns) = true ∨ hasKeyword "x y".toList (itemAtoms ++ columns) = true) :
    readLammpsCell cell a (dumpText kind columns n (steps.map Prod.fst)) =
      some ⟨hasKeyword "vx vy".toList (itemAtoms ++ columns), (steps.drop (a.initialCut - 1)).map (fun s => (s.1.number : ℝ) * a.timeStep),
        (steps.drop (a.initialCut - 1)).map fun s => s.2.map fun p => List.ofFn p⟩ := by
  unfold readLammpsCell readLammpsText
  rw [dumpText_lines kind columns n _ (by
    intro s hsm
    obtain ⟨t, ht, rfl⟩ := List.mem_map.1 hsm
    exact (hs t ht).1) (fun h => (hkind _ h).2 rfl) (fun h => (hcol _ h).2 rfl)]
  have h := C59_trajectory (textCodec a.nd) floatWords cell R hdet hR m hm xlo xhi ylo yhi zlo zhi xy xz yz hcell b hb a ha n (itemAtoms ++ columns)
    (steps.map fun s => (s.1.dump kind columns n, (s.1.number : ℝ), s.2)) (by
      intro f hf
      obtain ⟨s, hsm, rfl⟩ := List.mem_map.1 hf
      have h3 := s.1.dump_ok a.nd hnd kind columns n (hs s hsm).1 (by simpa using (hbox s hsm).length_eq) (fun c hc => (hkind c hc).1) (fun c hc => (hcol c hc).1)
      rw [hnd] at h3
      rw [hnd]
      have e : (s.1.coords.map fun r => [r 0, r 1, r 2]) = s.2.map fun p => List.ofFn (vecMul p R) := by
        rw [(hs s hsm).2, List.map_map]
        refine List.map_congr_left fun p _ => ?_
        simp [List.ofFn_succ]
      rw [e] at h3
      exact h3) (by
      intro f hf
      obtain ⟨s, hsm, rfl⟩ := List.mem_map.1 hf
      rw [mapM_eq_some_iff]
      have := (hbox s hsm)
      have key : ∀ (lines : List Line) (rs : List (Fin 3 → ℝ)), List.Forall₂ (fun line r => ThreeNumbers line r []) lines rs → List.Forall₂ (fun line v => floatWords line = some v) lines (rs.map fun r => [r 0, r 1, r 2]) := by
        intro lines rs hf2
        rw [List.forall₂_map_right_iff]
        refine hf2.imp fun line r hr => ?_
        have h2 := mapM_pyFloat_three hr
        obtain ⟨p, q, u, hw, -⟩ := hr
        unfold floatWords
        rw [hw] at h2 ⊢
        exact h2
      exact key _ _ this) (by simpa using hne) h1 he (by simpa using hlim) hmm hl hlab
  rw [List.map_map] at h ⊢
  rw [show (fun s : TextStep ℝ => (s.dump kind columns n).lines) ∘ Prod.fst = ((fun f : DumpStep × ℝ × List (Fin 3 → ℝ) => f.1.lines) ∘ fun s : TextStep ℝ × List (Fin 3 → ℝ) => (s.1.dump kind columns n, (s.1.number : ℝ), s.2)) from rfl, h,
    ← List.map_drop, List.map_map, List.map_map]
  rfl

/-- Example: a step that the theorems are about. -/
def exampleStep (k : ℕ) : TextStep ℚ := ⟨k, ["0 1".toList, " 0.0 2e0 ".toList, "0 3".toList], [" 0.5 0.25\t-1e-2".toList, "+.75 0 5.".toList], [![1 / 2, 1 / 4, -1 / 100], ![3 / 4, 0, 5]]⟩

instance (l : Line) : Decidable (NumericLine l) := by unfold NumericLine; infer_instance

example (k : ℕ) : (exampleStep k).Ok 2 ∧ (exampleStep k).bounds.length = 3 :=
  ⟨{ numeric := by show ∀ l ∈ [" 0.5 0.25\t-1e-2".toList, "+.75 0 5.".toList], NumericLine l; decide +kernel
     count := rfl
     reads := List.Forall₂.cons ⟨[], "0.5".toList, "0.25".toList, "-1e-2".toList, by decide +kernel⟩ (List.Forall₂.cons ⟨[], "+.75".toList, "0".toList, "5.".toList, by decide +kernel⟩ List.Forall₂.nil)
     bounds := by show ∀ l ∈ ["0 1".toList, " 0.0 2e0 ".toList, "0 3".toList], NumericLine l; decide +kernel }, rfl⟩

example : dumpText " pp pp pp".toList " x y z".toList 2 [exampleStep 10] =
    ("ITEM: TIMESTEP\n10\nITEM: NUMBER OF ATOMS\n2\nITEM: BOX BOUNDS pp pp pp\n0 1\n 0.0 2e0 \n0 3\nITEM: ATOMS x y z\n 0.5 0.25\t-1e-2\n+.75 0 5.\n").toList := by
  decide +kernel

example : (∀ c ∈ " pp pp pp".toList, c.isUpper = false ∧ c ≠ '\n') ∧ hasKeyword "x y".toList (itemAtoms ++ " x y z".toList) = true := by
  decide +kernel

/-- Example: steps 2 and 3 of an XDATCAR file of three steps, with the times of all three. -/
example : (readXdatcarText (K := ℚ) { timeStep := 1 / 2, initialCut := 2, endCut := some 3 }
      ("t\n1.0\n1 0 0\n0 1 0\n0 0 1\nA B\n1 1\nDirect configuration=     1\n0 0 0\n.5 .5 .5\nDirect configuration=     2\n0 0 .1\n.5 .5 .6\nDirect configuration=     3\n0 0 .2\n.5 .5 .7\n").toList) =
    some ⟨false, [1 / 2, 1, 3 / 2], [[[0, 0, 1 / 10], [1 / 2, 1 / 2, 3 / 5]], [[0, 0, 1 / 5], [1 / 2, 1 / 2, 7 / 10]]]⟩ := by
  decide +kernel

end Verif
