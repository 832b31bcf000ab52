import Verif.Model.OutcarText
import Verif.Props.TrajectoryText
import Verif.Props.OutcarStructure

/-! # C50, C99: OUTCAR files character by character -/

set_option autoImplicit false
set_option linter.unusedSectionVars false

namespace Verif

section
variable {K : Type} [Field K] [LinearOrder K] [IsStrictOrderedRing K] [FloorRing K]

/-- Specification: a step of an OUTCAR file: other lines, the line with `POSITION`, a line of dashes, the lines of the atoms, other lines, the line with `energy(`; with the coordinates the lines
of the atoms begin with, and the energy. -/
structure OutcarStep (K : Type) where
  before : List Line
  header : Line
  dashes : Line
  rows : List Line
  other : List Line
  energyLine : Line
  coords : List (Fin 3 → K)
  energy : K

/-- The lines of the step. -/
def OutcarStep.lines (s : OutcarStep K) : List Line := s.before ++ s.header :: s.dashes :: (s.rows ++ (s.other ++ [s.energyLine]))

/-- Specification: the step is well formed: `POSITION` is in the header and not before it, the atoms are `n` lines that begin with the coordinates, the energy is the third word from the
first `energy(` behind the atoms on. -/
structure OutcarStep.Ok (n : ℕ) (s : OutcarStep K) : Prop where
  lines : ∀ l ∈ s.lines, '\n' ∉ l
  noHeader : ∀ l ∈ s.before, hasKeyword kwPosition l = false
  header : hasKeyword kwPosition s.header = true
  count : s.rows.length = n
  reads : List.Forall₂ (fun line r => ∃ more, ThreeNumbers line r more) s.rows s.coords
  noEnergy : ∀ l ∈ s.other, hasKeyword kwEnergy l = false
  energy : ∃ t w1 w2 w3 more, fromKeyword kwEnergy s.energyLine = some t ∧ pySplit t = w1 :: w2 :: w3 :: more ∧ pyFloat w3 = some s.energy

/-- Specification: an OUTCAR file of a molecular dynamics run, cut at the places the reader looks for; the pieces `pre…` and `head` are arbitrary text, `tail` the lines behind the last step. -/
structure OutcarFile (K : Type) where
  pre1 : List Char
  nions : List Char
  pre2 : List Char
  potim : List Char
  pre3 : List Char
  head : List Char
  cell : List Line
  steps : List (OutcarStep K)
  tail : List Line

/-- The text of the file. -/
def OutcarFile.text (f : OutcarFile K) : List Char :=
  f.pre1 ++ (kwNions ++ (f.nions ++ '\n' :: (f.pre2 ++ (kwPotim ++ (f.potim ++ '\n' :: (f.pre3 ++ (kwLattice ++ (f.head ++ '\n' ::
    unlines (f.cell ++ ((f.steps.map (·.lines)).flatten ++ f.tail))))))))))

/-- Specification: the file holds this number of atoms, this `POTIM` and these lattice vectors, and `POSITION` stands only in its steps (from the lattice vectors on). -/
structure OutcarFile.Ok (f : OutcarFile K) (n : ℕ) (potim : K) (cell : Fin 3 → Fin 3 → K) : Prop where
  b1 : Before kwNions f.pre1
  b2 : Before kwPotim f.pre2
  b3 : Before kwLattice f.pre3
  oneLine : '\n' ∉ f.nions ∧ '\n' ∉ f.potim ∧ '\n' ∉ f.head
  nions : ∃ b b', IsBlankText b ∧ IsBlankText b' ∧ f.nions = b ++ natText n ++ b'
  potim : ∃ w more, pySplit f.potim = w :: more ∧ pyFloat w = some potim
  cell : List.Forall₂ (fun line r => ∃ more, ThreeNumbers line r more) f.cell [cell 0, cell 1, cell 2]
  cellLines : ∀ l ∈ f.cell, '\n' ∉ l ∧ hasKeyword kwPosition l = false
  steps : ∀ s ∈ f.steps, s.Ok n
  tail : ∀ l ∈ f.tail, '\n' ∉ l ∧ hasKeyword kwPosition l = false

theorem unlines_flatMap (ls : List Line) : unlines ls = ls.flatMap fun l => l ++ ['\n'] := by
  unfold unlines
  rw [List.flatMap_def]

theorem unlines_append (a b : List Line) : unlines (a ++ b) = unlines a ++ unlines b := by
  simp [unlines]

/-- The step for the reader, with the given lines before it. -/
def OutcarStep.frame (pre : List Line) (s : OutcarStep K) : OFrame K where
  before := pre ++ s.before
  header := s.header
  dashes := s.dashes
  rows := s.rows
  other := s.other
  energyLine := s.energyLine
  raw := s.coords.map fun r => [r 0, r 1, r 2]
  out := s.coords.map fun r => [r 0, r 1, r 2]
  energy := s.energy

theorem OutcarStep.frame_ok (a : ReadArgs K) (hnd : a.nd = 3) (hix : a.indexing = none) (pre : List Line) (hpre : ∀ l ∈ pre, hasKeyword kwPosition l = false) (n : ℕ) (s : OutcarStep K) (h : s.Ok n) :
    (s.frame pre).Ok (textCodec a.nd) outcarEnergy a n a.nd where
  noHeader := by
    intro l hl
    rcases List.mem_append.1 hl with hl | hl
    · exact hpre l hl
    · exact h.noHeader l hl
  header := h.header
  noEnergy := h.noEnergy
  energy := by
    obtain ⟨t, w1, w2, w3, more, h1, h2, h3⟩ := h.energy
    refine ⟨t, h1, ?_⟩
    unfold outcarEnergy
    rw [h2]
    exact h3
  count := h.count
  parseRows := rows_read a.nd hnd _ _ h.reads
  dims := by
    intro r hr
    obtain ⟨p, -, rfl⟩ := List.mem_map.1 hr
    rw [hnd]
    rfl
  order := by unfold reorder; rw [hix]; rfl

/-- What the reader returns for a well formed file, for any window. -/
theorem readOutcarRun_general (a : ReadArgs K) (hnd : a.nd = 3) (hix : a.indexing = none) (hl : a.lastSteps = none) (f : OutcarFile K) (n : ℕ) (potim : K) (cell : Fin 3 → Fin 3 → K)
    (h : f.Ok n potim cell) :
    readOutcarRun a f.text = some
      { cell := [[cell 0 0, cell 0 1, cell 0 2], [cell 1 0, cell 1 1, cell 1 2], [cell 2 0, cell 2 1, cell 2 2]]
        trajectory := ⟨false, (List.range (f.steps.take (framesRead (stopCounter a) (a.initialCut - 1))).length).map (fun i : ℕ => (i : K) * (potim * (1 / 1000))),
          (f.steps.take (framesRead (stopCounter a) (a.initialCut - 1))).map fun s => s.coords.map fun r => [r 0, r 1, r 2]⟩
        energy := (f.steps.take (framesRead (stopCounter a) (a.initialCut - 1))).map (·.energy) } := by
  obtain ⟨o1, o2, o3⟩ := h.oneLine
  obtain ⟨b, b', hb, hb', hn⟩ := h.nions
  obtain ⟨w, more, hw, hp⟩ := h.potim
  set body : List Line := f.cell ++ ((f.steps.map (·.lines)).flatten ++ f.tail) with hbody
  have hbodyLines : ∀ l ∈ body, '\n' ∉ l := by
    intro l hl
    rcases List.mem_append.1 hl with hl | hl
    · exact (h.cellLines l hl).1
    · rcases List.mem_append.1 hl with hl | hl
      · obtain ⟨L, hL, hl⟩ := List.mem_flatten.1 hl
        obtain ⟨s, hs, rfl⟩ := List.mem_map.1 hL
        exact (h.steps s hs).lines l hl
      · exact (h.tail l hl).1
  have hcell3 : f.cell.length = a.nd := by rw [h.cell.length_eq, hnd]; rfl
  have hrows := rows_read a.nd hnd _ _ h.cell
  have hread : readOutcar (textCodec a.nd) outcarEnergy { a with timeStep := potim * (1 / 1000) } n body =
      some (⟨false, (List.range (f.steps.take (framesRead (stopCounter a) (a.initialCut - 1))).length).map (fun i : ℕ => (i : K) * (potim * (1 / 1000))),
          (f.steps.take (framesRead (stopCounter a) (a.initialCut - 1))).map fun s => s.coords.map fun r => [r 0, r 1, r 2]⟩,
        (f.steps.take (framesRead (stopCounter a) (a.initialCut - 1))).map (·.energy)) := by
    set a' : ReadArgs K := { a with timeStep := potim * (1 / 1000) } with ha'
    have key : ∀ (frames : List (OFrame K)) (tail : List Line), (∀ x ∈ frames, x.Ok (textCodec a.nd) outcarEnergy a' n a.nd) → (∀ l ∈ tail, hasKeyword kwPosition l = false) →
        (frames.map (·.lines)).flatten ++ tail = body → frames.map (·.out) = (f.steps.map fun s => s.coords.map fun r => [r 0, r 1, r 2]) → frames.map (·.energy) = f.steps.map (·.energy) →
        readOutcar (textCodec a.nd) outcarEnergy a' n body =
        some (⟨false, (List.range (f.steps.take (framesRead (stopCounter a) (a.initialCut - 1))).length).map (fun i : ℕ => (i : K) * (potim * (1 / 1000))),
          (f.steps.take (framesRead (stopCounter a) (a.initialCut - 1))).map fun s => s.coords.map fun r => [r 0, r 1, r 2]⟩,
          (f.steps.take (framesRead (stopCounter a) (a.initialCut - 1))).map (·.energy)) := by
      intro frames tail hf ht he ho hE
      have hg := readOutcar_general (textCodec a.nd) outcarEnergy a' n a.nd frames tail hf ht
      rw [he] at hg
      rw [hg]
      have hs : stopCounter a' = stopCounter a := rfl
      have h1 : a'.lastSteps = none := hl
      have hlen : frames.length = f.steps.length := by simpa using congrArg List.length hE
      rw [h1]
      simp only [lastSlice, hs, List.map_take, ho, hE]
      simp [ha']
    cases hst : f.steps with
    | nil =>
      rw [← hst]
      refine key [] (f.cell ++ f.tail) (by simp) ?_ ?_ ?_ ?_
      · intro l hl
        rcases List.mem_append.1 hl with hl | hl
        · exact (h.cellLines l hl).2
        · exact (h.tail l hl).2
      · rw [hbody, hst]; simp
      · rw [hst]; rfl
      · rw [hst]; rfl
    | cons s ss =>
      rw [← hst]
      refine key (s.frame f.cell :: ss.map (·.frame [])) f.tail ?_ (fun l hl => (h.tail l hl).2) ?_ ?_ ?_
      · intro x hx
        rcases List.mem_cons.1 hx with rfl | hx
        · exact s.frame_ok a' hnd hix f.cell (fun l hl => (h.cellLines l hl).2) n (h.steps s (by rw [hst]; simp))
        · obtain ⟨t, ht, rfl⟩ := List.mem_map.1 hx
          exact t.frame_ok a' hnd hix [] (by simp) n (h.steps t (by rw [hst]; simp [ht]))
      · rw [hbody, hst]
        have e : (ss.map (·.frame [])).map (·.lines) = ss.map (·.lines) := by
          rw [List.map_map]; rfl
        rw [List.map_cons, List.map_cons, e]
        simp [OFrame.lines, OutcarStep.lines, OutcarStep.frame]
      · rw [hst]; simp [OutcarStep.frame]
      · rw [hst]; simp [OutcarStep.frame]
  unfold readOutcarRun
  dsimp only
  rw [seekBehind_eq0 f.text f.text kwNions f.pre1 _ 7 (by decide) h.b1 (by decide) rfl, textLine_eq _ _ o1]
  simp only
  rw [hn, C111_nat n b b' hb hb', seekBehind_eq0 f.text _ kwPotim f.pre2 _ 8 (by decide) h.b2 (by decide) rfl, textLine_eq _ _ o2]
  have hpot : (pySplit f.potim)[0]?.bind pyFloat = some potim := by rw [hw]; exact hp
  simp only [Option.map_some, Option.bind_some, hpot, Int.toNat_natCast]
  have hbt : unlines body = unlines f.cell ++ unlines ((f.steps.map (·.lines)).flatten ++ f.tail) := by rw [hbody, unlines_append]
  rw [hbt, tableBehind_eq (textCodec a.nd).row kwLattice f.pre3 f.head _ f.cell a.nd (by decide) (by decide) h.b3 o3 (fun l hl => (h.cellLines l hl).1) hcell3, ← hbt,
    fromKeyword_skip kwLattice (by decide) _ f.pre3 h.b3]
  simp only [Option.bind_some]
  have hline : textLine (kwLattice ++ (f.head ++ '\n' :: unlines body)) = (kwLattice ++ f.head, unlines body) := by
    rw [← List.append_assoc]
    refine textLine_eq _ _ ?_
    rw [List.mem_append, not_or]
    exact ⟨by decide, o3⟩
  have hfl : fileLines (unlines body) = body := by rw [unlines_flatMap, fileLines_lines body hbodyLines]
  rw [hline, hfl, hread, hrows]
  simp [toArray]

/-- C50 (part), for the text of the file: of an OUTCAR file with any number of steps and atoms and any text between the parts that are read, the reader returns the lattice vectors and the steps
1, ..., `min(e, last)` with their energies at the times `0, POTIM / 1000, ...`. Missing, and false: `initial_cut > 1` (`C50_text_violated`). -/
theorem C50_text_partial (a : ReadArgs K) (hnd : a.nd = 3) (hix : a.indexing = none) (hl : a.lastSteps = none) (f : OutcarFile K) (n : ℕ) (potim : K) (cell : Fin 3 → Fin 3 → K)
    (h : f.Ok n potim cell) (hi : a.initialCut = 1) (e : ℕ) (he : a.endCut = some e) (h2 : 1 ≤ e) (hlim : e ≤ a.limit + 2) :
    readOutcarRun a f.text = some
      { cell := [[cell 0 0, cell 0 1, cell 0 2], [cell 1 0, cell 1 1, cell 1 2], [cell 2 0, cell 2 1, cell 2 2]]
        trajectory := ⟨false, (List.range (window f.steps 1 e).length).map (fun i : ℕ => (i : K) * (potim * (1 / 1000))),
          (window f.steps 1 e).map fun s => s.coords.map fun r => [r 0, r 1, r 2]⟩
        energy := (window f.steps 1 e).map (·.energy) } := by
  have hfr : framesRead (stopCounter a) (a.initialCut - 1) = e := by
    unfold framesRead stopCounter; rw [he]; simp only; omega
  rw [readOutcarRun_general a hnd hix hl f n potim cell h, hfr]
  simp [window]

/-- C50, violated: with `initial_cut = i > 1` the reader returns the steps 1, ..., `e + 1 - i` of the file. -/
theorem C50_text_violated (a : ReadArgs K) (hnd : a.nd = 3) (hix : a.indexing = none) (hl : a.lastSteps = none) (f : OutcarFile K) (n : ℕ) (potim : K) (cell : Fin 3 → Fin 3 → K)
    (h : f.Ok n potim cell) (i e : ℕ) (hi : a.initialCut = i) (he : a.endCut = some e) (h1 : 1 ≤ i) (h2 : i ≤ e) (hlim : e + 1 - i ≤ a.limit + 2) :
    ∃ p, readOutcarRun a f.text = some p ∧ p.trajectory.data = (window f.steps 1 (e + 1 - i)).map (fun s => s.coords.map fun r => [r 0, r 1, r 2]) ∧
      p.energy = (window f.steps 1 (e + 1 - i)).map (·.energy) := by
  have hfr : framesRead (stopCounter a) (a.initialCut - 1) = e + 1 - i := by
    unfold framesRead stopCounter; rw [he]; simp only; omega
  rw [readOutcarRun_general a hnd hix hl f n potim cell h, hfr]
  exact ⟨_, rfl, by simp [window], by simp [window]⟩

/-- **C99**, for the text of the file: `read_from_file_structure_outcar` with Python's conversions, for any number of types and ions, any text between the parts, any spacing and any form of the numbers. -/
theorem C99_text (t : OutcarText) (ht : t.Ok) (ns : List ℕ) (masses : List K) (cell rec : Fin 3 → Fin 3 → K) (pos frac : List (Fin 3 → K))
    (hn : ∃ b b', IsBlankText b ∧ IsBlankText b' ∧ t.nions = b ++ natText ns.sum ++ b') (hc : pySplit t.counts = ns.map natText) (hlen : ns.length = t.masses.length)
    (hm : List.Forall₂ (fun w m => pyFloat w = some m) t.masses masses)
    (hcell : ∀ i : Fin 3, ∃ (h : i.val < t.cell.length) (w : List (List Char)) (more : List (List Char)), ThreeNumbers t.cell[i.val] (cell i) w ∧ ∃ a b c, w = a :: b :: c :: more ∧
      pyFloat a = some (rec i 0) ∧ pyFloat b = some (rec i 1) ∧ pyFloat c = some (rec i 2))
    (hpos : List.Forall₂ (fun line r => ∃ more, ThreeNumbers line r more) t.cartesian pos) (hnum : pos.length = ns.sum)
    (hfrac : List.Forall₂ (fun line r => ∃ more, ThreeNumbers line r more) t.fractional frac) (hnum' : frac.length = ns.sum) :
    ∃ s, readOutcarStructure (pythonOutcar (K := K)) t.text = some s ∧
      s.cell = [[cell 0 0, cell 0 1, cell 0 2], [cell 1 0, cell 1 1, cell 1 2], [cell 2 0, cell 2 1, cell 2 2]] ∧ s.positions = (pos.map fun r => [r 0, r 1, r 2]) ∧
      s.masses.length = pos.length ∧ ∀ j (hj : j < masses.length) k, (ns.take j).sum ≤ k → k < (ns.take (j + 1)).sum → s.masses[k]? = some masses[j] := by
  have three : ∀ (ls : List Line) (rs : List (Fin 3 → K)), List.Forall₂ (fun line r => ∃ more, ThreeNumbers line r more) ls rs → ls.mapM (pythonOutcar (K := K)).row = some (rs.map fun r => [r 0, r 1, r 2]) :=
    fun ls rs h => rows_read 3 rfl ls rs h
  have len3 : ∀ (rs : List (Fin 3 → K)), ∀ r ∈ (rs.map fun r => [r 0, r 1, r 2]), r.length = 3 := by
    intro rs r hr
    obtain ⟨p, -, rfl⟩ := List.mem_map.1 hr
    rfl
  obtain ⟨c0, c1, c2, hc3⟩ : ∃ c0 c1 c2, t.cell = [c0, c1, c2] := by
    have := ht.cell3
    match h : t.cell, this with
    | [c0, c1, c2], _ => exact ⟨c0, c1, c2, rfl⟩
  have six : ∀ i : Fin 3, ∀ l, t.cell[i.val]? = some l → (∃ more, ThreeNumbers l (cell i) more) ∧ (pythonOutcar (K := K)).row2 l = some [rec i 0, rec i 1, rec i 2] := by
    intro i l hl
    obtain ⟨h, w, more, h3, a, b, c, rfl, ha, hb, hcc⟩ := hcell i
    rw [List.getElem?_eq_getElem h, Option.some.injEq] at hl
    subst hl
    refine ⟨⟨_, h3⟩, ?_⟩
    obtain ⟨x, y, z, hs, -⟩ := h3
    show (((pySplit _).drop 3).take 3).mapM pyFloat = _
    rw [hs]
    simp [ha, hb, hcc]
  have s0 := six 0 c0 (by rw [hc3]; rfl)
  have s1 := six 1 c1 (by rw [hc3]; rfl)
  have s2 := six 2 c2 (by rw [hc3]; rfl)
  have hlc : t.cartesian.length = ns.sum := by rw [hpos.length_eq, hnum]
  have hlf : t.fractional.length = ns.sum := by rw [hfrac.length_eq, hnum']
  have hints : (pythonOutcar (K := K)).ints t.counts = some ns := by
    show ((pySplit t.counts).mapM pyIntText).map _ = _
    rw [hc, mapM_natText, Option.map_some, List.map_map]
    exact congrArg some (List.map_id' ns)
  have hml : ns.length = masses.length := by rw [hlen, hm.length_eq]
  refine ⟨_, C99_read (pythonOutcar (K := K)) t ht ns masses (([cell 0, cell 1, cell 2] : List (Fin 3 → K)).map fun r => [r 0, r 1, r 2]) _ _
    (([rec 0, rec 1, rec 2] : List (Fin 3 → K)).map fun r => [r 0, r 1, r 2]) ?_ (hlf.trans hlc.symm) hints hlen ((mapM_eq_some_iff _ _ _).2 hm)
    (three _ _ ?_) ?_ (three _ _ hfrac) (three _ _ hpos) (len3 _) (len3 _) (len3 _) (len3 _), rfl, rfl, ?_, ?_⟩
  · obtain ⟨b, b', hb, hb', e⟩ := hn
    show (pyIntText t.nions).map Int.toNat = _
    rw [e, C111_nat _ b b' hb hb', hlc]
    rfl
  · rw [hc3]
    exact List.Forall₂.cons s0.1 (List.Forall₂.cons s1.1 (List.Forall₂.cons s2.1 List.Forall₂.nil))
  · rw [hc3]
    simp [s0.2, s1.2, s2.2]
  · rw [(C99_masses ns masses hml).1, hnum]
  · exact (C99_masses ns masses hml).2

end

/-! ## Examples -/

/-- A step with an electronic iteration before it. -/
def exOutcarStep (e : List Char) (v : ℚ) : OutcarStep ℚ where
  before := ["Iteration      1(   1)".toList, "  energy(sigma->0) =      -9.00000000".toList]
  header := " POSITION                                       TOTAL-FORCE (eV/Angst)".toList
  dashes := " ------".toList
  rows := ["      0.00000      0.50000     -0.25000         0.1000     0.0000   -0.2000".toList]
  other := [" ------".toList, "  total drift:".toList]
  energyLine := "  energy  without entropy=      -7.4  energy(sigma->0) =      ".toList ++ e
  coords := [![0, 1 / 2, -1 / 4]]
  energy := v

/-- A file of two steps. -/
def exOutcarFile : OutcarFile ℚ where
  pre1 := " vasp\n   number of dos      NEDOS =    301   number of ions     ".toList
  nions := "      1".toList
  pre2 := "   NSW\n   ".toList
  potim := " 2.0000    time-step for ionic-motion".toList
  pre3 := "  volume of cell :      125.0\n      ".toList
  head := "                 reciprocal lattice vectors".toList
  cell := ["     5.0  0.0  0.0  0.2 0.0 0.0".toList, "     0.0  5.0  0.0  0.0 0.2 0.0".toList, "     0.0  0.0  5.0  0.0 0.0 0.2".toList]
  steps := [exOutcarStep "-7.5".toList (-15 / 2), exOutcarStep "-7.25000".toList (-29 / 4)]
  tail := [" General timing".toList]

theorem exOutcarStep_ok (e : List Char) (v : ℚ) (h : (e, v) = ("-7.5".toList, -15 / 2) ∨ (e, v) = ("-7.25000".toList, -29 / 4)) : (exOutcarStep e v).Ok 1 := by
  rcases h with h | h <;> obtain ⟨rfl, rfl⟩ := Prod.mk.inj h <;> exact
    { lines := by decide +kernel
      noHeader := by decide +kernel
      header := by decide +kernel
      count := rfl
      reads := List.Forall₂.cons ⟨_, _, _, _, rfl, by decide +kernel, by decide +kernel, by decide +kernel⟩ List.Forall₂.nil
      noEnergy := by decide +kernel
      energy := ⟨_, _, _, _, _, rfl, rfl, by decide +kernel⟩ }

theorem exOutcarFile_ok : exOutcarFile.Ok 1 2 ![![5, 0, 0], ![0, 5, 0], ![0, 0, 5]] where
  b1 := by unfold Before; decide +kernel
  b2 := by unfold Before; decide +kernel
  b3 := by unfold Before; decide +kernel
  oneLine := by decide +kernel
  nions := ⟨"      ".toList, [], by unfold IsBlankText; decide +kernel, by unfold IsBlankText; decide +kernel, by decide +kernel⟩
  potim := ⟨_, _, rfl, by decide +kernel⟩
  cell := List.Forall₂.cons ⟨_, _, _, _, rfl, by decide +kernel, by decide +kernel, by decide +kernel⟩
    (List.Forall₂.cons ⟨_, _, _, _, rfl, by decide +kernel, by decide +kernel, by decide +kernel⟩
      (List.Forall₂.cons ⟨_, _, _, _, rfl, by decide +kernel, by decide +kernel, by decide +kernel⟩ List.Forall₂.nil))
  cellLines := by decide +kernel
  steps := by
    intro s hs
    rcases List.mem_cons.1 hs with rfl | hs
    · exact exOutcarStep_ok _ _ (Or.inl rfl)
    · rcases List.mem_cons.1 hs with rfl | hs
      · exact exOutcarStep_ok _ _ (Or.inr rfl)
      · simp at hs
  tail := by decide +kernel

example : readOutcarRun (K := ℚ) { timeStep := 77, endCut := some 2 } exOutcarFile.text =
    some ⟨[[5, 0, 0], [0, 5, 0], [0, 0, 5]], ⟨false, [0, 1 / 500], [[[0, 1 / 2, -1 / 4]], [[0, 1 / 2, -1 / 4]]]⟩, [-15 / 2, -29 / 4]⟩ := by
  rw [C50_text_partial _ rfl rfl rfl _ _ _ _ exOutcarFile_ok rfl 2 rfl (by decide) (by decide)]
  decide +kernel

/-- The file of `exOutcar` is read by Python's conversions too. -/
example : readOutcarStructure (pythonOutcar (K := ℚ)) exOutcar.text =
    some { cell := [[5, 0, 0], [0, 6, 0], [0, 0, 7]], positions := [[1, 2, 3], [4, 5, 6], [7, 8, 9]], masses := [28, 28, 16] } := by
  decide +kernel

example : pySplit exOutcar.counts = ([2, 1] : List ℕ).map natText ∧ List.Forall₂ (fun w (m : ℚ) => pyFloat w = some m) exOutcar.masses [28, 16] :=
  ⟨by decide +kernel, List.Forall₂.cons (by decide +kernel) (List.Forall₂.cons (by decide +kernel) List.Forall₂.nil)⟩

end Verif
