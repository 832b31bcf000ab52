import Verif.Model.Parsers
import Verif.Spec.Window
import Mathlib.Tactic.Ring
import Mathlib.Tactic.NormNum
import Mathlib.Data.Rat.Defs
import Mathlib.Algebra.Order.Ring.Rat

/-! # C48-C51, C76, C77: trajectory parsers -/

set_option autoImplicit false

namespace Verif

/-! ## Text search -/

theorem fromKeyword_isSome (kw l : Line) : (fromKeyword kw l).isSome ↔ kw <:+: l := by
  induction l with
  | nil => unfold fromKeyword; by_cases h : kw = [] <;> simp [h]
  | cons c cs ih =>
    unfold fromKeyword
    by_cases h : kw.isPrefixOf (c :: cs)
    · simp only [h, if_true, Option.isSome_some, true_iff]
      exact (List.isPrefixOf_iff_prefix.1 h).isInfix
    · simp only [h, Bool.false_eq_true, if_false, ih]
      rw [List.infix_cons_iff]
      have : ¬ kw <+: c :: cs := fun h' => h (List.isPrefixOf_iff_prefix.2 h')
      tauto

theorem hasKeyword_iff (kw l : Line) : hasKeyword kw l = true ↔ kw <:+: l := fromKeyword_isSome kw l

theorem findLine_append {kw l s : Line} {pre rest : List Line} (hpre : ∀ x ∈ pre, hasKeyword kw x = false)
    (hl : fromKeyword kw l = some s) : findLine kw (pre ++ l :: rest) = some (s, rest) := by
  induction pre with
  | nil => simp [findLine, hl]
  | cons p ps ih =>
    have hp : fromKeyword kw p = none := by
      have := hpre p (by simp)
      unfold hasKeyword at this
      cases h : fromKeyword kw p with
      | none => rfl
      | some v => rw [h] at this; simp at this
    rw [List.cons_append, findLine, hp]
    exact ih fun x hx => hpre x (by simp [hx])

theorem findLine_none {kw : Line} {ls : List Line} (h : ∀ x ∈ ls, hasKeyword kw x = false) : findLine kw ls = none := by
  induction ls with
  | nil => rfl
  | cons p ps ih =>
    have hp : fromKeyword kw p = none := by
      have := h p (by simp)
      unfold hasKeyword at this
      cases h : fromKeyword kw p with
      | none => rfl
      | some v => rw [h] at this; simp at this
    rw [findLine, hp]
    exact ih fun x hx => h x (by simp [hx])

theorem readLines_append (a b : List Line) : readLines a.length (a ++ b) = (a, b) := by
  induction a with
  | nil => rfl
  | cons x xs ih => simp [readLines, readLine, ih]

/-! ## A loop that reads one frame per pass -/

/-- The number of frames the loop reads when it starts reading with the counter at `k`: it stops behind the first frame whose number
is at least `S`. -/
def framesRead (S k : ℕ) : ℕ := max 1 (S - k)

/-- `Inv sk rd fs s`: the loop is in state `s` before the frames `fs`, has skipped the frames `sk` and read the frames `rd`;
`Out sk rd s`: what is claimed at the end. -/
theorem whileTrue_read {σ φ : Type*} (body : σ → Pass σ) (Inv : List φ → List φ → List φ → σ → Prop) (Out : List φ → List φ → σ → Prop)
    (S ic : ℕ) (hnil : ∀ sk rd s, Inv sk rd [] s → ∃ s', body s = .stop s' ∧ Out sk rd s')
    (hread : ∀ sk rd f fs s, sk.length = ic - 1 → Inv sk rd (f :: fs) s →
      ∃ s', body s = (if S ≤ sk.length + rd.length + 1 then .stop s' else .next s') ∧ Out sk (rd ++ [f]) s' ∧
        (sk.length + rd.length + 1 < S → Inv sk (rd ++ [f]) fs s')) :
    ∀ (fs sk rd : List φ) (s : σ) (fuel : ℕ), sk.length = ic - 1 → Inv sk rd fs s → fs.length + 1 ≤ fuel →
      ∃ s', whileTrue body fuel s = some s' ∧ Out sk (rd ++ fs.take (framesRead S (sk.length + rd.length))) s' := by
  intro fs
  induction fs with
  | nil =>
    intro sk rd s fuel _ hAt hfuel
    obtain ⟨s', h1, h2⟩ := hnil sk rd s hAt
    obtain ⟨m, rfl⟩ : ∃ m, fuel = m + 1 := ⟨fuel - 1, by simp at hfuel; omega⟩
    exact ⟨s', by simp [whileTrue, h1], by simpa using h2⟩
  | cons f fs ih =>
    intro sk rd s fuel hk hAt hfuel
    obtain ⟨s', h1, h2, h3⟩ := hread sk rd f fs s hk hAt
    obtain ⟨m, rfl⟩ : ∃ m, fuel = m + 1 := ⟨fuel - 1, by simp at hfuel; omega⟩
    by_cases hS : S ≤ sk.length + rd.length + 1
    · refine ⟨s', by simp [whileTrue, h1, hS], ?_⟩
      have : framesRead S (sk.length + rd.length) = 1 := by unfold framesRead; omega
      simpa [this] using h2
    · obtain ⟨s'', h4, h5⟩ := ih sk (rd ++ [f]) s' m hk (h3 (by omega)) (by simp at hfuel; omega)
      refine ⟨s'', by simp [whileTrue, h1, hS, h4], ?_⟩
      have : framesRead S (sk.length + rd.length) = framesRead S (sk.length + (rd ++ [f]).length) + 1 := by
        simp only [framesRead, List.length_append, List.length_singleton]; omega
      rw [this, List.take_succ_cons]
      simpa using h5

theorem whileTrue_skip_read {σ φ : Type*} (body : σ → Pass σ) (Inv : List φ → List φ → List φ → σ → Prop) (Out : List φ → List φ → σ → Prop)
    (S ic : ℕ) (hnil : ∀ sk rd s, Inv sk rd [] s → ∃ s', body s = .stop s' ∧ Out sk rd s')
    (hskip : ∀ sk f fs s, sk.length + 1 < ic → Inv sk [] (f :: fs) s → ∃ s', body s = .next s' ∧ Inv (sk ++ [f]) [] fs s')
    (hread : ∀ sk rd f fs s, sk.length = ic - 1 → Inv sk rd (f :: fs) s →
      ∃ s', body s = (if S ≤ sk.length + rd.length + 1 then .stop s' else .next s') ∧ Out sk (rd ++ [f]) s' ∧
        (sk.length + rd.length + 1 < S → Inv sk (rd ++ [f]) fs s')) :
    ∀ (fs sk : List φ) (s : σ) (fuel : ℕ), sk.length ≤ ic - 1 → Inv sk [] fs s → fs.length + 1 ≤ fuel →
      ∃ s', whileTrue body fuel s = some s' ∧
        Out (sk ++ fs.take (ic - 1 - sk.length)) ((fs.drop (ic - 1 - sk.length)).take (framesRead S (ic - 1))) s' := by
  intro fs
  induction fs with
  | nil =>
    intro sk s fuel _ hAt hfuel
    obtain ⟨s', h1, h2⟩ := hnil sk [] s hAt
    obtain ⟨m, rfl⟩ : ∃ m, fuel = m + 1 := ⟨fuel - 1, by simp at hfuel; omega⟩
    exact ⟨s', by simp [whileTrue, h1], by simpa using h2⟩
  | cons f fs ih =>
    intro sk s fuel hle hAt hfuel
    by_cases hk : sk.length + 1 < ic
    · obtain ⟨s', h1, h2⟩ := hskip sk f fs s hk hAt
      obtain ⟨m, rfl⟩ : ∃ m, fuel = m + 1 := ⟨fuel - 1, by simp at hfuel; omega⟩
      obtain ⟨s'', h4, h5⟩ := ih (sk ++ [f]) s' m (by simp; omega) h2 (by simp at hfuel; omega)
      refine ⟨s'', by simp [whileTrue, h1, h4], ?_⟩
      have e1 : ic - 1 - sk.length = ic - 1 - (sk ++ [f]).length + 1 := by simp; omega
      rw [e1, List.drop_succ_cons, List.take_succ_cons]
      simpa using h5
    · have e0 : sk.length = ic - 1 := by omega
      have e1 : ic - 1 - sk.length = 0 := by omega
      rw [e1, List.drop_zero, List.take_zero, List.append_nil]
      have := whileTrue_read body Inv Out S ic hnil hread (f :: fs) sk [] s fuel e0 hAt hfuel
      simpa [e0] using this

/-! ## Files -/

/-- The threshold of the two tests that end the loops: the counter stops at `end_cut` or behind `limit + initial_cut`. -/
def stopCounter {R : Type*} (a : ReadArgs R) : ℕ :=
  match a.endCut with
  | some e => min (a.limit + a.initialCut + 1) e
  | none => a.limit + a.initialCut + 1

/-- The text of one step of a LAMMPS dump: four headers, the step number, the number of atoms, three lines of bounds and the lines of
the atoms. -/
structure DumpStep where
  hTime : Line
  step : Line
  hNumber : Line
  number : Line
  hBox : Line
  box : List Line
  hAtoms : Line
  rows : List Line

/-- The lines before the lines of the atoms. -/
def DumpStep.middle (d : DumpStep) : List Line := [d.step, d.hNumber, d.number, d.hBox] ++ d.box

def DumpStep.lines (d : DumpStep) : List Line := d.hTime :: (d.middle ++ d.hAtoms :: d.rows)

/-- The text of one step is well formed: the headers contain their keyword, no other line does, there are `n` lines of atoms, and all numbers can be
parsed: step number `t`, coordinates `raw` (`n` rows of `nd` numbers). -/
structure DumpStep.Ok {R : Type*} (c : Codec R) (n nd : ℕ) (labels : Line) (d : DumpStep) (t : R) (raw : Frame R) : Prop where
  time : hasKeyword kwTimestep d.hTime = true
  noTime : ∀ l ∈ d.middle ++ d.hAtoms :: d.rows, hasKeyword kwTimestep l = false
  atoms : fromKeyword kwAtoms d.hAtoms = some labels
  noAtoms : ∀ l ∈ d.middle, hasKeyword kwAtoms l = false
  number : hasKeyword kwNumber d.hNumber = true
  noNumber : hasKeyword kwNumber d.hTime = false ∧ hasKeyword kwNumber d.step = false
  parseNumber : c.int d.number = some n
  bounds : hasKeyword kwBounds d.hBox = true
  noBounds : hasKeyword kwBounds d.hTime = false ∧ hasKeyword kwBounds d.step = false ∧ hasKeyword kwBounds d.hNumber = false ∧
    hasKeyword kwBounds d.number = false
  three : d.box.length = 3
  count : d.rows.length = n
  parseStep : c.float d.step = some t
  parseRows : d.rows.mapM c.row = some raw
  dims : ∀ r ∈ raw, r.length = nd

/-- A step of the file with the numbers it holds. -/
structure DumpFrame (R : Type*) where
  text : DumpStep
  t : R
  raw : Frame R
  out : Frame R

section lammps
variable {R G : Type*} [Zero R]

theorem toArray_eq {rows : Frame R} {nd : ℕ} (h : ∀ r ∈ rows, r.length = nd) : toArray rows = some rows := by
  unfold toArray
  rw [if_pos]
  intro r hr
  cases rows with
  | nil => simp at hr
  | cons x xs => simp only [List.headD_cons]; rw [h r hr, h x (by simp)]

theorem readCoordinates_eq (c : Codec R) {rows : List Line} {raw : Frame R} {n nd : ℕ} (rest : List Line) (hn : rows.length = n)
    (hp : rows.mapM c.row = some raw) (hd : ∀ r ∈ raw, r.length = nd) : readCoordinates c n (rows ++ rest) = some (raw, rest) := by
  unfold readCoordinates
  rw [← hn, readLines_append]
  simp only [hp, toArray_eq hd, Option.map_some]

/-- What the reader of one step stores: the coordinates reordered and rotated. -/
def Stored (g : LGeometry R G) (a : ReadArgs R) (geo : G) (f : DumpFrame R) : Prop :=
  ∃ r, reorder a.indexing f.raw = some r ∧ g.rotate geo r = some f.out

/-- What the memory holds after reading the frames `rd`: the frames in order, followed by zeros if the file is memory mapped. -/
def storedData (a : ReadArgs R) (n : ℕ) (rd : List (Frame R)) : List (Frame R) :=
  if a.memmap then rd ++ List.replicate ((a.endCut.getD 0) + 1 - a.initialCut - rd.length) (List.replicate n (List.replicate a.nd 0))
  else rd

/-- What the LAMMPS reader holds after skipping `sk` and reading `rd`. -/
def LOut (a : ReadArgs R) (n : ℕ) (labels : Line) (sk rd : List (DumpFrame R)) (s : LState R G) : Prop :=
  s.time = rd.map (·.t) ∧ (sk ++ rd ≠ [] → s.data = storedData a n (rd.map (·.out)) ∧ s.labels = some labels)

/-- The state of the LAMMPS reader before the steps `fs`. -/
def LInv (c : Codec R) (g : LGeometry R G) (a : ReadArgs R) (file : List Line) (n nd : ℕ) (geo : G) (labels : Line)
    (sk rd fs : List (DumpFrame R)) (s : LState R G) : Prop :=
  s.counter = sk.length + rd.length ∧
  (∃ pre, (∀ l ∈ pre, hasKeyword kwTimestep l = false) ∧ s.cursor = pre ++ (fs.map (·.text.lines)).flatten) ∧
  (∀ f ∈ fs, f.text.Ok c n nd labels f.t f.raw ∧ Stored g a geo f) ∧
  (a.memmap = true → ∃ e, a.endCut = some e ∧ 1 ≤ a.initialCut ∧ a.initialCut ≤ e ∧ sk.length + rd.length < e) ∧
  ((s.natoms = some n ∧ s.geometry = some geo ∧ LOut a n labels sk rd s ∧ sk ++ rd ≠ []) ∨
   (s.natoms = none ∧ s.geometry = none ∧ sk = [] ∧ rd = [] ∧ s.time = [] ∧ s.data = [] ∧ file = (fs.map (·.text.lines)).flatten ∧
      s.cursor = file ∧ (∀ f ∈ fs.head?, g.box f.text.box = some geo)))

/-- The first part of a pass, up to the header of the atoms. -/
theorem lammpsPass_head (c : Codec R) (g : LGeometry R G) (a : ReadArgs R) (file : List Line) (n nd : ℕ) (geo : G) (labels : Line)
    (sk rd : List (DumpFrame R)) (f : DumpFrame R) (fs : List (DumpFrame R)) (s : LState R G)
    (h : LInv c g a file n nd geo labels sk rd (f :: fs) s) :
    ∃ s' : LState R G, lammpsPass c g a file s =
      (if s'.counter < a.initialCut then .next { s' with time := [] } else lammpsRead c g a n geo s') ∧
      s'.counter = sk.length + rd.length + 1 ∧ s'.cursor = f.text.rows ++ (fs.map (·.text.lines)).flatten ∧
      s'.natoms = some n ∧ s'.geometry = some geo ∧ s'.labels = some labels ∧ s'.time = rd.map (·.t) ++ [f.t] ∧
      s'.data = storedData a n (rd.map (·.out)) := by
  obtain ⟨hc, ⟨pre, hpre, hcur⟩, hok, hmm, hcase⟩ := h
  obtain ⟨ok, -⟩ := hok f (by simp)
  obtain ⟨hkw, hkws⟩ : ∃ t, fromKeyword kwTimestep f.text.hTime = some t := Option.isSome_iff_exists.1 ok.time
  obtain ⟨hkn, hkns⟩ : ∃ t, fromKeyword kwNumber f.text.hNumber = some t := Option.isSome_iff_exists.1 ok.number
  obtain ⟨hkb, hkbs⟩ : ∃ t, fromKeyword kwBounds f.text.hBox = some t := Option.isSome_iff_exists.1 ok.bounds
  set rest := (fs.map (·.text.lines)).flatten with hrest
  have hlines : ((f :: fs).map (·.text.lines)).flatten = f.text.hTime :: (f.text.middle ++ f.text.hAtoms :: (f.text.rows ++ rest)) := by
    simp [DumpStep.lines, hrest]
  have h1 : findLine kwTimestep s.cursor = some (hkw, f.text.middle ++ f.text.hAtoms :: (f.text.rows ++ rest)) := by
    rw [hcur, hlines]; exact findLine_append hpre hkws
  have h2 : findLine kwAtoms (f.text.hNumber :: f.text.number :: f.text.hBox :: (f.text.box ++ f.text.hAtoms :: (f.text.rows ++ rest))) =
      some (labels, f.text.rows ++ rest) := by
    have := findLine_append (kw := kwAtoms) (pre := f.text.hNumber :: f.text.number :: f.text.hBox :: f.text.box)
      (rest := f.text.rows ++ rest) (fun l hl => ok.noAtoms l (by simp [DumpStep.middle] at hl ⊢; tauto)) ok.atoms
    simpa using this
  have h3 : findLine kwAtoms (f.text.hAtoms :: (f.text.rows ++ rest)) = some (labels, f.text.rows ++ rest) :=
    findLine_append (pre := []) (by simp) ok.atoms
  unfold lammpsPass
  simp only [h1]
  have hrl : readLine (f.text.middle ++ f.text.hAtoms :: (f.text.rows ++ rest)) =
      (f.text.step, f.text.hNumber :: f.text.number :: f.text.hBox :: (f.text.box ++ f.text.hAtoms :: (f.text.rows ++ rest))) := by
    simp [DumpStep.middle, readLine]
  simp only [hrl, ok.parseStep]
  rcases hcase with ⟨hn, hg, hout, hne⟩ | ⟨hn, hg, rfl, rfl, ht, hd, hfile, hcf, hbox⟩
  · simp only [lammpsNumber, hn, lammpsBox, hg, h2]
    obtain ⟨ho1, ho2⟩ := hout
    refine ⟨{ s with counter := s.counter + 1, cursor := f.text.rows ++ rest, time := s.time ++ [f.t], labels := some labels },
      by simp [hn, hg], ?_, rfl, hn, hg, rfl, ?_, (ho2 hne).1⟩
    · simp [hc]
    · simp [ho1]
  · have hnum : findLine kwNumber file = some (hkn, f.text.number :: f.text.hBox :: (f.text.box ++ f.text.hAtoms :: (f.text.rows ++ rest))) := by
      rw [hfile, hlines]
      have := findLine_append (kw := kwNumber) (pre := [f.text.hTime, f.text.step])
        (rest := f.text.number :: f.text.hBox :: (f.text.box ++ f.text.hAtoms :: (f.text.rows ++ rest)))
        (by simpa using ok.noNumber) hkns
      simpa [DumpStep.middle] using this
    have hbnd : findLine kwBounds file = some (hkb, f.text.box ++ f.text.hAtoms :: (f.text.rows ++ rest)) := by
      rw [hfile, hlines]
      have := findLine_append (kw := kwBounds) (pre := [f.text.hTime, f.text.step, f.text.hNumber, f.text.number])
        (rest := f.text.box ++ f.text.hAtoms :: (f.text.rows ++ rest))
        (by simpa using ok.noBounds) hkbs
      simpa [DumpStep.middle] using this
    have hb3 : readLines 3 (f.text.box ++ f.text.hAtoms :: (f.text.rows ++ rest)) = (f.text.box, f.text.hAtoms :: (f.text.rows ++ rest)) := by
      rw [← ok.three, readLines_append]
    have hgb : g.box f.text.box = some geo := hbox f (by simp)
    simp only [lammpsNumber, hn, hnum, readLine, ok.parseNumber, Option.map_some, lammpsBox, hg, hbnd, hb3, hgb]
    by_cases hm : a.memmap = true
    · obtain ⟨e, he, hic, hie, -⟩ := hmm hm
      have hnew : newMemmap a n = some (List.replicate (e + 1 - a.initialCut) (List.replicate n (List.replicate a.nd 0))) := by
        unfold newMemmap
        rw [he]
        obtain ⟨e', rfl⟩ : ∃ e', e = e' + 1 := ⟨e - 1, by omega⟩
        simp only
        rw [if_neg (by omega)]
      simp only [hm, if_true, hnew, Option.map_some, h3]
      refine ⟨{ s with counter := s.counter + 1, cursor := f.text.rows ++ rest, time := s.time ++ [f.t], labels := some labels,
                       natoms := some n, geometry := some geo,
                       data := List.replicate (e + 1 - a.initialCut) (List.replicate n (List.replicate a.nd 0)) },
        by simp, ?_, rfl, rfl, rfl, rfl, ?_, ?_⟩
      · simp [hc]
      · simp [ht]
      · simp [storedData, hm, he]
    · simp only [hm, Bool.false_eq_true, if_false, h3]
      refine ⟨{ s with counter := s.counter + 1, cursor := f.text.rows ++ rest, time := s.time ++ [f.t], labels := some labels,
                       natoms := some n, geometry := some geo },
        by simp, ?_, rfl, rfl, rfl, rfl, ?_, ?_⟩
      · simp [hc]
      · simp [ht]
      · simp [storedData, hm, hd]

theorem stop_test {σ : Type*} (a : ReadArgs R) (k : ℕ) (s : σ) :
    endTests a k s = if stopCounter a ≤ k then Pass.stop s else Pass.next s := by
  unfold endTests
  unfold stopCounter
  cases a.endCut with
  | none => simp only; by_cases h : a.limit + a.initialCut < k <;> simp [h, Nat.succ_le_iff]
  | some e =>
    simp only
    by_cases h : a.limit + a.initialCut < k
    · simp [h, Nat.succ_le_iff]
    · by_cases h2 : e ≤ k <;> simp [h, h2, Nat.succ_le_iff]

theorem stored_next (a : ReadArgs R) (n : ℕ) (rd : List (Frame R)) (f : Frame R) (sk k : ℕ) (hsk : sk = a.initialCut - 1) (hk : k = sk + rd.length + 1)
    (hmm : a.memmap = true → ∃ e, a.endCut = some e ∧ 1 ≤ a.initialCut ∧ a.initialCut ≤ e ∧ sk + rd.length < e) :
    (a.memmap && !decide (k - a.initialCut < (storedData a n rd).length)) = false ∧
    (if a.memmap then (storedData a n rd).set (k - a.initialCut) f else storedData a n rd ++ [f]) = storedData a n (rd ++ [f]) := by
  by_cases hm : a.memmap = true
  · obtain ⟨e, he, h1, h2, h3⟩ := hmm hm
    have e1 : k - a.initialCut = rd.length := by omega
    have e2 : e + 1 - a.initialCut - rd.length = (e + 1 - a.initialCut - (rd.length + 1)) + 1 := by omega
    simp only [storedData, hm, he, Option.getD_some, if_true, e1, List.length_append, List.length_replicate, List.length_singleton]
    constructor
    · simp; omega
    · rw [e2, List.replicate_succ, List.set_append_right _ _ le_rfl]
      simp
  · simp [storedData, hm]

theorem lammps_hread (c : Codec R) (g : LGeometry R G) (a : ReadArgs R) (file : List Line) (n nd : ℕ) (geo : G) (labels : Line)
    (sk rd : List (DumpFrame R)) (f : DumpFrame R) (fs : List (DumpFrame R)) (s : LState R G) (hsk : sk.length = a.initialCut - 1)
    (h : LInv c g a file n nd geo labels sk rd (f :: fs) s) :
    ∃ s', lammpsPass c g a file s = (if stopCounter a ≤ sk.length + rd.length + 1 then .stop s' else .next s') ∧
      LOut a n labels sk (rd ++ [f]) s' ∧
      (sk.length + rd.length + 1 < stopCounter a → LInv c g a file n nd geo labels sk (rd ++ [f]) fs s') := by
  obtain ⟨s', h1, h2, h3, h4, h5, h6, h7, h8⟩ := lammpsPass_head c g a file n nd geo labels sk rd f fs s h
  obtain ⟨-, -, hok, hmm, -⟩ := h
  obtain ⟨ok, r, hr1, hr2⟩ := hok f (by simp)
  have hs := stored_next a n (rd.map (·.out)) f.out sk.length s'.counter hsk (by simp [h2]) (by simpa using hmm)
  have hread : lammpsRead c g a n geo s' = if stopCounter a ≤ sk.length + rd.length + 1 then
      .stop { s' with cursor := (fs.map (·.text.lines)).flatten, data := storedData a n ((rd ++ [f]).map (·.out)) }
      else .next { s' with cursor := (fs.map (·.text.lines)).flatten, data := storedData a n ((rd ++ [f]).map (·.out)) } := by
    unfold lammpsRead
    rw [h3, readCoordinates_eq c _ ok.count ok.parseRows ok.dims]
    simp only [hr1, hr2]
    rw [h8, hs.1, hs.2]
    simp only [Bool.false_eq_true, if_false]
    rw [stop_test, h2]
    simp
  refine ⟨{ s' with cursor := (fs.map (·.text.lines)).flatten, data := storedData a n ((rd ++ [f]).map (·.out)) }, ?_, ?_, ?_⟩
  · rw [h1, if_neg (by omega), hread]
  · exact ⟨by simp [h7], fun _ => ⟨rfl, h6⟩⟩
  · intro hlt
    refine ⟨by simp [h2]; omega, ⟨[], by simp, by simp⟩, fun x hx => hok x (by simp [hx]), ?_, ?_⟩
    · intro hm
      obtain ⟨e, he, h1, h2, h3⟩ := hmm hm
      refine ⟨e, he, h1, h2, ?_⟩
      have : stopCounter a ≤ e := by unfold stopCounter; rw [he]; exact min_le_right _ _
      simp only [List.length_append, List.length_singleton]; omega
    · exact Or.inl ⟨h4, h5, ⟨by simp [h7], fun _ => ⟨rfl, h6⟩⟩, by simp⟩

theorem lammps_hskip (c : Codec R) (g : LGeometry R G) (a : ReadArgs R) (file : List Line) (n nd : ℕ) (geo : G) (labels : Line)
    (sk : List (DumpFrame R)) (f : DumpFrame R) (fs : List (DumpFrame R)) (s : LState R G) (hsk : sk.length + 1 < a.initialCut)
    (h : LInv c g a file n nd geo labels sk [] (f :: fs) s) :
    ∃ s', lammpsPass c g a file s = .next s' ∧ LInv c g a file n nd geo labels (sk ++ [f]) [] fs s' := by
  obtain ⟨s', h1, h2, h3, h4, h5, h6, h7, h8⟩ := lammpsPass_head c g a file n nd geo labels sk [] f fs s h
  obtain ⟨-, -, hok, hmm, -⟩ := h
  obtain ⟨ok, -⟩ := hok f (by simp)
  refine ⟨{ s' with time := [] }, ?_, ?_, ?_, fun x hx => hok x (by simp [hx]), ?_, ?_⟩
  · rw [h1, if_pos (by rw [h2]; simpa using hsk)]
  · simp [h2]
  · exact ⟨f.text.rows, fun l hl => ok.noTime l (by simp [hl]), h3⟩
  · intro hm
    obtain ⟨e, he, h1, h2, h3⟩ := hmm hm
    exact ⟨e, he, h1, h2, by simp; omega⟩
  · exact Or.inl ⟨h4, h5, ⟨by simp, fun _ => ⟨h8, h6⟩⟩, by simp⟩

theorem lammps_hnil (c : Codec R) (g : LGeometry R G) (a : ReadArgs R) (file : List Line) (n nd : ℕ) (geo : G) (labels : Line)
    (sk rd : List (DumpFrame R)) (s : LState R G) (h : LInv c g a file n nd geo labels sk rd [] s) :
    ∃ s', lammpsPass c g a file s = .stop s' ∧ LOut a n labels sk rd s' := by
  obtain ⟨-, ⟨pre, hpre, hcur⟩, -, -, hcase⟩ := h
  refine ⟨{ s with counter := s.counter + 1 }, ?_, ?_⟩
  · unfold lammpsPass
    simp only [hcur, List.map_nil, List.flatten_nil, List.append_nil, findLine_none hpre]
  · rcases hcase with ⟨-, -, h, -⟩ | ⟨-, -, rfl, rfl, ht, -⟩
    · exact h
    · exact ⟨by simpa using ht, by simp⟩

/-- A LAMMPS dump file: the text of its steps, all well formed and with the same number of atoms and the same columns, with the box of
the first step. -/
structure DumpFile (c : Codec R) (g : LGeometry R G) (a : ReadArgs R) (n nd : ℕ) (geo : G) (labels : Line) (frames : List (DumpFrame R)) : Prop where
  ok : ∀ f ∈ frames, f.text.Ok c n nd labels f.t f.raw
  stored : ∀ f ∈ frames, Stored g a geo f
  box : ∀ f ∈ frames.head?, g.box f.text.box = some geo

theorem flatten_length (frames : List (DumpFrame R)) : frames.length ≤ ((frames.map (·.text.lines)).flatten).length := by
  induction frames with
  | nil => simp
  | cons f fs ih => simp [DumpStep.lines] at ih ⊢; omega

/-- What the loop of the LAMMPS reader gives. -/
theorem lammps_loop (c : Codec R) (g : LGeometry R G) (a : ReadArgs R) (n nd : ℕ) (geo : G) (labels : Line) (frames : List (DumpFrame R))
    (hf : DumpFile c g a n nd geo labels frames) (hmm : a.memmap = true → ∃ e, a.endCut = some e ∧ 1 ≤ a.initialCut ∧ a.initialCut ≤ e) :
    ∃ s, whileTrue (lammpsPass c g a (frames.map (·.text.lines)).flatten) ((frames.map (·.text.lines)).flatten.length + 2)
        { cursor := (frames.map (·.text.lines)).flatten } = some s ∧
      LOut a n labels (frames.take (a.initialCut - 1))
        ((frames.drop (a.initialCut - 1)).take (framesRead (stopCounter a) (a.initialCut - 1))) s := by
  have := whileTrue_skip_read (lammpsPass c g a (frames.map (·.text.lines)).flatten)
    (LInv c g a (frames.map (·.text.lines)).flatten n nd geo labels) (LOut a n labels) (stopCounter a) a.initialCut
    (fun sk rd s h => lammps_hnil c g a _ n nd geo labels sk rd s h)
    (fun sk f fs s hk h => lammps_hskip c g a _ n nd geo labels sk f fs s hk h)
    (fun sk rd f fs s hk h => lammps_hread c g a _ n nd geo labels sk rd f fs s hk h)
    frames [] { cursor := (frames.map (·.text.lines)).flatten } ((frames.map (·.text.lines)).flatten.length + 2) (by simp)
    ⟨rfl, ⟨[], by simp, by simp⟩, fun f h => ⟨hf.ok f h, hf.stored f h⟩, fun h => by
      obtain ⟨e, h1, h2, h3⟩ := hmm h
      exact ⟨e, h1, h2, h3, by simp; omega⟩, Or.inr ⟨rfl, rfl, rfl, rfl, rfl, rfl, rfl, rfl, hf.box⟩⟩
    (by have := flatten_length frames; omega)
  simpa using this

/-- What `read_lammps_trajectory` returns for a well formed file: `m` steps from number `initial_cut` on, where the loop ends at `end_cut` or
`limit + 1` steps behind `initial_cut`, at least one step is read, and `last_steps` is cut afterwards. -/
theorem readLammps_general [Mul R] (c : Codec R) (g : LGeometry R G) (a : ReadArgs R) (n nd : ℕ) (geo : G) (labels : Line) (frames : List (DumpFrame R))
    (hf : DumpFile c g a n nd geo labels frames) (hne : frames ≠ [])
    (hmm : a.memmap = true → ∃ e, a.endCut = some e ∧ 1 ≤ a.initialCut ∧ a.initialCut ≤ e)
    (hlab : hasKeyword "vx vy".toList labels = true ∨ hasKeyword "x y".toList labels = true) :
    readLammps c g a (frames.map (·.text.lines)).flatten =
      let rd := (frames.drop (a.initialCut - 1)).take (framesRead (stopCounter a) (a.initialCut - 1))
      let time := rd.map (fun f => f.t * a.timeStep)
      let data := storedData a n (rd.map (·.out))
      some ⟨hasKeyword "vx vy".toList labels, if a.memmap then time else lastSlice a.lastSteps time,
        if a.memmap then data else lastSlice a.lastSteps data⟩ := by
  obtain ⟨s, h1, h2, h3⟩ := lammps_loop c g a n nd geo labels frames hf hmm
  have hne2 : frames.take (a.initialCut - 1) ++ (frames.drop (a.initialCut - 1)).take (framesRead (stopCounter a) (a.initialCut - 1)) ≠ [] := by
    intro h
    obtain ⟨h4, h5⟩ := List.append_eq_nil_iff.1 h
    have hm : framesRead (stopCounter a) (a.initialCut - 1) ≠ 0 := by unfold framesRead; omega
    rw [List.take_eq_nil_iff] at h4 h5
    rcases h5 with h5 | h5
    · exact hm h5
    · rcases h4 with h4 | h4
      · rw [h4] at h5; simp [hne] at h5
      · exact hne h4
  obtain ⟨h4, h5⟩ := h3 hne2
  unfold readLammps
  rw [h1]
  simp only [h5, h2, h4, List.map_map]
  rcases hb : hasKeyword "vx vy".toList labels with _ | _
  · rw [hb] at hlab
    simp only [Bool.false_eq_true, false_or] at hlab
    rw [if_neg (by simp), if_pos hlab]
    rfl
  · rw [if_pos rfl]
    rfl

theorem window_eq {α : Type*} (frames : List α) (i e : ℕ) : (frames.drop (i - 1)).take (e - (i - 1)) = window frames i e := by
  unfold window; rw [List.drop_take]

/-- C48: without memory mapping, `read_lammps_trajectory` with `initial_cut = i` and `end_cut = e` returns exactly the steps `i`, ..., `min(e, last)` of the
file, in order, each with its own time stamp times the time step, for every well formed file and every window that holds at most
`limit_number_steps + 2` steps. -/
theorem C48_window [Mul R] (c : Codec R) (g : LGeometry R G) (a : ReadArgs R) (n nd : ℕ) (geo : G) (labels : Line) (frames : List (DumpFrame R))
    (hf : DumpFile c g a n nd geo labels frames) (hne : frames ≠ []) (i e : ℕ) (hi : a.initialCut = i) (he : a.endCut = some e)
    (h1 : 1 ≤ i) (h2 : i ≤ e) (hlim : e + 1 - i ≤ a.limit + 2) (hm : a.memmap = false) (hl : a.lastSteps = none)
    (hlab : hasKeyword "vx vy".toList labels = true ∨ hasKeyword "x y".toList labels = true) :
    readLammps c g a (frames.map (·.text.lines)).flatten =
      some ⟨hasKeyword "vx vy".toList labels, (window frames i e).map (fun f => f.t * a.timeStep), (window frames i e).map (·.out)⟩ := by
  subst hi
  rw [readLammps_general c g a n nd geo labels frames hf hne (by simp [hm]) hlab]
  have hfr : framesRead (stopCounter a) (a.initialCut - 1) = e - (a.initialCut - 1) := by
    unfold framesRead stopCounter; rw [he]; simp only; omega
  simp only [hm, Bool.false_eq_true, if_false, hl, lastSlice, storedData, hfr, window_eq]

/-- C48: without `end_cut` all steps from `initial_cut` on are read, if they are at most `limit_number_steps + 2`. -/
theorem C48_to_end [Mul R] (c : Codec R) (g : LGeometry R G) (a : ReadArgs R) (n nd : ℕ) (geo : G) (labels : Line) (frames : List (DumpFrame R))
    (hf : DumpFile c g a n nd geo labels frames) (hne : frames ≠ []) (h1 : 1 ≤ a.initialCut) (he : a.endCut = none)
    (hlim : frames.length + 1 ≤ a.initialCut + a.limit + 2) (hm : a.memmap = false) (hl : a.lastSteps = none)
    (hlab : hasKeyword "vx vy".toList labels = true ∨ hasKeyword "x y".toList labels = true) :
    readLammps c g a (frames.map (·.text.lines)).flatten =
      some ⟨hasKeyword "vx vy".toList labels, (frames.drop (a.initialCut - 1)).map (fun f => f.t * a.timeStep),
        (frames.drop (a.initialCut - 1)).map (·.out)⟩ := by
  rw [readLammps_general c g a n nd geo labels frames hf hne (by simp [hm]) hlab]
  have hfr : (frames.drop (a.initialCut - 1)).length ≤ framesRead (stopCounter a) (a.initialCut - 1) := by
    unfold framesRead stopCounter; rw [he]; simp; omega
  simp only [hm, Bool.false_eq_true, if_false, hl, lastSlice, storedData, List.take_of_length_le hfr]

/-- C48: `last_steps = k > 0` keeps the last `k` steps of the window, with their time stamps. -/
theorem C48_last_steps [Mul R] (c : Codec R) (g : LGeometry R G) (a : ReadArgs R) (n nd : ℕ) (geo : G) (labels : Line) (frames : List (DumpFrame R))
    (hf : DumpFile c g a n nd geo labels frames) (hne : frames ≠ []) (i e k : ℕ) (hi : a.initialCut = i) (he : a.endCut = some e)
    (h1 : 1 ≤ i) (h2 : i ≤ e) (hlim : e + 1 - i ≤ a.limit + 2) (hm : a.memmap = false) (hl : a.lastSteps = some (k + 1))
    (hlab : hasKeyword "vx vy".toList labels = true ∨ hasKeyword "x y".toList labels = true) :
    readLammps c g a (frames.map (·.text.lines)).flatten =
      let w := (window frames i e).drop ((window frames i e).length - (k + 1))
      some ⟨hasKeyword "vx vy".toList labels, w.map (fun f => f.t * a.timeStep), w.map (·.out)⟩ := by
  subst hi
  rw [readLammps_general c g a n nd geo labels frames hf hne (by simp [hm]) hlab]
  have hfr : framesRead (stopCounter a) (a.initialCut - 1) = e - (a.initialCut - 1) := by
    unfold framesRead stopCounter; rw [he]; simp only; omega
  simp only [hm, Bool.false_eq_true, if_false, hl, lastSlice, storedData, hfr, window_eq, List.length_map, List.map_drop]

/-- C48, "the last `k` steps" fails for `last_steps = 0`: not no step, but every step of the window is returned, for all files
(`a[-0:]` is the whole array). -/
theorem C48_last_zero_violated [Mul R] (c : Codec R) (g : LGeometry R G) (a : ReadArgs R) (n nd : ℕ) (geo : G) (labels : Line) (frames : List (DumpFrame R))
    (hf : DumpFile c g a n nd geo labels frames) (hne : frames ≠ []) (i e : ℕ) (hi : a.initialCut = i) (he : a.endCut = some e)
    (h1 : 1 ≤ i) (h2 : i ≤ e) (hlim : e + 1 - i ≤ a.limit + 2) (hm : a.memmap = false) (hl : a.lastSteps = some 0)
    (hlab : hasKeyword "vx vy".toList labels = true ∨ hasKeyword "x y".toList labels = true) :
    readLammps c g a (frames.map (·.text.lines)).flatten =
      some ⟨hasKeyword "vx vy".toList labels, (window frames i e).map (fun f => f.t * a.timeStep), (window frames i e).map (·.out)⟩ := by
  subst hi
  rw [readLammps_general c g a n nd geo labels frames hf hne (by simp [hm]) hlab]
  have hfr : framesRead (stopCounter a) (a.initialCut - 1) = e - (a.initialCut - 1) := by
    unfold framesRead stopCounter; rw [he]; simp only; omega
  simp only [hm, Bool.false_eq_true, if_false, hl, lastSlice, storedData, hfr, window_eq]

/-- C48 (part): with memory mapping the same holds if the file has at least `end_cut` steps. Missing, and false: shorter files
(`C48_memmap_violated`). -/
theorem C48_memmap_partial [Mul R] (c : Codec R) (g : LGeometry R G) (a : ReadArgs R) (n nd : ℕ) (geo : G) (labels : Line) (frames : List (DumpFrame R))
    (hf : DumpFile c g a n nd geo labels frames) (hne : frames ≠ []) (i e : ℕ) (hi : a.initialCut = i) (he : a.endCut = some e)
    (h1 : 1 ≤ i) (h2 : i ≤ e) (hlim : e + 1 - i ≤ a.limit + 2) (hm : a.memmap = true) (hlen : e ≤ frames.length)
    (hlab : hasKeyword "vx vy".toList labels = true ∨ hasKeyword "x y".toList labels = true) :
    readLammps c g a (frames.map (·.text.lines)).flatten =
      some ⟨hasKeyword "vx vy".toList labels, (window frames i e).map (fun f => f.t * a.timeStep), (window frames i e).map (·.out)⟩ := by
  subst hi
  rw [readLammps_general c g a n nd geo labels frames hf hne (fun _ => ⟨e, he, h1, h2⟩) hlab]
  have hfr : framesRead (stopCounter a) (a.initialCut - 1) = e - (a.initialCut - 1) := by
    unfold framesRead stopCounter; rw [he]; simp only; omega
  have hz : e + 1 - a.initialCut - (window frames a.initialCut e).length = 0 := by
    unfold window; simp; omega
  simp only [hm, if_true, storedData, hfr, window_eq, he, Option.getD_some, List.length_map, hz, List.replicate_zero, List.append_nil]

/-- C51, LAMMPS: exactly how many steps are read from a long file: `limit + 2`, two more than the limit. -/
theorem C51_lammps_count [Mul R] (c : Codec R) (g : LGeometry R G) (a : ReadArgs R) (n nd : ℕ) (geo : G) (labels : Line) (frames : List (DumpFrame R))
    (hf : DumpFile c g a n nd geo labels frames) (hne : frames ≠ []) (h1 : 1 ≤ a.initialCut) (he : a.endCut = none)
    (hm : a.memmap = false) (hl : a.lastSteps = none)
    (hlab : hasKeyword "vx vy".toList labels = true ∨ hasKeyword "x y".toList labels = true) :
    ∃ p, readLammps c g a (frames.map (·.text.lines)).flatten = some p ∧
      p.data.length = min (a.limit + 2) (frames.length - (a.initialCut - 1)) ∧ p.time.length = p.data.length := by
  rw [readLammps_general c g a n nd geo labels frames hf hne (by simp [hm]) hlab]
  refine ⟨_, rfl, ?_, ?_⟩
  · have hfr : framesRead (stopCounter a) (a.initialCut - 1) = a.limit + 2 := by
      unfold framesRead stopCounter; rw [he]; simp only; omega
    simp [hm, hl, lastSlice, storedData, hfr]
  · simp [hm, hl, lastSlice, storedData]

end lammps

/-! ## A concrete text format for the examples -/

/-- Natural numbers in decimal notation. -/
def exNum (l : Line) : Option ℤ :=
  if l ≠ [] ∧ l.all (fun c => '0' ≤ c && c ≤ '9') then some (l.foldl (fun a c => 10 * a + (c.toNat - 48)) 0) else none

def exCodec : Codec ℤ where
  float := exNum
  int l := (exNum l).map Int.toNat
  row l := (((l.splitOn ' ').filter (· ≠ [])).take 3).mapM exNum

/-- No rotation; `np.dot` fails if there are not three columns. -/
def exGeometry : LGeometry ℤ Unit where
  box l := if l.length = 3 then some () else none
  rotate _ f := if f.all (·.length = 3) then some f else none

def exStep (step : String) (rows : List String) (labels : String := "ITEM: ATOMS x y z") : DumpStep where
  hTime := "ITEM: TIMESTEP".toList
  step := step.toList
  hNumber := "ITEM: NUMBER OF ATOMS".toList
  number := "2".toList
  hBox := "ITEM: BOX BOUNDS pp pp pp".toList
  box := ["0 9".toList, "0 9".toList, "0 9".toList]
  hAtoms := labels.toList
  rows := rows.map (·.toList)

def exFrames : List (DumpFrame ℤ) :=
  [⟨exStep "0" ["1 2 3", "7 8 9"], 0, [[1, 2, 3], [7, 8, 9]], [[1, 2, 3], [7, 8, 9]]⟩,
   ⟨exStep "5" ["2 2 3", "7 8 8"], 5, [[2, 2, 3], [7, 8, 8]], [[2, 2, 3], [7, 8, 8]]⟩,
   ⟨exStep "10" ["3 2 3", "7 8 7"], 10, [[3, 2, 3], [7, 8, 7]], [[3, 2, 3], [7, 8, 7]]⟩]

def exDump : List Line := (exFrames.map (·.text.lines)).flatten

/-- A file with three steps and two atoms is a well formed dump for the theorems above. -/
theorem exDump_ok (a : ReadArgs ℤ) (ha : a.indexing = none) : DumpFile exCodec exGeometry a 2 3 () "ITEM: ATOMS x y z".toList exFrames where
  ok := by
    intro f hf
    simp only [exFrames, List.mem_cons, List.not_mem_nil, or_false] at hf
    rcases hf with rfl | rfl | rfl <;> exact
      { time := by decide +kernel, noTime := by decide +kernel, atoms := by decide +kernel, noAtoms := by decide +kernel,
        number := by decide +kernel, noNumber := by decide +kernel, parseNumber := by decide +kernel, bounds := by decide +kernel,
        noBounds := by decide +kernel, three := by decide +kernel, count := by decide +kernel, parseStep := by decide +kernel,
        parseRows := by decide +kernel, dims := by decide +kernel }
  stored := by
    intro f hf
    simp only [exFrames, List.mem_cons, List.not_mem_nil, or_false] at hf
    unfold Stored reorder
    rw [ha]
    rcases hf with rfl | rfl | rfl <;> exact ⟨_, rfl, by decide +kernel⟩
  box := by decide +kernel

example : readLammps exCodec exGeometry { timeStep := 2, initialCut := 2, endCut := some 3 } exDump =
    some ⟨false, [10, 20], [[[2, 2, 3], [7, 8, 8]], [[3, 2, 3], [7, 8, 7]]]⟩ := by
  unfold exDump
  rw [C48_window exCodec exGeometry _ 2 3 () _ exFrames (exDump_ok _ rfl) (by decide) 2 3 rfl rfl (by decide) (by decide) (by decide) rfl rfl
    (Or.inr (by decide +kernel))]
  decide +kernel

/-- C48, violated with memory mapping: reading steps 1 to 5 of a file with three steps gives three time stamps and five frames,
the last two of zeros. -/
theorem C48_memmap_violated : readLammps exCodec exGeometry { timeStep := 2, initialCut := 1, endCut := some 5, memmap := true } exDump =
    some ⟨false, [0, 10, 20], [[[1, 2, 3], [7, 8, 9]], [[2, 2, 3], [7, 8, 8]], [[3, 2, 3], [7, 8, 7]],
      [[0, 0, 0], [0, 0, 0]], [[0, 0, 0], [0, 0, 0]]]⟩ := by decide +kernel

/-- A memory map needs a window that is not empty. -/
theorem newMemmap_none {R : Type*} [Zero R] (a : ReadArgs R) (n : ℕ) (h : ∀ e, a.endCut = some e → e = 0 ∨ e < a.initialCut) : newMemmap a n = none := by
  unfold newMemmap
  split
  · rfl
  · rfl
  · rename_i e he1 he2
    rw [if_pos]
    rcases h _ he2 with h0 | h1
    · exact absurd h0 (by simpa using he1)
    · omega

/-- C48: with memory mapping an empty window, or a window without end, is never answered with data, whatever is in the file (the program exits). -/
theorem C48_memmap_empty {R G : Type*} [Zero R] [Mul R] (c : Codec R) (g : LGeometry R G) (a : ReadArgs R) (file : List Line) (hm : a.memmap = true)
    (h : ∀ e, a.endCut = some e → e = 0 ∨ e < a.initialCut) : readLammps c g a file = none := by
  unfold readLammps
  rw [show file.length + 2 = (file.length + 1) + 1 from rfl, whileTrue]
  have hb : ∀ n (s : LState R G), s.geometry = none → lammpsBox g a file n s = none := by
    intro n s hs
    unfold lammpsBox
    rw [hs]
    simp only [hm, if_true, newMemmap_none a n h, Option.map_none]
    split
    · rfl
    · split <;> rfl
  have hn : ∀ (s s' : LState R G) n, s.geometry = none → lammpsNumber c file s = some (s', n) → s'.geometry = none := by
    intro s s' n hs hx
    unfold lammpsNumber at hx
    split at hx
    · cases hx; exact hs
    · split at hx
      · cases hx
      · simp only [Option.map_eq_some_iff, Prod.mk.injEq] at hx
        obtain ⟨m, -, rfl, -⟩ := hx
        exact hs
  have hp : lammpsPass c g a file { cursor := file } = .fail ∨ lammpsPass c g a file { cursor := file } = .stop { cursor := file, counter := 1 } := by
    unfold lammpsPass
    dsimp only
    split
    · exact Or.inr rfl
    · split
      · exact Or.inl rfl
      · split
        · exact Or.inl rfl
        · rename_i hnum
          rw [hb _ _ (hn _ _ _ rfl hnum)]
          exact Or.inl rfl
  rcases hp with hp | hp <;> rw [hp]

/-- C48, violated for an interrupted simulation: if the file ends behind the header of the atoms of the last step, that step adds a time
stamp but no frame. -/
theorem C48_truncated_violated : readLammps exCodec exGeometry { timeStep := 2 } (exDump.take 31) =
    some ⟨false, [0, 10, 20], [[[1, 2, 3], [7, 8, 9]], [[2, 2, 3], [7, 8, 8]]]⟩ := by decide +kernel

/-- C51, violated: with `limit_number_steps = 0` and `1`, two and three steps are read. -/
theorem C51_violated :
    (readLammps exCodec exGeometry { timeStep := 2, limit := 0 } exDump).map (·.data.length) = some 2 ∧
    (readLammps exCodec exGeometry { timeStep := 2, limit := 1 } exDump).map (·.data.length) = some 3 := by
  decide +kernel

/-! ## C76: columns of a LAMMPS dump -/

/-- The columns of a line of tokens that carry the given names in the header. -/
def columnsNamed {α : Type*} (header names : List Line) (tokens : List α) : Option (List α) :=
  names.mapM fun nm => tokens[header.idxOf nm]?

/-- C76 (part): the three first columns, which the parser takes, are those called x, y, z if the header starts with these names. Missing, and
false: other headers (`C76_id_violated`, `C76_velocity_violated`). -/
theorem C76_partial {α : Type*} (more : List Line) (tokens : List α) (h : 3 ≤ tokens.length) :
    columnsNamed (["x".toList, "y".toList, "z".toList] ++ more) ["x".toList, "y".toList, "z".toList] tokens = some (tokens.take 3) ∧
    columnsNamed (["vx".toList, "vy".toList, "vz".toList] ++ more) ["vx".toList, "vy".toList, "vz".toList] tokens = some (tokens.take 3) := by
  match tokens, h with
  | a :: b :: c :: r, _ => exact ⟨rfl, rfl⟩

example : columnsNamed ["x".toList, "y".toList, "z".toList, "vx".toList] ["x".toList, "y".toList, "z".toList] [5, 6, 7, 8] = some [5, 6, 7] :=
  (C76_partial ["vx".toList] [5, 6, 7, 8] (by decide)).1

/-- C76, violated: with the columns `id x y z` the parser takes the identifier for x, x for y and y for z. -/
theorem C76_id_violated :
    readLammps exCodec exGeometry { timeStep := 1 } (exStep "0" ["1 20 30 40", "2 50 60 70"] "ITEM: ATOMS id x y z").lines =
      some ⟨false, [0], [[[1, 20, 30], [2, 50, 60]]]⟩ ∧
    columnsNamed ["id".toList, "x".toList, "y".toList, "z".toList] ["x".toList, "y".toList, "z".toList] [1, 20, 30, 40] = some [20, 30, 40] := by
  decide +kernel

/-- C76, exactly: for a dump with at least three columns, the three first columns are those called `a`, `b`, `c` (three different names) in every line of numbers if and only if the header starts with these
names. -/
theorem C76_iff (header : List Line) (h3 : 3 ≤ header.length) (a b c : Line) (hab : a ≠ b) (hac : a ≠ c) (hbc : b ≠ c) :
    (∀ tokens : List ℕ, tokens.length = header.length → columnsNamed header [a, b, c] tokens = some (tokens.take 3)) ↔ [a, b, c] <+: header := by
  constructor
  · intro h
    have h1 := h (List.range header.length) (by simp)
    have e : ∀ k v : ℕ, (List.range header.length)[k]? = some v → k = v ∧ k < header.length := by
      intro k v hk
      obtain ⟨hk', hv⟩ := List.getElem?_eq_some_iff.1 hk
      rw [List.getElem_range] at hv
      rw [List.length_range] at hk'
      exact ⟨hv, hk'⟩
    have ht : (List.range header.length).take 3 = [0, 1, 2] := by
      rw [List.take_range, Nat.min_eq_left h3]; decide
    rw [ht] at h1
    unfold columnsNamed at h1
    simp only [List.mapM_cons, List.mapM_nil, Option.bind_eq_bind, Option.pure_def, Option.bind_eq_some_iff, Option.some.injEq, List.cons.injEq] at h1
    obtain ⟨u, hu, _, ⟨v, hv, _, ⟨w, hw, _, rfl, rfl⟩, rfl⟩, rfl, rfl, rfl, _⟩ := h1
    have ha := e _ _ hu
    have hb := e _ _ hv
    have hc := e _ _ hw
    have hga : header[0]? = some a := by rw [← ha.1, List.getElem?_eq_getElem ha.2, List.getElem_idxOf]
    have hgb : header[1]? = some b := by rw [← hb.1, List.getElem?_eq_getElem hb.2, List.getElem_idxOf]
    have hgc : header[2]? = some c := by rw [← hc.1, List.getElem?_eq_getElem hc.2, List.getElem_idxOf]
    clear ha hb hc hu hv hw e ht h
    match header, h3, hga, hgb, hgc with
    | x :: y :: z :: r, _, hga, hgb, hgc =>
      simp only [List.getElem?_cons_zero, List.getElem?_cons_succ, Option.some.injEq] at hga hgb hgc
      subst hga hgb hgc
      exact ⟨r, rfl⟩
  · rintro ⟨more, rfl⟩ tokens ht
    match tokens, ht with
    | p :: q :: r :: t, _ =>
      have h1 : (a == b) = false := by simpa using hab
      have h2 : (a == c) = false := by simpa using hac
      have h3 : (b == c) = false := by simpa using hbc
      simp [columnsNamed, List.idxOf_cons, h1, h2, h3]

/-- C76, violated: with the columns `x y z vx vy vz` the parser returns the positions as velocities. -/
theorem C76_velocity_violated :
    readLammps exCodec exGeometry { timeStep := 1 } (exStep "0" ["1 2 3 4 5 6", "7 8 9 1 2 3"] "ITEM: ATOMS x y z vx vy vz").lines =
      some ⟨true, [0], [[[1, 2, 3], [7, 8, 9]]]⟩ := by
  decide +kernel

/-! ## C49, C77: XDATCAR -/

/-- A step of an XDATCAR file with the numbers it holds: `t` its number, `raw` the coordinates, `out` the same in the order of the template. -/
structure XFrame (R : Type*) where
  header : Line
  rows : List Line
  t : R
  raw : Frame R
  out : Frame R

def XFrame.lines {R : Type*} (f : XFrame R) : List Line := f.header :: f.rows

structure XFrame.Ok {R : Type*} (c : Codec R) (stepNumber : Line → Option R) (a : ReadArgs R) (n nd : ℕ) (f : XFrame R) : Prop where
  header : ∃ s, fromKeyword kwDirect f.header = some s ∧ stepNumber s = some f.t
  noHeader : ∀ l ∈ f.rows, hasKeyword kwDirect l = false
  count : f.rows.length = n
  parseRows : f.rows.mapM c.row = some f.raw
  dims : ∀ r ∈ f.raw, r.length = nd
  order : reorder a.indexing f.raw = some f.out

section xdatcar
variable {R : Type*} [Zero R]

/-- The memory after reading `rd`: all frames, or with memory mapping zeros except for the last frame read. -/
def xStored (a : ReadArgs R) (n : ℕ) (rd : List (Frame R)) : List (Frame R) :=
  if a.memmap then
    let zeros := List.replicate ((a.endCut.getD 0) + 1 - a.initialCut) (List.replicate n (List.replicate a.nd 0))
    match rd.getLast? with
    | some f => zeros.set (rd.length - 1) f
    | none => zeros
  else rd

def XOut (a : ReadArgs R) (n : ℕ) (sk rd : List (XFrame R)) (s : XState R) : Prop :=
  s.time = (sk ++ rd).map (·.t) ∧ (sk ++ rd ≠ [] → s.data = xStored a n (rd.map (·.out)))

def XInv (c : Codec R) (stepNumber : Line → Option R) (a : ReadArgs R) (n nd : ℕ) (sk rd fs : List (XFrame R)) (s : XState R) : Prop :=
  s.counter = sk.length + rd.length ∧
  (∃ pre, (∀ l ∈ pre, hasKeyword kwDirect l = false) ∧ s.cursor = pre ++ (fs.map (·.lines)).flatten) ∧
  (∀ f ∈ fs, f.Ok c stepNumber a n nd) ∧
  (a.memmap = true → ∃ e, a.endCut = some e ∧ 1 ≤ a.initialCut ∧ a.initialCut ≤ e ∧ sk.length + rd.length < e) ∧
  (a.memmap = false → s.data = rd.map (·.out)) ∧ XOut a n sk rd s

theorem newMemmap_eq (a : ReadArgs R) (n e : ℕ) (he : a.endCut = some e) (h1 : 1 ≤ a.initialCut) (h2 : a.initialCut ≤ e) :
    newMemmap a n = some (List.replicate ((a.endCut.getD 0) + 1 - a.initialCut) (List.replicate n (List.replicate a.nd 0))) := by
  unfold newMemmap
  rw [he]
  obtain ⟨e', rfl⟩ : ∃ e', e = e' + 1 := ⟨e - 1, by omega⟩
  simp only
  rw [if_neg (by omega)]
  rfl

theorem xdatcarPass_eq (c : Codec R) (stepNumber : Line → Option R) (a : ReadArgs R) (n nd : ℕ) (sk rd : List (XFrame R)) (f : XFrame R)
    (fs : List (XFrame R)) (s : XState R) (h : XInv c stepNumber a n nd sk rd (f :: fs) s) :
    (sk.length + rd.length + 1 < a.initialCut → rd = [] → ∃ s', xdatcarPass c stepNumber a n s = .next s' ∧
      XInv c stepNumber a n nd (sk ++ [f]) [] fs s') ∧
    (sk.length = a.initialCut - 1 →
      ∃ s', xdatcarPass c stepNumber a n s = (if stopCounter a ≤ sk.length + rd.length + 1 then .stop s' else .next s') ∧ XOut a n sk (rd ++ [f]) s' ∧
        (sk.length + rd.length + 1 < stopCounter a → XInv c stepNumber a n nd sk (rd ++ [f]) fs s')) := by
  obtain ⟨hc, ⟨pre, hpre, hcur⟩, hok, hmm, hd, ht, hdata⟩ := h
  have ok := hok f (by simp)
  obtain ⟨hs, hs1, hs2⟩ := ok.header
  have h1 : findLine kwDirect s.cursor = some (hs, f.rows ++ (fs.map (·.lines)).flatten) := by
    rw [hcur]
    have := findLine_append (kw := kwDirect) (rest := f.rows ++ (fs.map (·.lines)).flatten) hpre hs1
    simpa [XFrame.lines] using this
  have hok' : ∀ x ∈ fs, x.Ok c stepNumber a n nd := fun x hx => hok x (by simp [hx])
  -- the array before the coordinates are stored
  obtain ⟨d, hd1, hd2, hd3⟩ : ∃ d, (if a.memmap then newMemmap a n else some s.data) = some d ∧ (a.memmap = false → d = rd.map (·.out)) ∧
      (a.memmap = true → d = List.replicate ((a.endCut.getD 0) + 1 - a.initialCut) (List.replicate n (List.replicate a.nd 0))) := by
    by_cases hm : a.memmap = true
    · obtain ⟨e, he, h1, h2, -⟩ := hmm hm
      exact ⟨_, by rw [if_pos hm, newMemmap_eq a n e he h1 h2], by simp [hm], fun _ => rfl⟩
    · have hm' : a.memmap = false := by simpa using hm
      exact ⟨s.data, by simp [hm'], fun _ => hd hm', by simp [hm']⟩
  constructor
  · intro hlt hrd
    subst hrd
    refine ⟨{ s with counter := s.counter + 1, cursor := f.rows ++ (fs.map (·.lines)).flatten, time := s.time ++ [f.t], data := d }, ?_, ?_⟩
    · unfold xdatcarPass
      simp only [h1, hs2, hd1]
      rw [if_pos (by rw [hc]; exact hlt)]
    · refine ⟨by simp [hc], ⟨f.rows, ok.noHeader, rfl⟩, hok', ?_, by simpa using hd2, by simp [ht], ?_⟩
      · intro hm
        obtain ⟨e, he, h1, h2, h3⟩ := hmm hm
        exact ⟨e, he, h1, h2, by simp at hlt ⊢; omega⟩
      · intro _
        by_cases hm : a.memmap = true
        · simp [xStored, hm, hd3 hm]
        · have hm' : a.memmap = false := by simpa using hm
          simp [xStored, hm', hd2 hm']
  · intro hsk
    have hstore : (a.memmap && !decide (s.counter + 1 - a.initialCut < d.length)) = false ∧
        (if a.memmap then d.set (s.counter + 1 - a.initialCut) f.out else d ++ [f.out]) = xStored a n ((rd ++ [f]).map (·.out)) := by
      by_cases hm : a.memmap = true
      · obtain ⟨e, he, h1, h2, h3⟩ := hmm hm
        have e1 : s.counter + 1 - a.initialCut = rd.length := by omega
        simp only [hm, hd3 hm, he, e1, xStored, if_true, Option.getD_some, List.length_replicate]
        constructor
        · simp; omega
        · simp
      · have hm' : a.memmap = false := by simpa using hm
        simp [hm', hd2 hm', xStored]
    refine ⟨{ s with counter := s.counter + 1, cursor := (fs.map (·.lines)).flatten, time := s.time ++ [f.t],
                     data := xStored a n ((rd ++ [f]).map (·.out)) }, ?_, ⟨by simp [ht], fun _ => rfl⟩, ?_⟩
    · unfold xdatcarPass
      simp only [h1, hs2, hd1]
      rw [if_neg (by rw [hc]; omega), readCoordinates_eq c _ ok.count ok.parseRows ok.dims]
      simp only [ok.order, hstore.1, hstore.2, Bool.false_eq_true, if_false]
      rw [stop_test, hc]
    · intro hlt
      refine ⟨by simp [hc]; omega, ⟨[], by simp, by simp⟩, hok', ?_, ?_, by simp [ht], fun _ => rfl⟩
      · intro hm
        obtain ⟨e, he, h1, h2, h3⟩ := hmm hm
        refine ⟨e, he, h1, h2, ?_⟩
        have : stopCounter a ≤ e := by unfold stopCounter; rw [he]; exact min_le_right _ _
        simp only [List.length_append, List.length_singleton]; omega
      · intro hm; simp [xStored, hm]

theorem xdatcar_hnil (c : Codec R) (stepNumber : Line → Option R) (a : ReadArgs R) (n nd : ℕ) (sk rd : List (XFrame R)) (s : XState R)
    (h : XInv c stepNumber a n nd sk rd [] s) : ∃ s', xdatcarPass c stepNumber a n s = .stop s' ∧ XOut a n sk rd s' := by
  obtain ⟨-, ⟨pre, hpre, hcur⟩, -, -, -, hout⟩ := h
  refine ⟨{ s with counter := s.counter + 1 }, ?_, hout⟩
  unfold xdatcarPass
  simp only [hcur, List.map_nil, List.flatten_nil, List.append_nil, findLine_none hpre]

theorem xflatten_length (frames : List (XFrame R)) : frames.length ≤ ((frames.map (·.lines)).flatten).length := by
  induction frames with
  | nil => simp
  | cons f fs ih => simp [XFrame.lines] at ih ⊢; omega

/-- What `read_VASP_XDATCAR` returns for a well formed file: the time stamps of *all* frames up to the last one read, also the skipped ones;
with memory mapping only the last frame read. -/
theorem readXdatcar_general [Mul R] (c : Codec R) (stepNumber : Line → Option R) (counts : Line → Option ℕ) (a : ReadArgs R) (n nd : ℕ)
    (header : List Line) (frames : List (XFrame R)) (hh : header.length = 7) (hcounts : counts (header.getD 6 []) = some n)
    (hf : ∀ f ∈ frames, f.Ok c stepNumber a n nd) (hne : frames ≠ [])
    (hmm : a.memmap = true → ∃ e, a.endCut = some e ∧ 1 ≤ a.initialCut ∧ a.initialCut ≤ e) :
    readXdatcar c stepNumber counts a (header ++ (frames.map (·.lines)).flatten) =
      let sk := frames.take (a.initialCut - 1)
      let rd := (frames.drop (a.initialCut - 1)).take (framesRead (stopCounter a) (a.initialCut - 1))
      let time := (sk ++ rd).map (fun f => f.t * a.timeStep)
      let data := xStored a n (rd.map (·.out))
      some ⟨false, if a.memmap then time else lastSlice a.lastSteps time, if a.memmap then data else lastSlice a.lastSteps data⟩ := by
  have hl := readLines_append header (frames.map (·.lines)).flatten
  rw [hh] at hl
  obtain ⟨s, h1, h2, h3⟩ := whileTrue_skip_read (xdatcarPass c stepNumber a n) (XInv c stepNumber a n nd) (XOut a n) (stopCounter a) a.initialCut
    (fun sk rd s h => xdatcar_hnil c stepNumber a n nd sk rd s h)
    (fun sk f fs s hk h => (xdatcarPass_eq c stepNumber a n nd sk [] f fs s h).1 (by simpa using hk) rfl)
    (fun sk rd f fs s hk h => (xdatcarPass_eq c stepNumber a n nd sk rd f fs s h).2 hk)
    frames [] { cursor := (frames.map (·.lines)).flatten } ((header ++ (frames.map (·.lines)).flatten).length + 1) (by simp)
    ⟨rfl, ⟨[], by simp, by simp⟩, hf, fun h => by
      obtain ⟨e, h1, h2, h3⟩ := hmm h
      exact ⟨e, h1, h2, h3, by simp; omega⟩, by simp, by simp, by simp⟩
    (by have := xflatten_length frames; simp only [List.length_append]; omega)
  simp only [List.nil_append, List.length_nil, Nat.sub_zero] at h1 h2 h3
  have hne2 : frames.take (a.initialCut - 1) ++ (frames.drop (a.initialCut - 1)).take (framesRead (stopCounter a) (a.initialCut - 1)) ≠ [] := by
    intro h
    obtain ⟨h4, h5⟩ := List.append_eq_nil_iff.1 h
    have hm : framesRead (stopCounter a) (a.initialCut - 1) ≠ 0 := by unfold framesRead; omega
    rw [List.take_eq_nil_iff] at h4 h5
    rcases h5 with h5 | h5
    · exact hm h5
    · rcases h4 with h4 | h4
      · rw [h4] at h5; simp [hne] at h5
      · exact hne h4
  unfold readXdatcar
  simp only [hl, hcounts, h1, h2, h3 hne2, List.map_map]
  rfl

/-- C49 (part): from the first step on and without memory mapping, `read_VASP_XDATCAR` returns exactly the steps 1, ..., `min(e, last)` with
their time stamps. Missing, and false: `C49_time_violated`, `C49_memmap_violated`. -/
theorem C49_partial [Mul R] (c : Codec R) (stepNumber : Line → Option R) (counts : Line → Option ℕ) (a : ReadArgs R) (n nd : ℕ)
    (header : List Line) (frames : List (XFrame R)) (hh : header.length = 7) (hcounts : counts (header.getD 6 []) = some n)
    (hf : ∀ f ∈ frames, f.Ok c stepNumber a n nd) (hne : frames ≠ []) (hi : a.initialCut = 1) (e : ℕ) (he : a.endCut = some e) (h2 : 1 ≤ e)
    (hlim : e ≤ a.limit + 2) (hm : a.memmap = false) (hl : a.lastSteps = none) :
    readXdatcar c stepNumber counts a (header ++ (frames.map (·.lines)).flatten) =
      some ⟨false, (window frames 1 e).map (fun f => f.t * a.timeStep), (window frames 1 e).map (·.out)⟩ := by
  rw [readXdatcar_general c stepNumber counts a n nd header frames hh hcounts hf hne (by simp [hm])]
  have hfr : framesRead (stopCounter a) 0 = e := by
    unfold framesRead stopCounter; rw [he]; simp only; omega
  simp only [hm, Bool.false_eq_true, if_false, hl, lastSlice, xStored, hi, Nat.sub_self, hfr, List.take_zero, List.drop_zero, List.nil_append]
  simp [window]

/-- C49 (part): without memory mapping the frames are right for every window; the time stamps are those of the steps 1, ..., `min(e, last)`, so there
are `initial_cut - 1` too many of them. -/
theorem C49_frames_partial [Mul R] (c : Codec R) (stepNumber : Line → Option R) (counts : Line → Option ℕ) (a : ReadArgs R) (n nd : ℕ)
    (header : List Line) (frames : List (XFrame R)) (hh : header.length = 7) (hcounts : counts (header.getD 6 []) = some n)
    (hf : ∀ f ∈ frames, f.Ok c stepNumber a n nd) (hne : frames ≠ []) (i e : ℕ) (hi : a.initialCut = i) (he : a.endCut = some e) (h1 : 1 ≤ i)
    (h2 : i ≤ e) (hlim : e + 1 - i ≤ a.limit + 2) (hm : a.memmap = false) (hl : a.lastSteps = none) :
    readXdatcar c stepNumber counts a (header ++ (frames.map (·.lines)).flatten) =
      some ⟨false, (window frames 1 e).map (fun f => f.t * a.timeStep), (window frames i e).map (·.out)⟩ := by
  subst hi
  rw [readXdatcar_general c stepNumber counts a n nd header frames hh hcounts hf hne (by simp [hm])]
  have hfr : framesRead (stopCounter a) (a.initialCut - 1) = e - (a.initialCut - 1) := by
    unfold framesRead stopCounter; rw [he]; simp only; omega
  simp only [hm, Bool.false_eq_true, if_false, hl, lastSlice, xStored, hfr, window_eq]
  have : frames.take (a.initialCut - 1) ++ window frames a.initialCut e = window frames 1 e := by
    unfold window
    have : frames.take (a.initialCut - 1) = (frames.take e).take (a.initialCut - 1) := by rw [List.take_take, min_eq_left (by omega)]
    rw [this, List.take_append_drop]; simp
  rw [this]

end xdatcar

/-- The text of the examples: `Direct configuration=   5`. -/
def exStepNumber (l : Line) : Option ℤ := exNum (((l.splitOn '=').getD 1 []).filter (· ≠ ' '))
def exCounts (l : Line) : Option ℕ := (((l.splitOn ' ').filter (· ≠ [])).mapM fun t => (exNum t).map Int.toNat).map List.sum

def exHeader : List Line := ["MgO", "2", "4 0 0", "0 4 0", "0 0 4", "Mg O", "1 1"].map (·.toList)
def exXFrames : List (XFrame ℤ) :=
  [⟨"Direct configuration=     1".toList, ["1 2 3".toList, "7 8 9".toList], 1, [[1, 2, 3], [7, 8, 9]], [[1, 2, 3], [7, 8, 9]]⟩,
   ⟨"Direct configuration=     2".toList, ["2 2 3".toList, "7 8 8".toList], 2, [[2, 2, 3], [7, 8, 8]], [[2, 2, 3], [7, 8, 8]]⟩,
   ⟨"Direct configuration=     3".toList, ["3 2 3".toList, "7 8 7".toList], 3, [[3, 2, 3], [7, 8, 7]], [[3, 2, 3], [7, 8, 7]]⟩]
def exXdatcar : List Line := exHeader ++ (exXFrames.map (·.lines)).flatten

theorem exXdatcar_ok (a : ReadArgs ℤ) (ha : a.indexing = none) : ∀ f ∈ exXFrames, f.Ok exCodec exStepNumber a 2 3 := by
  intro f hf
  simp only [exXFrames, List.mem_cons, List.not_mem_nil, or_false] at hf
  rcases hf with rfl | rfl | rfl
  all_goals exact
    { header := ⟨_, rfl, by decide +kernel⟩, noHeader := by decide +kernel, count := by decide +kernel, parseRows := by decide +kernel,
      dims := by decide +kernel, order := by unfold reorder; rw [ha] }

example : readXdatcar exCodec exStepNumber exCounts { timeStep := 1, endCut := some 2 } exXdatcar =
    some ⟨false, [1, 2], [[[1, 2, 3], [7, 8, 9]], [[2, 2, 3], [7, 8, 8]]]⟩ := by
  unfold exXdatcar
  rw [C49_partial exCodec exStepNumber exCounts _ 2 3 exHeader exXFrames rfl (by decide +kernel) (exXdatcar_ok _ rfl) (by decide) rfl 2 rfl
    (by decide) (by decide) rfl rfl]
  decide +kernel

/-- C49, violated: reading steps 2 to 3 gives two frames and three time stamps. -/
theorem C49_time_violated : readXdatcar exCodec exStepNumber exCounts { timeStep := 1, initialCut := 2, endCut := some 3 } exXdatcar =
    some ⟨false, [1, 2, 3], [[[2, 2, 3], [7, 8, 8]], [[3, 2, 3], [7, 8, 7]]]⟩ := by decide +kernel

/-- C49, violated: with memory mapping only the last frame survives, the others are zero. -/
theorem C49_memmap_violated : readXdatcar exCodec exStepNumber exCounts { timeStep := 1, endCut := some 3, memmap := true } exXdatcar =
    some ⟨false, [1, 2, 3], [[[0, 0, 0], [0, 0, 0]], [[0, 0, 0], [0, 0, 0]], [[3, 2, 3], [7, 8, 7]]]⟩ := by decide +kernel

/-- C49: with memory mapping an empty window, or a window without end, gives no data: the program exits unless the file has no step at all. -/
theorem C49_memmap_empty {R : Type*} [Zero R] [Mul R] (c : Codec R) (stepNumber : Line → Option R) (counts : Line → Option ℕ) (a : ReadArgs R) (file : List Line)
    (hm : a.memmap = true) (h : ∀ e, a.endCut = some e → e = 0 ∨ e < a.initialCut) (r : Parsed R) (hr : readXdatcar c stepNumber counts a file = some r) :
    r = ⟨false, [], []⟩ ∧ findLine kwDirect (readLines 7 file).2 = none := by
  unfold readXdatcar at hr
  dsimp only at hr
  split at hr
  · cases hr
  · rename_i n hn
    rw [whileTrue] at hr
    have hp : xdatcarPass c stepNumber a n { cursor := (readLines 7 file).2 } = .fail ∨
        (xdatcarPass c stepNumber a n { cursor := (readLines 7 file).2 } = .stop { cursor := (readLines 7 file).2, counter := 1 } ∧ findLine kwDirect (readLines 7 file).2 = none) := by
      unfold xdatcarPass
      dsimp only
      split
      · rename_i h0
        exact Or.inr ⟨rfl, h0⟩
      · split
        · exact Or.inl rfl
        · rw [if_pos hm, newMemmap_none a n h]
          exact Or.inl rfl
    rcases hp with hp | ⟨hp, h0⟩
    · rw [hp] at hr
      cases hr
    · rw [hp] at hr
      simp only [hm, if_true, List.map_nil, Option.some.injEq] at hr
      exact ⟨hr.symm, h0⟩

/-- C77, what holds: the lattice vectors are those in the header. -/
theorem C77_lines {R : Type*} [Zero R] (c : Codec R) (title scale v1 v2 v3 elements counts : Line) (rest : List Line) :
    xdatcarCell c ([title, scale, v1, v2, v3, elements, counts] ++ rest) = [v1, v2, v3].mapM c.row := by
  unfold xdatcarCell
  have := readLines_append [title, scale, v1, v2, v3, elements, counts] rest
  simp only [List.length_cons, List.length_nil] at this
  rw [this]; rfl

/-- C77, violated: the scale factor in the second line has no effect on the cell: any two files that differ in it give the same cell (the structure
reader multiplies by it, iofile/__init__.py:283-286). -/
theorem C77_violated {R : Type*} [Zero R] (c : Codec R) (title scale scale' v1 v2 v3 elements counts : Line) (rest : List Line) :
    xdatcarCell c ([title, scale, v1, v2, v3, elements, counts] ++ rest) = xdatcarCell c ([title, scale', v1, v2, v3, elements, counts] ++ rest) := by
  rw [C77_lines, C77_lines]

example : xdatcarCell exCodec exXdatcar = some [[4, 0, 0], [0, 4, 0], [0, 0, 4]] := by decide +kernel

/-! ## C50: OUTCAR -/

/-- A step of an OUTCAR file with the numbers it holds: any other lines (the electronic iterations of the step), the header line, a line of dashes,
the atoms, some other lines, the line with the energy. -/
structure OFrame (R : Type*) where
  before : List Line
  header : Line
  dashes : Line
  rows : List Line
  other : List Line
  energyLine : Line
  raw : Frame R
  out : Frame R
  energy : R

def OFrame.lines {R : Type*} (f : OFrame R) : List Line :=
  f.before ++ f.header :: f.dashes :: (f.rows ++ (f.other ++ [f.energyLine]))

structure OFrame.Ok {R : Type*} (c : Codec R) (energyOf : Line → Option R) (a : ReadArgs R) (n nd : ℕ) (f : OFrame R) : Prop where
  noHeader : ∀ l ∈ f.before, hasKeyword kwPosition l = false
  header : hasKeyword kwPosition f.header = true
  noEnergy : ∀ l ∈ f.other, hasKeyword kwEnergy l = false
  energy : ∃ s, fromKeyword kwEnergy f.energyLine = some s ∧ energyOf s = some f.energy
  count : f.rows.length = n
  parseRows : f.rows.mapM c.row = some f.raw
  dims : ∀ r ∈ f.raw, r.length = nd
  order : reorder a.indexing f.raw = some f.out

section outcar
variable {R : Type*} [Semiring R]

theorem outcar_skip (c : Codec R) (energyOf : Line → Option R) (a : ReadArgs R) (n : ℕ) : ∀ (m fuel : ℕ) (s : OState R), s.counter + m < a.initialCut →
    whileTrue (outcarPass c energyOf a n) (m + fuel) s = whileTrue (outcarPass c energyOf a n) fuel { s with counter := s.counter + m } := by
  intro m
  induction m with
  | zero => intro fuel s _; simp
  | succ m ih =>
    intro fuel s h
    have hp : outcarPass c energyOf a n s = .next { s with counter := s.counter + 1 } := by
      unfold outcarPass; simp only; rw [if_pos (by omega)]
    have e : m + 1 + fuel = (m + fuel) + 1 := by omega
    rw [e, whileTrue, hp]
    simp only
    rw [ih fuel _ (by simp; omega)]
    congr 2
    simp; omega

def OInv (c : Codec R) (energyOf : Line → Option R) (a : ReadArgs R) (n nd : ℕ) (tail : List Line) (rd fs : List (OFrame R)) (s : OState R) : Prop :=
  s.counter = a.initialCut - 1 + rd.length ∧ s.cursor = (fs.map (·.lines)).flatten ++ tail ∧ (∀ f ∈ fs, f.Ok c energyOf a n nd) ∧
  s.trajectory = rd.map (·.out) ∧ s.energy = rd.map (·.energy)

theorem oflatten_length (frames : List (OFrame R)) : frames.length ≤ ((frames.map (·.lines)).flatten).length := by
  induction frames with
  | nil => simp
  | cons f fs ih => simp [OFrame.lines] at ih ⊢; omega

/-- What `read_vasp_trajectory` returns for a well formed file: steps from the *first* one on; `initial_cut` only reduces their number. -/
theorem readOutcar_general (c : Codec R) (energyOf : Line → Option R) (a : ReadArgs R) (n nd : ℕ) (frames : List (OFrame R)) (tail : List Line)
    (hf : ∀ f ∈ frames, f.Ok c energyOf a n nd) (htail : ∀ l ∈ tail, hasKeyword kwPosition l = false) :
    readOutcar c energyOf a n ((frames.map (·.lines)).flatten ++ tail) =
      let rd := frames.take (framesRead (stopCounter a) (a.initialCut - 1))
      let trajectory := lastSlice a.lastSteps (rd.map (·.out))
      some (⟨false, (List.range trajectory.length).map (fun i : ℕ => (i : R) * a.timeStep), trajectory⟩, lastSlice a.lastSteps (rd.map (·.energy))) := by
  have hskip : whileTrue (outcarPass c energyOf a n) (a.initialCut + ((frames.map (·.lines)).flatten ++ tail).length + 1) { cursor := (frames.map (·.lines)).flatten ++ tail } =
      whileTrue (outcarPass c energyOf a n) (a.initialCut + ((frames.map (·.lines)).flatten ++ tail).length + 1 - (a.initialCut - 1))
        { cursor := (frames.map (·.lines)).flatten ++ tail, counter := a.initialCut - 1 } := by
    by_cases h0 : a.initialCut = 0
    · simp [h0]
    · have := outcar_skip c energyOf a n (a.initialCut - 1) (a.initialCut + ((frames.map (·.lines)).flatten ++ tail).length + 1 - (a.initialCut - 1))
        { cursor := (frames.map (·.lines)).flatten ++ tail } (by simp; omega)
      simp only [Nat.zero_add] at this
      rw [← this]
      congr 1; omega
  obtain ⟨s, h1, h2, h3⟩ := whileTrue_read (outcarPass c energyOf a n) (fun _ rd fs s => OInv c energyOf a n nd tail rd fs s)
    (fun _ rd s => s.trajectory = rd.map (·.out) ∧ s.energy = rd.map (·.energy)) (stopCounter a - (a.initialCut - 1)) 1
    (by
      intro sk rd s h
      obtain ⟨h1, h2, -, h4, h5⟩ := h
      refine ⟨{ s with counter := s.counter + 1 }, ?_, h4, h5⟩
      unfold outcarPass
      simp only
      rw [if_neg (by omega), h2]
      simp [findLine_none htail])
    (by
      intro sk rd f fs s hsk h
      obtain ⟨h1, h2, hok, h4, h5⟩ := h
      have ok := hok f (by simp)
      obtain ⟨p, hp⟩ : ∃ t, fromKeyword kwPosition f.header = some t := Option.isSome_iff_exists.1 ok.header
      obtain ⟨q, hq, hq2⟩ := ok.energy
      have g1 : findLine kwPosition s.cursor = some (p, f.dashes :: (f.rows ++ (f.other ++ f.energyLine :: ((fs.map (·.lines)).flatten ++ tail)))) := by
        rw [h2]
        have := findLine_append (kw := kwPosition) (pre := f.before) (rest := f.dashes :: (f.rows ++ (f.other ++ f.energyLine :: ((fs.map (·.lines)).flatten ++ tail))))
          ok.noHeader hp
        simpa [OFrame.lines] using this
      have g2 : findLine kwEnergy (f.other ++ f.energyLine :: ((fs.map (·.lines)).flatten ++ tail)) = some (q, (fs.map (·.lines)).flatten ++ tail) :=
        findLine_append ok.noEnergy hq
      refine ⟨{ s with counter := s.counter + 1, cursor := (fs.map (·.lines)).flatten ++ tail, trajectory := s.trajectory ++ [f.out],
                       energy := s.energy ++ [f.energy] }, ?_, ⟨by simp [h4], by simp [h5]⟩, ?_⟩
      · unfold outcarPass
        simp only
        rw [if_neg (by omega), g1]
        simp only [readLine]
        rw [readCoordinates_eq c _ ok.count ok.parseRows ok.dims]
        simp only [ok.order, g2, hq2]
        rw [stop_test]
        simp only [hsk, h1]
        congr 1
        apply propext; constructor <;> intro h <;> omega
      · intro _
        exact ⟨by simp [h1]; omega, rfl, fun x hx => hok x (by simp [hx]), by simp [h4], by simp [h5]⟩)
    frames [] [] { cursor := (frames.map (·.lines)).flatten ++ tail, counter := a.initialCut - 1 }
    (a.initialCut + ((frames.map (·.lines)).flatten ++ tail).length + 1 - (a.initialCut - 1)) rfl ⟨by simp, rfl, hf, by simp, by simp⟩
    (by have := oflatten_length frames; rw [List.length_append]; omega)
  unfold readOutcar
  rw [hskip, h1]
  have e : framesRead (stopCounter a - (a.initialCut - 1)) (([] : List (OFrame R)).length + ([] : List (OFrame R)).length) =
      framesRead (stopCounter a) (a.initialCut - 1) := by unfold framesRead; simp
  rw [e] at h2 h3
  simp only [List.nil_append] at h2 h3
  simp only [h2, h3]

/-- C50 (part): from the first step on, `read_vasp_trajectory` returns exactly the steps 1, ..., `min(e, last)` with their energies, at the times
`0, dt, 2 dt, ...`. Missing, and false: `initial_cut > 1` (`C50_violated`). -/
theorem C50_partial (c : Codec R) (energyOf : Line → Option R) (a : ReadArgs R) (n nd : ℕ) (frames : List (OFrame R)) (tail : List Line)
    (hf : ∀ f ∈ frames, f.Ok c energyOf a n nd) (htail : ∀ l ∈ tail, hasKeyword kwPosition l = false) (hi : a.initialCut = 1) (e : ℕ) (he : a.endCut = some e) (h2 : 1 ≤ e)
    (hlim : e ≤ a.limit + 2) (hl : a.lastSteps = none) :
    readOutcar c energyOf a n ((frames.map (·.lines)).flatten ++ tail) =
      some (⟨false, (List.range (window frames 1 e).length).map (fun i : ℕ => (i : R) * a.timeStep), (window frames 1 e).map (·.out)⟩,
        (window frames 1 e).map (·.energy)) := by
  rw [readOutcar_general c energyOf a n nd frames tail hf htail]
  have hfr : framesRead (stopCounter a) 0 = e := by
    unfold framesRead stopCounter; rw [he]; simp only; omega
  simp only [hl, lastSlice, hi, Nat.sub_self, hfr, List.length_map]
  simp [window]

/-- C50, violated in general: with `initial_cut = i > 1` and `end_cut = e` the steps returned are 1, ..., `e + 1 - i`, not `i`, ..., `e`. -/
theorem C50_violated (c : Codec R) (energyOf : Line → Option R) (a : ReadArgs R) (n nd : ℕ) (frames : List (OFrame R)) (tail : List Line)
    (hf : ∀ f ∈ frames, f.Ok c energyOf a n nd) (htail : ∀ l ∈ tail, hasKeyword kwPosition l = false) (i e : ℕ) (hi : a.initialCut = i) (he : a.endCut = some e) (h1 : 1 ≤ i) (h2 : i ≤ e)
    (hlim : e + 1 - i ≤ a.limit + 2) (hl : a.lastSteps = none) :
    ∃ p, readOutcar c energyOf a n ((frames.map (·.lines)).flatten ++ tail) = some p ∧
      p.1.data = (window frames 1 (e + 1 - i)).map (·.out) ∧ p.2 = (window frames 1 (e + 1 - i)).map (·.energy) := by
  rw [readOutcar_general c energyOf a n nd frames tail hf htail]
  have hfr : framesRead (stopCounter a) (a.initialCut - 1) = e + 1 - i := by
    unfold framesRead stopCounter; rw [he]; simp only; omega
  refine ⟨_, rfl, ?_, ?_⟩ <;> simp [hl, lastSlice, hfr, window]

end outcar

def exEnergyOf (l : Line) : Option ℤ := exNum (((l.splitOn ' ').filter (· ≠ [])).getD 2 [])

def exOFrames : List (OFrame ℤ) :=
  [⟨[], " POSITION     TOTAL-FORCE".toList, " ------".toList, ["1 2 3".toList, "7 8 9".toList], [" ------".toList], "  energy(sigma) = 5".toList,
      [[1, 2, 3], [7, 8, 9]], [[1, 2, 3], [7, 8, 9]], 5⟩,
   ⟨["  energy(sigma) = 7".toList, "Iteration 2".toList], " POSITION     TOTAL-FORCE".toList, " ------".toList, ["2 2 3".toList, "7 8 8".toList], [" ------".toList], "  energy(sigma) = 6".toList,
      [[2, 2, 3], [7, 8, 8]], [[2, 2, 3], [7, 8, 8]], 6⟩]

theorem exOFrames_ok (a : ReadArgs ℤ) (ha : a.indexing = none) : ∀ f ∈ exOFrames, f.Ok exCodec exEnergyOf a 2 3 := by
  intro f hf
  simp only [exOFrames, List.mem_cons, List.not_mem_nil, or_false] at hf
  rcases hf with rfl | rfl
  all_goals exact
    { noHeader := by decide +kernel, header := by decide +kernel, noEnergy := by decide +kernel, energy := ⟨_, rfl, by decide +kernel⟩, count := by decide +kernel,
      parseRows := by decide +kernel, dims := by decide +kernel, order := by unfold reorder; rw [ha] }

/-- C50, violated, concretely: asked for step 2 of two steps, the reader returns step 1. -/
theorem C50_example_violated : (readOutcar exCodec exEnergyOf { timeStep := 1, initialCut := 2, endCut := some 2 } 2
    ((exOFrames.map (·.lines)).flatten ++ ["General timing".toList])).map (fun p => (p.1.data, p.2)) = some ([[[1, 2, 3], [7, 8, 9]]], [5]) := by
  decide +kernel

example : ∃ p, readOutcar exCodec exEnergyOf { timeStep := 1, initialCut := 2, endCut := some 2 } 2 ((exOFrames.map (·.lines)).flatten ++ ["General timing".toList]) = some p ∧
    p.1.data = (window exOFrames 1 1).map (·.out) ∧ p.2 = (window exOFrames 1 1).map (·.energy) :=
  C50_violated exCodec exEnergyOf _ 2 3 exOFrames _ (exOFrames_ok _ rfl) (by decide +kernel) 2 2 rfl rfl (by decide) (by decide) (by decide) rfl

end Verif
