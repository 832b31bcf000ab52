import Mathlib.Data.List.Basic
import Mathlib.Algebra.Ring.Defs

/-!
# Trajectory parsers (dynaphopy/interface/iofile/trajectory_parsers.py)

A memory mapped file is the list of its lines, a cursor is the list of the lines that follow it (the cursor of these parsers is always
at the start of a line, or a `seek` to the middle of a line is directly followed by `readline`). The text of numbers is not modelled:
`float`, `int` and `split` are the functions of a `Codec`. `none` as a result of a parser is a Python exception or `exit()`.
-/

set_option autoImplicit false

namespace Verif

/-- A line of a text file. -/
abbrev Line := List Char

/-- The part of a line from the first occurrence of `kw` on (`find` + `seek`). -/
def fromKeyword (kw : Line) : Line → Option Line
  | [] => if kw = [] then some [] else none
  | c :: cs => if kw.isPrefixOf (c :: cs) then some (c :: cs) else fromKeyword kw cs

/-- `file_map.find(kw)`, `file_map.seek(...)`, `file_map.readline()`: the text from the keyword to the end of its line, and the new
cursor. `none`: `find` gives -1. Used at trajectory_parsers.py:81-86, 97-99, 197-201, 208-211, 221-223, 284-287, 420-424. -/
def findLine (kw : Line) : List Line → Option (Line × List Line)
  | [] => none
  | l :: ls => match fromKeyword kw l with
    | some s => some (s, ls)
    | none => findLine kw ls

/-- `file_map.readline()`; at the end of the file it gives the empty string. -/
def readLine : List Line → Line × List Line
  | [] => ([], [])
  | l :: ls => (l, ls)

/-- `n` times `file_map.readline()`. -/
def readLines : ℕ → List Line → List Line × List Line
  | 0, c => ([], c)
  | n + 1, c =>
    let r := readLine c
    let s := readLines n r.2
    (r.1 :: s.1, s.2)

/-- A frame: one row of coordinates per atom (trajectory_parsers.py:88-92). -/
abbrev Frame (R : Type*) := List (List R)

/-- How text is turned into numbers. `float` is `float(line)`, `int` is `int(line)`, `row` is `line.split()[0:number_of_dimensions]`
converted to floats (`none`: ValueError). -/
structure Codec (R : Type*) where
  float : Line → Option R
  int : Line → Option ℕ
  row : Line → Option (List R)

/-- `np.array(rows, dtype=float)`: rows of different length raise a ValueError
(trajectory_parsers.py:92, 298, 442). -/
def toArray {R : Type*} (rows : Frame R) : Option (Frame R) :=
  if ∀ r ∈ rows, r.length = (rows.headD []).length then some rows else none

/-- Reading the coordinates of one step (trajectory_parsers.py:88-92, 295-298, 439-442): `number_of_atoms` lines. -/
def readCoordinates {R : Type*} (c : Codec R) (n : ℕ) (cur : List Line) : Option (Frame R × List Line) :=
  let r := readLines n cur
  match r.1.mapM c.row with
  | none => none
  | some rows => (toArray rows).map fun a => (a, r.2)

/-- `read_coordinates[indexing, :]` (trajectory_parsers.py:93-95, 300-302, 444-446), `indexing` being `np.argsort(template)`; an index
out of range raises an IndexError. -/
def reorder {R : Type*} (indexing : Option (List ℕ)) (f : Frame R) : Option (Frame R) :=
  match indexing with
  | none => some f
  | some ix => ix.mapM fun i => f[i]?

/-- The arguments of the parsers. `indexing` is `np.argsort(template)`, `nd` the number of dimensions
(trajectory_parsers.py:14-25, 134-146, 354-366). -/
structure ReadArgs (R : Type*) where
  nd : ℕ := 3
  timeStep : R
  limit : ℕ := 10000000
  lastSteps : Option ℕ := none
  initialCut : ℕ := 1
  endCut : Option ℕ := none
  memmap : Bool := false
  indexing : Option (List ℕ) := none

/-- What a pass of `while True` does: go on, `break`, or raise an exception / `exit()`
(trajectory_parsers.py:74, 192, 416). -/
inductive Pass (σ : Type*) where
  | next (s : σ)
  | stop (s : σ)
  | fail

/-- `while True:` with a bound on the number of passes (`none`: the bound is reached, or an exception); trajectory_parsers.py:74,
192, 416. -/
def whileTrue {σ : Type*} (body : σ → Pass σ) : ℕ → σ → Option σ
  | 0, _ => none
  | n + 1, s => match body s with
    | .next s' => whileTrue body n s'
    | .stop s' => some s'
    | .fail => none

/-- `a[-last_steps:]` for an array: the last `k` elements; `-0` is `0`, so `k = 0` gives everything
(trajectory_parsers.py:117-120, 329-331, 468-471). -/
def lastSlice {α : Type*} (k : Option ℕ) (a : List α) : List α :=
  match k with
  | none => a
  | some 0 => a
  | some k => a.drop (a.length - k)

/-- `np.memmap(..., mode='w+', shape=(end_cut - initial_cut + 1, number_of_atoms, number_of_dimensions))`
(trajectory_parsers.py:277-282, 426-431): a new file of zeros; without `end_cut` the program exits; an empty or negative shape is
an error. -/
def newMemmap {R : Type*} [Zero R] (a : ReadArgs R) (natoms : ℕ) : Option (List (Frame R)) :=
  match a.endCut with
  | none => none
  | some 0 => none
  | some e => if e + 1 ≤ a.initialCut then none
      else some (List.replicate (e + 1 - a.initialCut) (List.replicate natoms (List.replicate a.nd 0)))

/-- The two tests at the end of a pass, the same in all three parsers (trajectory_parsers.py:103-109, 316-322, 459-465). -/
def endTests {R σ : Type*} (a : ReadArgs R) (counter : ℕ) (s : σ) : Pass σ :=
  if a.limit + a.initialCut < counter then .stop s
  else match a.endCut with
    | some e => if e ≤ counter then .stop s else .next s
    | none => .next s

/-- The keyword `TIMESTEP` (trajectory_parsers.py:197). -/
def kwTimestep : Line := "TIMESTEP".toList
/-- The keyword `NUMBER OF ATOMS` (trajectory_parsers.py:208). -/
def kwNumber : Line := "NUMBER OF ATOMS".toList
/-- The keyword `BOX BOUNDS` (trajectory_parsers.py:221). -/
def kwBounds : Line := "BOX BOUNDS".toList
/-- The keyword `ITEM: ATOMS` (trajectory_parsers.py:284). -/
def kwAtoms : Line := "ITEM: ATOMS".toList
/-- The keyword `Direct configuration` (trajectory_parsers.py:420). -/
def kwDirect : Line := "Direct configuration".toList
/-- The keyword `POSITION` (trajectory_parsers.py:81). -/
def kwPosition : Line := "POSITION".toList
/-- The keyword `energy(` (trajectory_parsers.py:97). -/
def kwEnergy : Line := "energy(".toList

/-- The variables of `read_lammps_trajectory` (trajectory_parsers.py:158-186). `G` is what is derived from the box bounds (the cell and the
rotation, see `Model/LammpsBox`). -/
structure LState (R G : Type*) where
  cursor : List Line
  counter : ℕ := 0
  time : List R := []
  data : List (Frame R) := []
  natoms : Option ℕ := none
  geometry : Option G := none
  labels : Option Line := none

/-- The geometry part of `read_lammps_trajectory`: `box` parses the three lines of bounds and derives the cell and the rotation
(trajectory_parsers.py:225-275), `rotate` is `np.dot(read_coordinates, transformation_mat)` (`none`: ValueError, lines 304-314). -/
structure LGeometry (R G : Type*) where
  box : List Line → Option G
  rotate : G → Frame R → Option (Frame R)

variable {R G : Type*} [Zero R]

/-- The reading of a step of a LAMMPS file and the tests that end the loop (trajectory_parsers.py:294-322). -/
def lammpsRead (c : Codec R) (g : LGeometry R G) (a : ReadArgs R) (n : ℕ) (geo : G) (s : LState R G) : Pass (LState R G) :=
  match readCoordinates c n s.cursor with
  | none => .fail
  | some (f, cur) =>
    match reorder a.indexing f with
    | none => .fail
    | some f =>
      match g.rotate geo f with
      | none => .stop { s with cursor := cur }           -- except ValueError: break
      | some f =>
        if a.memmap && !(s.counter - a.initialCut < s.data.length) then .fail else
        let data := if a.memmap then s.data.set (s.counter - a.initialCut) f else s.data ++ [f]
        let s := { s with cursor := cur, data := data }
        endTests a s.counter s

/-- Reading the number of atoms, once, from the start of the file (trajectory_parsers.py:205-216). -/
def lammpsNumber (c : Codec R) (file : List Line) (s : LState R G) : Option (LState R G × ℕ) :=
  match s.natoms with
  | some n => some (s, n)
  | none => match findLine kwNumber file with
    | none => none
    | some (_, cur) =>
      let l := readLine cur
      (c.int l.1).map fun n => ({ s with cursor := l.2, natoms := some n }, n)

/-- Reading the box, once, from the start of the file, and creating the memory map (trajectory_parsers.py:218-282). -/
def lammpsBox (g : LGeometry R G) (a : ReadArgs R) (file : List Line) (n : ℕ) (s : LState R G) : Option (LState R G × G) :=
  match s.geometry with
  | some geo => some (s, geo)
  | none => match findLine kwBounds file with
    | none => none
    | some (_, cur) =>
      let l := readLines 3 cur
      match g.box l.1 with
      | none => none
      | some geo =>
        let s := { s with cursor := l.2, geometry := some geo }
        if a.memmap then (newMemmap a n).map fun d => ({ s with data := d }, geo) else some (s, geo)

/-- One pass of the loop of `read_lammps_trajectory` (trajectory_parsers.py:192-322). -/
def lammpsPass (c : Codec R) (g : LGeometry R G) (a : ReadArgs R) (file : List Line) (s : LState R G) : Pass (LState R G) :=
  let s := { s with counter := s.counter + 1 }
  match findLine kwTimestep s.cursor with
  | none => .stop s
  | some (_, cur) =>
    let l := readLine cur
    match c.float l.1 with
    | none => .fail
    | some t =>
      let s := { s with cursor := l.2, time := s.time ++ [t] }
      match lammpsNumber c file s with
      | none => .fail
      | some (s, n) =>
        match lammpsBox g a file n s with
        | none => .fail
        | some (s, geo) =>
          match findLine kwAtoms s.cursor with
          | none => .fail
          | some (labels, cur) =>
            let s := { s with cursor := cur, labels := some labels }
            if s.counter < a.initialCut then .next { s with time := [] }
            else lammpsRead c g a n geo s

/-- What a parser hands to `Dynamics` (trajectory_parsers.py:127-131, 335-352, 477-483). -/
structure Parsed (R : Type*) where
  isVelocity : Bool := false
  time : List R
  data : List (Frame R)
  deriving DecidableEq

/-- `kw in line`. -/
def hasKeyword (kw : Line) (l : Line) : Bool := (fromKeyword kw l).isSome

/-- `read_lammps_trajectory` (trajectory_parsers.py:134-352). The cell handed over with the data is in `Model/LammpsBox`. The number of passes
is bounded by the number of lines (every pass but the first moves the cursor forward). -/
def readLammps [Mul R] (c : Codec R) (g : LGeometry R G) (a : ReadArgs R) (file : List Line) : Option (Parsed R) :=
  match whileTrue (lammpsPass c g a file) (file.length + 2) { cursor := file } with
  | none => none
  | some s =>
    let time := s.time.map (· * a.timeStep)
    let time := if a.memmap then time else lastSlice a.lastSteps time
    let data := if a.memmap then s.data else lastSlice a.lastSteps s.data
    match s.labels with
    | none => none
    | some labels =>
      if hasKeyword "vx vy".toList labels then some ⟨true, time, data⟩
      else if hasKeyword "x y".toList labels then some ⟨false, time, data⟩
      else none

/-- The variables of `read_VASP_XDATCAR` (trajectory_parsers.py:397-399). -/
structure XState (R : Type*) where
  cursor : List Line
  counter : ℕ := 0
  time : List R := []
  data : List (Frame R) := []

/-- One pass of the loop of `read_VASP_XDATCAR` (trajectory_parsers.py:416-465). `stepNumber` is `float(line.split(b'=')[1])`. -/
def xdatcarPass (c : Codec R) (stepNumber : Line → Option R) (a : ReadArgs R) (n : ℕ) (s : XState R) : Pass (XState R) :=
  let s := { s with counter := s.counter + 1 }
  match findLine kwDirect s.cursor with
  | none => .stop s
  | some (l, cur) =>
    match stepNumber l with
    | none => .fail
    | some t =>
      let s := { s with cursor := cur, time := s.time ++ [t] }
      match (if a.memmap then newMemmap a n else some s.data) with
      | none => .fail
      | some d =>
        let s := { s with data := d }
        if s.counter < a.initialCut then .next s
        else
          match readCoordinates c n s.cursor with
          | none => .fail
          | some (f, cur) =>
            match reorder a.indexing f with
            | none => .fail
            | some f =>
              if a.memmap && !(s.counter - a.initialCut < s.data.length) then .fail else
              let data := if a.memmap then s.data.set (s.counter - a.initialCut) f else s.data ++ [f]
              let s := { s with cursor := cur, data := data }
              endTests a s.counter s

/-- `read_VASP_XDATCAR` (trajectory_parsers.py:354-483). The header is seven lines: a title, the scale factor (both skipped), three
lattice vectors, the elements (skipped), the numbers of atoms, whose sum is `counts line`. The lattice vectors are in `xdatcarCell`. -/
def readXdatcar [Mul R] (c : Codec R) (stepNumber : Line → Option R) (counts : Line → Option ℕ) (a : ReadArgs R) (file : List Line) :
    Option (Parsed R) :=
  let h := readLines 7 file
  match counts (h.1.getD 6 []) with
  | none => none
  | some n =>
    match whileTrue (xdatcarPass c stepNumber a n) (file.length + 1) { cursor := h.2 } with
    | none => none
    | some s =>
      let time := s.time.map (· * a.timeStep)
      let time := if a.memmap then time else lastSlice a.lastSteps time
      let data := if a.memmap then s.data else lastSlice a.lastSteps s.data
      some ⟨false, time, data⟩

/-- The cell of `read_VASP_XDATCAR` (trajectory_parsers.py:405-410): lines 3-5 as they are; line 2, the scale factor, is not used. -/
def xdatcarCell (c : Codec R) (file : List Line) : Option (Frame R) :=
  ((readLines 7 file).1.drop 2 |>.take 3).mapM c.row

/-- The variables of `read_vasp_trajectory` (trajectory_parsers.py:71-73). -/
structure OState (R : Type*) where
  cursor : List Line
  counter : ℕ := 0
  trajectory : List (Frame R) := []
  energy : List R := []

/-- One pass of the loop of `read_vasp_trajectory` (trajectory_parsers.py:74-109). `energyOf` is `readline().split()[2]` as a float. -/
def outcarPass (c : Codec R) (energyOf : Line → Option R) (a : ReadArgs R) (n : ℕ) (s : OState R) : Pass (OState R) :=
  let s := { s with counter := s.counter + 1 }
  if s.counter < a.initialCut then .next s          -- `continue` before anything is read
  else
    match findLine kwPosition s.cursor with
    | none => .stop s
    | some (_, cur) =>
      match readCoordinates c n (readLine cur).2 with
      | none => .fail
      | some (f, cur) =>
        match reorder a.indexing f with
        | none => .fail
        | some f =>
          match findLine kwEnergy cur with
          | none => .fail
          | some (l, cur) =>
            match energyOf l with
            | none => .fail
            | some e =>
              let s := { s with cursor := cur, trajectory := s.trajectory ++ [f], energy := s.energy ++ [e] }
              endTests a s.counter s

/-- `read_vasp_trajectory` (trajectory_parsers.py:74-131) from the cursor behind the header (number of atoms `n`; the header, lines 42-65, is in `readOutcarRun` (OutcarText.lean),
`a.timeStep` is the time step read from it). The times are `i * time_step`; the second component is the energies. -/
def readOutcar {R : Type*} [Semiring R] (c : Codec R) (energyOf : Line → Option R) (a : ReadArgs R) (n : ℕ) (body : List Line) :
    Option (Parsed R × List R) :=
  match whileTrue (outcarPass c energyOf a n) (a.initialCut + body.length + 1) { cursor := body } with
  | none => none
  | some s =>
    let trajectory := lastSlice a.lastSteps s.trajectory
    some (⟨false, (List.range trajectory.length).map (fun i : ℕ => (i : R) * a.timeStep), trajectory⟩, lastSlice a.lastSteps s.energy)

end Verif
