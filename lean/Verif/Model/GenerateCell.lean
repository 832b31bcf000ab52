import Verif.Model.Supercell
import Verif.Model.Arrangement
import Mathlib.Data.List.Dedup

/-!
# Generated structure files (dynaphopy/generate_cell.py) and the POSCAR reader (dynaphopy/interface/iofile/__init__.py:268-328)

A text file is the list of its lines, a line is the list of its blank separated words. Numbers are exact (the 10 or 15 decimals of the format, and
the characters, are in PoscarText.lean).
-/

set_option autoImplicit false

namespace Verif

/-! ## `np.unique` -/

section unique
variable {α : Type*} [LinearOrder α]

/-- `np.unique(l, return_index=True)`: the sorted values and, for each, the index of its first occurrence
(generate_cell.py:10, 45, 57). -/
def npUnique (l : List α) : List α × List ℕ :=
  let u := l.dedup.insertionSort (· ≤ ·)
  (u, u.map fun a => l.idxOf a)

/-- `np.diff` (generate_cell.py:15, 51). -/
def npDiff : List ℕ → List ℕ
  | a :: b :: l => (b - a) :: npDiff (b :: l)
  | _ => []

/-- `np.array(x)[index]` (generate_cell.py:12-13, 47). -/
def fancy {β : Type*} (x : List β) (index : List ℕ) : List β := index.filterMap fun i => x[i]?

/-- `elements, elements_count` (generate_cell.py:10-15). -/
def vaspElements (types : List α) : List α × List ℕ :=
  let u := npUnique types
  let sortIndex := argsort u.2
  (fancy u.1 sortIndex, npDiff (fancy u.2 sortIndex ++ [types.length]))

/-- `atom_index_unique` (generate_cell.py:45-58). -/
def lammpsUniqueIndex (types : List α) : List ℕ :=
  let first := (npUnique types).2
  let typeIndexUnique := fancy first (argsort first)
  let countIndexUnique := npDiff (typeIndexUnique ++ [types.length])
  let atomIndex : List ℕ := (countIndexUnique.zipIdx).flatMap fun ci => List.replicate ci.1 ci.2
  (npUnique atomIndex).2

/-- A Python dictionary as an association list, newest entry first: `d[k] = v` (generate_cell.py:60-62). -/
def dictSet {β : Type*} (d : List (α × β)) (k : α) (v : β) : List (α × β) := (k, v) :: d

/-- `d[k]` (`none`: KeyError; generate_cell.py:123-130). -/
def dictGet {β : Type*} (d : List (α × β)) (k : α) : Option β := d.lookup k

/-- `index_dict` (generate_cell.py:60-62). -/
def lammpsIndexDict (types : List α) : List (α × ℕ) :=
  ((lammpsUniqueIndex types).zipIdx).foldl (fun d vi => match types[vi.1]? with
    | some t => dictSet d t (vi.2 + 1)
    | none => d) []

/-- The type written in the line of atom `i` in the `Atoms` section (generate_cell.py:123-130): `index_dict[types[i]]`. -/
def lammpsAtomType (types : List α) (i : ℕ) : Option ℕ := (types[i]?).bind (dictGet (lammpsIndexDict types))

/-- The `Masses` section (generate_cell.py:117-118): the pairs `(i+1, masses[index])`. -/
def lammpsMasses {R : Type*} (types : List α) (masses : List R) : List (ℕ × Option R) :=
  (lammpsUniqueIndex types).zipIdx.map fun vi => (vi.2 + 1, masses[vi.1]?)

end unique

/-! ## POSCAR -/

/-- A word of a text file: a name, a non-negative whole number, or a number with decimals
(iofile/__init__.py:270-320). -/
inductive Tok (α K : Type*) where
  | word (w : α)
  | nat (n : ℕ)
  | num (x : K)

/-- The literal words of the POSCAR format (generate_cell.py:20-34, iofile/__init__.py:293, 310). -/
inductive PWord (α : Type*) where
  | elem (e : α)
  | direct
  | cartesian
  | text

section poscar
variable {α K : Type*} [Field K]

/-- `float(word)` (iofile/__init__.py:281-284, 294-300). -/
def Tok.toFloat : Tok α K → Option K
  | .word _ => none
  | .nat n => some n
  | .num x => some x

/-- `int(word)` (iofile/__init__.py:289, 309). -/
def Tok.toInt : Tok α K → Option ℕ
  | .nat n => some n
  | _ => none

/-- What `data_lines[..].split()` can look like. -/
abbrev PLine (α K : Type*) := List (Tok (PWord α) K)

/-- `generate_VASP_structure` (generate_cell.py:4-38) from the results of `get_cell(supercell)`, `get_atomic_elements(supercell)` and `get_scaled_positions(supercell)`
or `get_positions(supercell)`. -/
def generateVasp [LinearOrder α] (scaled : Bool) (cell : Matrix (Fin 3) (Fin 3) K) (types : List α) (coordinates : List (Fin 3 → K)) : List (PLine α K) :=
  let ec := vaspElements types
  [[.word .text, .word .text, .word .text],
   [.num 1],
   List.ofFn fun j => .num (cell 0 j), List.ofFn fun j => .num (cell 1 j), List.ofFn fun j => .num (cell 2 j),
   ec.1.map fun e => .word (.elem e),
   ec.2.map .nat,
   [if scaled then .word .direct else .word .cartesian]]
  ++ coordinates.map fun r => List.ofFn fun j => .num (r j)

/-- The result of a piece of Python code: a value, `ValueError`, or another exception (the `try` of
iofile/__init__.py:288-308). -/
inductive Py (β : Type*) where
  | ok (b : β)
  | valueError
  | error

/-- Sequencing of Python code (iofile/__init__.py:288-320). -/
def Py.bind {β γ : Type*} (x : Py β) (f : β → Py γ) : Py γ :=
  match x with
  | .ok b => f b
  | .valueError => .valueError
  | .error => .error

/-- A conversion that raises `ValueError` (iofile/__init__.py:288-308). -/
def Py.orValueError {β : Type*} : Option β → Py β
  | some b => .ok b
  | none => .valueError

/-- An index that raises `IndexError` (iofile/__init__.py:288-320). -/
def Py.orError {β : Type*} : Option β → Py β
  | some b => .ok b
  | none => .error

/-- `np.array([line.split()[0:3]], dtype=float)` for one line; a line with fewer than three numbers makes the array ragged (ValueError). -/
def floatRow (l : PLine α K) : Option (Fin 3 → K) :=
  match (l.take 3).mapM Tok.toFloat with
  | some [x, y, z] => some ![x, y, z]
  | _ => none

/-- `np.array([data_lines[start+k].split()[0:3] for k in range(n)], dtype=float)`. -/
def floatRows (lines : List (PLine α K)) (start n : ℕ) : Py (List (Fin 3 → K)) :=
  if lines.length < start + n then .error
  else Py.orValueError (((lines.drop start).take n).mapM floatRow)

/-- `atomic_types` (iofile/__init__.py:303-306, 317-320): the names of a line, each repeated. A missing count raises an IndexError; words of the line that are not names are
not modelled (`none`). -/
def repeatNames : List (Tok (PWord α) K) → List ℕ → Py (List α)
  | [], _ => .ok []
  | _ :: _, [] => .error
  | .word (.elem e) :: ws, n :: ns => (repeatNames ws ns).bind fun r => .ok (List.replicate n e ++ r)
  | _ :: _, _ :: _ => .error

/-- What the reader passes to `Structure` (iofile/__init__.py:323-328). -/
structure PoscarData (α K : Type*) where
  cell : Matrix (Fin 3) (Fin 3) K
  scaledPositions : Option (List (Fin 3 → K))
  positions : Option (List (Fin 3 → K))
  elements : List α

/-- Is the first character of the line a `D` or a `d`? (iofile/__init__.py:293, 310; an empty line raises an IndexError.) Simplification: names of elements and free text never begin
with a `D`. -/
def isDirect : PLine α K → Option Bool
  | [] => none
  | .word .direct :: _ => some true
  | _ :: _ => some false

/-- The body of one style of the format: counts in line `iCount`, coordinates after `iType`, names in line `iNames` (iofile/__init__.py:289-306 and 309-320). -/
def readStyle (lines : List (PLine α K)) (cell : Matrix (Fin 3) (Fin 3) K) (iCount iType iNames : ℕ) : Py (PoscarData α K) :=
  (Py.orError lines[iCount]?).bind fun l =>
  (Py.orValueError (l.mapM Tok.toInt)).bind fun counts =>
  (Py.orError lines[iType]?).bind fun t =>
  (Py.orError (isDirect t)).bind fun direct =>
  (floatRows lines (iType + 1) counts.sum).bind fun rows =>
  (Py.orError lines[iNames]?).bind fun names =>
  (repeatNames names counts).bind fun elements =>
  .ok (if direct then { cell := cell, scaledPositions := some rows, positions := none, elements := elements }
       else { cell := cell, scaledPositions := none, positions := some rows, elements := elements })

/-- `read_from_file_structure_poscar` (iofile/__init__.py:268-328); `none`: an exception. -/
def readPoscar (lines : List (PLine α K)) : Option (PoscarData α K) :=
  match lines[1]? with
  | some [m] => match m.toFloat with
    | none => none
    | some multiply => match floatRows lines 2 3 with
      | .ok [a, b, c] =>
        let cell : Matrix (Fin 3) (Fin 3) K := Matrix.of fun i j => ((![a, b, c] : Fin 3 → Fin 3 → K) i j) * multiply
        match readStyle lines cell 6 7 5 with
        | .ok r => some r
        | .error => none
        | .valueError => match readStyle lines cell 5 6 0 with
          | .ok r => some r
          | _ => none
      | _ => none
  | _ => none

end poscar

end Verif
