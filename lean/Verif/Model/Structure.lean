import Verif.Model.Supercell
import Mathlib.Data.Matrix.Mul
import Mathlib.Data.Finset.Card
import Mathlib.Data.Finset.Dedup

/-!
# `Structure` (dynaphopy/atoms.py): cached attributes and the atom type loop

Every method is a function returning the result together with the new object; `none` is the Python
`exit()`/exception branch.
-/

set_option autoImplicit false

namespace Verif

variable {K : Type*} [Field K] [LinearOrder K] [IsStrictOrderedRing K] [FloorRing K] {d : ℕ}

/-- The attributes of `Structure`, dynaphopy/atoms.py:33-53, that the modelled methods use. `None` is `none`.
Simplification: `_masses` is always known (it is inferred in `__init__`, see `Model/Elements.lean`);
charges, force constants and force sets are left out. -/
structure Structure (K : Type*) (d : ℕ) where
  cell : Matrix (Fin d) (Fin d) K
  positions : Option (List (Fin d → K)) := none
  scaled : Option (List (Fin d → K)) := none
  masses : List K
  primitiveMatrix : Option (Matrix (Fin d) (Fin d) K) := none
  primitiveCell : Option (Matrix (Fin d) (Fin d) K) := none
  typeIndex : Option (List ℕ) := none
  nTypes : Option ℕ := none
  nPrimitive : Option ℕ := none
  nCellAtoms : Option ℕ := none

/-- `np.linalg.inv`: raises `LinAlgError` for a singular matrix (dynaphopy/atoms.py:132, 137, 161, 165, 291). -/
noncomputable def npInv (A : Matrix (Fin d) (Fin d) K) : Option (Matrix (Fin d) (Fin d) K) :=
  if A.det = 0 then none else some A⁻¹

/-- `np.dot(rows, A)` for an array of row vectors (dynaphopy/atoms.py:137, 145, 161, 165). -/
def rowsMul (rows : List (Fin d → K)) (A : Matrix (Fin d) (Fin d) K) : List (Fin d → K) :=
  rows.map fun v => Matrix.vecMul v A

namespace Structure

/-- `supercell = self.get_number_of_dimensions() * [1]` when the argument is `None`
(dynaphopy/atoms.py:147-148, 202-203, 311-312). -/
def superOr (d : ℕ) (supercell : Option (List ℕ)) : List ℕ := supercell.getD (List.replicate d 1)

/-- `set_cell`, dynaphopy/atoms.py:85-86. -/
def setCell (s : Structure K d) (cell : Matrix (Fin d) (Fin d) K) : Structure K d := { s with cell := cell }

/-- `get_positions`, dynaphopy/atoms.py:139-156. -/
def getPositions (s : Structure K d) (supercell : Option (List ℕ)) :
    Option (List (Fin d → K) × Structure K d) :=
  match s.positions with
  | some p => some (positionsSupercell p s.cell (superOr d supercell), s)
  | none =>
    match s.scaled with
    | none => none
    | some sp =>
      let p := rowsMul sp s.cell
      some (positionsSupercell p s.cell (superOr d supercell), { s with positions := some p })

/-- `set_positions`, dynaphopy/atoms.py:136-137 (only `_scaled_positions` is assigned). -/
noncomputable def setPositions (s : Structure K d) (p : List (Fin d → K)) : Option (Structure K d) :=
  (npInv s.cell).map fun inv => { s with scaled := some (rowsMul p inv) }

/-- `get_scaled_positions`, dynaphopy/atoms.py:158-168. -/
noncomputable def getScaledPositions (s : Structure K d) (supercell : Option (Fin d → ℕ)) :
    Option (List (Fin d → K) × Structure K d) := do
  let s ← match s.scaled with
    | some _ => some s
    | none => do
      let (p, s) ← s.getPositions none
      let inv ← npInv s.cell
      some { s with scaled := some (rowsMul p inv) }
  match supercell with
  | some n => do
    let (p, s) ← s.getPositions (some (List.ofFn n))
    let inv ← npInv (getCellSupercell s.cell n)
    some (rowsMul p inv, s)
  | none => do
    let sp ← s.scaled
    some (sp, s)

/-- `set_primitive_matrix`, dynaphopy/atoms.py:119-124. -/
def setPrimitiveMatrix (s : Structure K d) (P : Matrix (Fin d) (Fin d) K) : Structure K d :=
  { s with primitiveMatrix := some P, nTypes := none, nPrimitive := none, typeIndex := none,
           primitiveCell := none }

/-- `get_primitive_matrix`, dynaphopy/atoms.py:126-133. -/
noncomputable def getPrimitiveMatrix (s : Structure K d) :
    Option (Matrix (Fin d) (Fin d) K × Structure K d) :=
  match s.primitiveMatrix with
  | some P => some (P, s)
  | none =>
    match s.primitiveCell with
    | none => some (1, { s with primitiveMatrix := some 1 })
    | some pc => (npInv s.cell).map fun inv => (inv * pc, { s with primitiveMatrix := some (inv * pc) })

/-- `get_primitive_cell`, dynaphopy/atoms.py:113-116. -/
noncomputable def getPrimitiveCell (s : Structure K d) :
    Option (Matrix (Fin d) (Fin d) K × Structure K d) :=
  match s.primitiveCell with
  | some pc => some (pc, s)
  | none => do
    let (P, s) ← s.getPrimitiveMatrix
    let pc := (s.cell.transpose * P).transpose
    some (pc, { s with primitiveCell := some pc })

/-- `get_number_of_cell_atoms`, dynaphopy/atoms.py:224-227. -/
def getNumberOfCellAtoms (s : Structure K d) : Option (ℕ × Structure K d) :=
  match s.nCellAtoms with
  | some n => some (n, s)
  | none => do
    let (p, s) ← s.getPositions none
    some (p.length, { s with nCellAtoms := some p.length })

/-- `get_masses`, dynaphopy/atoms.py:201-208: the loop runs over the number of cell atoms
(`_masses[j]` beyond the array raises). -/
def getMasses (s : Structure K d) (supercell : Option (List ℕ)) : Option (List K × Structure K d) := do
  let (n, s) ← s.getNumberOfCellAtoms
  if s.masses.length < n then none
  else some (expandSupercell (s.masses.take n) (superOr d supercell), s)

end Structure

/-- One inner iteration of the atom type loop, dynaphopy/atoms.py:299-308: `same i j` is the test of line 307. The label
array is a function of the index. -/
def typeInner (same : ℕ → ℕ → Bool) (i : ℕ) (t : ℕ → Option ℕ) (j : ℕ) : ℕ → Option ℕ :=
  if same i j then Function.update t j (t i) else t

/-- One outer iteration, dynaphopy/atoms.py:295-308; the state is the label array and `counter`. -/
def typeOuter (same : ℕ → ℕ → Bool) (n : ℕ) (st : (ℕ → Option ℕ) × ℕ) (i : ℕ) : (ℕ → Option ℕ) × ℕ :=
  let st := if (st.1 i).isNone then (Function.update st.1 i (some st.2), st.2 + 1) else st
  ((List.range' (i + 1) (n - (i + 1))).foldl (typeInner same i) st.1, st.2)

/-- The atom type loop, dynaphopy/atoms.py:293-309, for `n` atoms. -/
def typeLoop (same : ℕ → ℕ → Bool) (n : ℕ) : (ℕ → Option ℕ) × ℕ :=
  (List.range n).foldl (typeOuter same n) (fun _ => none, 0)

/-- The resulting `_atom_type_index` (the cast to `int` of line 309 would raise on `None`; it is shown below that no
entry is `None`). -/
def typeLabels (same : ℕ → ℕ → Bool) (n : ℕ) : List ℕ :=
  (List.range n).map fun i => ((typeLoop same n).1 i).getD 0

/-- Lines 300-305 of dynaphopy/atoms.py: squared distance of atom `j` from atom `i` after removing the nearest primitive
lattice vector. `pow(np.linalg.norm(v), 2)` is the sum of squares. -/
noncomputable def atomSeparation (primCell : Matrix (Fin d) (Fin d) K) (ri rj : Fin d → K) : K :=
  let diff : Fin d → K := fun c => (roundEven ((Matrix.mulVec (primCell⁻¹).transpose (rj - ri)) c) : K)
  let proj := rj - Matrix.mulVec primCell.transpose diff
  ∑ c, (proj - ri) c ^ 2

/-- The test of line 307 of dynaphopy/atoms.py with the list `masses` of line 288. -/
noncomputable def sameAtoms (primCell : Matrix (Fin d) (Fin d) K) (pos : List (Fin d → K))
    (masses : List K) (i j : ℕ) : Bool :=
  decide (atomSeparation primCell (pos.getD i 0) (pos.getD j 0) < 1 / 1000) && decide (masses[i]? = masses[j]?)

namespace Structure

/-- `get_atom_type_index`, dynaphopy/atoms.py:285-317. Note that `masses` (line 288) is the list expanded by the
`supercell` argument while the loop indexes it with unit cell indices.
`_atom_type_index[j]` beyond the array (line 316) raises. -/
noncomputable def getAtomTypeIndex (s : Structure K d) (supercell : Option (List ℕ)) :
    Option (List ℕ × Structure K d) := do
  let (masses, s) ← s.getMasses supercell
  let (t, s) ← match s.typeIndex with
    | some t => some (t, s)
    | none => do
      let (pc, s) ← s.getPrimitiveCell
      let _ ← npInv pc
      let (n, s) ← s.getNumberOfCellAtoms
      let (pos, s) ← s.getPositions none
      let t := typeLabels (sameAtoms pc pos masses) n
      some (t, { s with typeIndex := some t })
  let (n, s) ← s.getNumberOfCellAtoms
  if t.length < n then none
  else some (expandSupercell (t.take n) (superOr d supercell), s)

/-- `get_number_of_atom_types`, dynaphopy/atoms.py:250-254. -/
noncomputable def getNumberOfAtomTypes (s : Structure K d) : Option (ℕ × Structure K d) :=
  match s.nTypes with
  | some n => some (n, s)
  | none => do
    let (t, s) ← s.getAtomTypeIndex none
    some (t.toFinset.card, { s with nTypes := some t.toFinset.card })

/-- `get_number_of_primitive_atoms`, dynaphopy/atoms.py:256-259. -/
noncomputable def getNumberOfPrimitiveAtoms (s : Structure K d) : Option (ℕ × Structure K d) :=
  match s.nPrimitive with
  | some n => some (n, s)
  | none => do
    let (t, s) ← s.getAtomTypeIndex none
    some (t.toFinset.card, { s with nPrimitive := some t.toFinset.card })

end Structure
end Verif
