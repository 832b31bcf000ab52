import Verif.Model.Structure

/-! # XSF files (dynaphopy/interface/iofile/__init__.py:609-634) -/

set_option autoImplicit false

namespace Verif

/-- The body of the `while` loop (iofile/__init__.py:626-632): the state is `counter` and the indices of the atoms written so far; the inner `for` writes the first atom whose type is `counter`, if there
is one. -/
def xsfStep (labels : List ℕ) (st : ℕ × List ℕ) : ℕ × List ℕ :=
  match (List.range labels.length).find? fun i => labels[i]? = some st.1 with
  | some i => (st.1 + 1, st.2 ++ [i])
  | none => st

/-- After `k` iterations of `while counter < types` (iofile/__init__.py:625); the loop has ended when `counter` is not less than `types`, further iterations are not run. -/
def xsfRun (labels : List ℕ) (types : ℕ) : ℕ → ℕ × List ℕ
  | 0 => (0, [])
  | k + 1 =>
    let st := xsfRun labels types k
    if st.1 < types then xsfStep labels st else st

/-- The loop ends, with the atoms `out` written (iofile/__init__.py:625-632). -/
def XsfWrites (labels : List ℕ) (types : ℕ) (out : List ℕ) : Prop := ∃ k, ¬ (xsfRun labels types k).1 < types ∧ (xsfRun labels types k).2 = out

/-- `set_atom_type_index_by_element` (dynaphopy/atoms.py:277-283) for a structure without types: `number_of_atom_types` is the number of distinct atomic numbers, computed (and kept) at the first pass; each
label is the last `index` less than it with the same element, and stays the atomic number if there is none. -/
def elementTypes (numbers : List ℕ) : List ℕ :=
  numbers.map fun z => (((List.range numbers.toFinset.card).filter fun index => numbers[index]? = some z).getLast?).getD z

end Verif
