import Verif.Model.GenerateCell
import Verif.Model.Elements
import Verif.Model.Analysis
import Mathlib.Data.String.Basic

/-! # Drawings of the phonon modes (dynaphopy/analysis/modes.py:20-107, 110-219)

What `plot_phonon_modes` gives to matplotlib: atoms, frame of the cell, arrows (`modeArrow`, Model/Analysis) and legend. -/

set_option autoImplicit false

namespace Verif

/-- `color_atom` (analysis/modes.py:46-47). -/
def colorAtom : List Char :=
  ['g', 'b', 'm', 'c', 'y', 'k', 'w', 'g', 'b', 'm', 'c', 'y', 'k', 'w', 'g', 'b', 'm', 'c', 'y',
   'k', 'w', 'g', 'b', 'm', 'c', 'y', 'k', 'w', 'g', 'b', 'm', 'c', 'y', 'k', 'w', 'g', 'b']

/-- `atom_radius` (analysis/modes.py:110-219), in hundredths. -/
def atomRadius : List (String × ℕ) := [
  ("H", 32), ("He", 93), ("Li", 123), ("Be", 90), ("B", 82), ("C", 77), ("N", 75), ("O", 73), ("F", 72), ("Ne", 71), ("Na", 154), ("Mg", 136),
  ("Al", 118), ("Si", 111), ("P", 106), ("S", 102), ("Cl", 99), ("Ar", 98), ("K", 203), ("Ca", 174), ("Sc", 144), ("Ti", 132), ("V", 122),
  ("Cr", 118), ("Mn", 117), ("Fe", 117), ("Co", 116), ("Ni", 115), ("Cu", 117), ("Zn", 125), ("Ga", 126), ("Ge", 122), ("As", 120), ("Se", 116),
  ("Br", 114), ("Kr", 112), ("Rb", 216), ("Sr", 191), ("Y", 162), ("Zr", 145), ("Nb", 134), ("Mo", 130), ("Tc", 127), ("Ru", 125), ("Rh", 125),
  ("Pd", 128), ("Ag", 134), ("Cd", 148), ("In", 144), ("Sn", 141), ("Sb", 140), ("Te", 136), ("I", 133), ("Xe", 131), ("Cs", 235), ("Ba", 198),
  ("La", 169), ("Ce", 165), ("Pr", 165), ("Nd", 164), ("Pm", 163), ("Sm", 162), ("Eu", 185), ("Gd", 161), ("Tb", 159), ("Dy", 159), ("Ho", 158),
  ("Er", 157), ("Tm", 156), ("Yb", 174), ("Lu", 156), ("Hf", 144), ("Ta", 134), ("W", 130), ("Re", 128), ("Os", 126), ("Ir", 127), ("Pt", 130),
  ("Au", 134), ("Hg", 149), ("Tl", 148), ("Pb", 147), ("Bi", 146), ("Po", 146), ("At", 145), ("Rn", 0), ("Fr", 0), ("Ra", 0), ("Ac", 0), ("Th", 165),
  ("Pa", 0), ("U", 142), ("Np", 0), ("Pu", 0), ("Am", 0), ("Cm", 0), ("Bk", 0), ("Cf", 0), ("Es", 0), ("Fm", 0), ("Md", 0), ("No", 0), ("Lr", 0),
  ("Rf", 0), ("Db", 0), ("Sg", 0), ("Bh", 0), ("Hs", 0), ("Mt", 0)]

section frame
variable {V : Type*} [AddCommMonoid V]

/-- The lines of the cell frame, in the order in which they are drawn (analysis/modes.py:58-72). -/
def cellFrame (cell : Fin 3 → V) : List (V × V) :=
  (List.finRange 3).flatMap fun i =>
    [(0, cell i)] ++ (List.finRange 3).flatMap fun j =>
      if i ≠ j then
        [(cell i, cell i + cell j)] ++ (List.finRange 3).flatMap fun k =>
          if k ≠ i ∧ k ≠ j ∧ j > i then [(cell i + cell j, cell i + cell j + cell k)] else []
      else []

end frame

/-- `elements_unique` (analysis/modes.py:49-52): the number of the colour of each atom. -/
def colorNumbers (byElement : Bool) (elements : List String) (types : List ℕ) : List ℕ :=
  if byElement then elements.map fun e => (npUnique elements).1.idxOf e else types

/-- One atom: position, size of the marker (hundredths), colour (analysis/modes.py:55-56). `none`: KeyError or IndexError. -/
def drawAtom {P : Type} (numbers : List ℕ) (elements : List String) (i : ℕ) (position : P) : Option (P × ℕ × Char) :=
  elements[i]?.bind fun e => (atomRadius.lookup e).bind fun r => numbers[i]?.bind fun n => colorAtom[n]?.map fun c => (position, r * 30, c)

/-- The legend: colours and labels (analysis/modes.py:85-95). Without `by_element`, `atom_type_index_unique` is element 0 of what
`np.unique(..., return_index=True)` returns: the types, not the indices. -/
def modeLegend (byElement : Bool) (elements : List String) (types : List ℕ) : Option (List (Char × String)) :=
  (if byElement then some (npUnique elements).1 else (npUnique types).1.mapM fun i => elements[i]?).bind fun labels =>
    labels.zipIdx.mapM fun li => colorAtom[li.2]?.map fun c => (c, li.1)

/-- The drawing of one phonon (analysis/modes.py:35-104), without the arrows. -/
def drawMode {V P : Type} [AddCommMonoid V] (byElement : Bool) (cell : Fin 3 → V) (positions : List P) (elements : List String) (types : List ℕ) :
    Option (List (P × ℕ × Char) × List (V × V) × List (Char × String)) :=
  let numbers := colorNumbers byElement elements types
  (positions.zipIdx.mapM fun pi => drawAtom numbers elements pi.2 pi.1).bind fun atoms =>
    (modeLegend byElement elements types).map fun legend => (atoms, cellFrame cell, legend)

end Verif
