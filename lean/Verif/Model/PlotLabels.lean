import Verif.Model.GenerateCell
import Verif.Model.Supercell
import Mathlib.Data.Complex.Basic

/-! # Texts and axes of the plots, text files of the projections (dynaphopy/__init__.py)

Texts are lists of characters. What matplotlib does with them is not modelled. -/

set_option autoImplicit false

namespace Verif

/-- The substitution for `GAMMA` (dynaphopy/__init__.py:1473): `$\Gamma$`. -/
def gammaText : List Char := ['$', '\\', 'G', 'a', 'm', 'm', 'a', '$']

/-- `replace_list` (dynaphopy/__init__.py:1472-1478): `str.replace` replaces the
occurrences from left to right. -/
def replaceList : List Char → List Char
  | 'G' :: 'A' :: 'M' :: 'M' :: 'A' :: t => gammaText ++ replaceList t
  | c :: t => c :: replaceList t
  | [] => []

/-- The ticks of a band plot (dynaphopy/__init__.py:228-244, 289-305, 364-380): positions and
texts. `bands` are the distances of the points of each segment (`self._bands[1]`). `labels[i - 1]` is the last element for `i = 0`. `none`: IndexError. -/
def bandTicks {K : Type} (labels : List (List Char × List Char)) (bands : List (List K)) : Option (List K × List (List Char)) := do
  let rows : List (K × List Char) ← (List.range bands.length).mapM fun (i : ℕ) => do
    let a : List Char × List Char ← labels[i]?
    let b : List Char × List Char ← (if i = 0 then labels.getLast? else labels[i - 1]?)
    let xs : List K ← bands[i]?
    let x : K ← xs.head?
    some (x, if a.1 = b.2 then replaceList a.1 else replaceList b.2 ++ ['/'] ++ replaceList a.1)
  let xs ← bands.getLast?
  let x ← xs.getLast?
  let l ← labels.getLast?
  let f ← labels.head?
  some (rows.map Prod.fst ++ [x], (rows.map Prod.snd ++ [replaceList l.2]).set 0 (replaceList f.1))

/-- `get_atomic_elements(unique=True)` (dynaphopy/atoms.py:265-275) without a supercell: `types` is what `get_atom_type_index` returns. -/
def uniqueElements {α : Type*} (elements : List α) (types : List ℕ) : List α := fancy elements (npUnique types).2

/-- The element printed by `get_vc` for a projection onto an atom type (dynaphopy/__init__.py:633-635): `some none` is an IndexError, `none` nothing
printed. -/
def projectedElement {α : Type*} (elements : List α) (types : List ℕ) (atom : ℤ) : Option (Option α) :=
  if -1 < atom then some ((uniqueElements elements types)[atom.toNat]?) else none

/-- `np.linspace(0, stop, num=n)` (dynaphopy/__init__.py:654-655, 668-669). -/
def linspaceZero {K : Type*} [Field K] (stop : K) (n : ℕ) : List K :=
  (List.range n).map fun (i : ℕ) => (i : K) * (stop / ((n - 1 : ℕ) : K))

/-- The time axis of `plot_vq` and `plot_vc` (dynaphopy/__init__.py:654-655, 668-669) for `n` steps. -/
def projectionTimes {K : Type*} [Field K] (n : ℕ) (dt : K) : List K := linspaceZero ((n : K) * dt) n

/-- The curves of `plot_vc` (dynaphopy/__init__.py:662-680): for each selected atom and coordinate the label and the points. `vc[t][atom][coordinate]`;
`none`: an index that does not exist (negative ones are not modelled). Empty selections mean `[0]`. -/
def plotVcCurves {K : Type*} [Field K] (vc : List (List (List K))) (dt : K) (atoms coordinates : List ℕ) : Option (List ((ℕ × ℕ) × List (K × K))) :=
  let atoms := if atoms = [] then [0] else atoms
  let coordinates := if coordinates = [] then [0] else coordinates
  (atoms.flatMap fun a => coordinates.map fun c => (a, c)).mapM fun ac => do
    let ys ← vc.mapM fun (frame : List (List K)) => (frame[ac.1]?).bind fun row => row[ac.2]?
    some (ac, (projectionTimes vc.length dt).zip ys)

/-- `save_vc` (dynaphopy/__init__.py:683-688): the rows of the file, `enc` is the text of one number (`%+.8e%+.8ej`). `none`: an exception (no such atom, or
not three coordinates: the format has three fields). `vc.shape[1]` is `natoms`. -/
def saveVc {V T : Type*} (enc : V → T) (natoms : ℕ) (vc : List (List (List V))) (atom : ℤ) : Option (List (List T)) :=
  if 0 < atom ∧ atom ≤ natoms then
    vc.mapM fun (frame : List (List V)) => (frame[(atom - 1).toNat]?).bind fun row => if row.length = 3 then some (row.map enc) else none
  else none

/-- `save_vq` (dynaphopy/__init__.py:690-694). -/
def saveVq {V T : Type*} (enc : V → T) (vq : List (List V)) : List (List T) := vq.map fun row => row.map enc

end Verif
