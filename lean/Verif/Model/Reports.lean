import Verif.Model.Parsers
import Verif.Model.Text
import Verif.Model.Fitting
import Verif.Model.Averages
import Verif.Model.Thermal

/-! # Tables printed on the screen

The lines of text that `print` gives, without the end of line characters. Numbers are exact; `inf` and `nan` are not modelled. -/

set_option autoImplicit false

namespace Verif

/-- `'{0:<w>}'.format(s)` of a text: padded with blanks on the right. -/
def padRight (w : ℕ) (s : Line) : Line := s ++ List.replicate (w - s.length) ' '

section
variable {K : Type} [Field K] [LinearOrder K] [IsStrictOrderedRing K] [FloorRing K]

/-- `'{0:2} '.format(element) + '{0:15.8f} {1:15.8f} {2:15.8f}'.format(*coordinate.real)` (dynaphopy/__init__.py:1443). -/
def positionLine (element : Line) (r : Fin 3 → K) : Line :=
  padRight 2 element ++ [' '] ++ fixedField 15 8 (r 0) ++ [' '] ++ fixedField 15 8 (r 1) ++ [' '] ++ fixedField 15 8 (r 2)

/-- What `get_average_atomic_positions` prints (dynaphopy/__init__.py:1432-1443): `elements`, `positions` are the lists of lines 1439-1440; an element missing is an IndexError (`none`). -/
def positionsReport (elements : List Line) (positions : List (Fin 3 → K)) : Option (List Line) := do
  let rows ← (List.range positions.length).mapM fun i => do
    let e ← elements[i]?
    let r : Fin 3 → K ← positions[i]?
    return positionLine e r
  return "Average atomic positions".toList :: rows

/-- `np.unique(l, return_index=True)[1]` for non-negative integers (dynaphopy/__init__.py:1389): where each value occurs first, values in increasing order. -/
def npUniqueIndex (l : List ℕ) : List ℕ := ((List.range (l.foldr max 0 + 1)).filter fun v => v ∈ l).map fun v => l.idxOf v

/-- The line of one atom with the tensor `u` (dynaphopy/__init__.py:1418-1426). -/
def adpLine (element : Line) (u : Fin 3 → Fin 3 → K) : Line :=
  padRight 3 element ++ [' '] ++ fixedField 12 8 (u 0 0) ++ [' '] ++ fixedField 12 8 (u 1 1) ++ [' '] ++ fixedField 12 8 (u 2 2) ++ [' '] ++ fixedField 12 8 (u 1 2) ++ [' '] ++ fixedField 12 8 (u 0 2)
    ++ [' '] ++ fixedField 12 8 (u 0 1)

/-- What `get_anisotropic_displacement_parameters` prints (dynaphopy/__init__.py:1385-1426): `types` is `get_atom_type_index()`, `u t` the tensor of type `t` in the coordinates asked for (see `Verif.Model.Adp`), `nTypes` the number of
matrices; an index that does not exist is an IndexError (`none`). -/
def adpReport (coordinateType : Line) (elements : List Line) (types : List ℕ) (nTypes : ℕ) (u : ℕ → Fin 3 → Fin 3 → K) : Option (List Line) := do
  let unique ← (npUniqueIndex types).mapM fun i => elements[i]?
  let rows ← (List.range nTypes).mapM fun i => do
    let count ← (npUniqueCounts types)[i]?
    let e ← unique[i]?
    return List.replicate count (adpLine e (u i))
  return ("Anisotropic displacement parameters (".toList ++ coordinateType ++ ") [relative to average atomic positions]".toList) ::
    "          U11          U22          U33          U23          U13          U12".toList :: rows.flatten

/-- One row of the table of thermal properties (dynaphopy/__init__.py:1358-1362, 1373-1377): the arguments with the indices `ix`, two blanks between them. -/
def thermalLine (label : String) (args : List K) (ix : List ℕ) : Option Line := do
  let fields ← ix.mapM fun i => (args[i]?).map (fixedField 12 4)
  return label.toList ++ ((fields.intersperse "  ".toList).flatten)

/-- The table of `display_thermal_properties` (dynaphopy/__init__.py:1358-1364, 1373-1378) from the lists of lines 1326-1328 and, with `from_power_spectrum`, 1353. -/
def thermalTable (harmonic renormalized : List K) (power : Option (List K)) : Option (List Line) :=
  match power with
  | some p => do
    let args := harmonic ++ renormalized ++ p
    let l0 ← thermalLine "Free energy   (KJ/mol): " args [0, 5, 10]
    let l1 ← thermalLine "Entropy      (J/K/mol): " args [1, 6, 11]
    let l2 ← thermalLine "Cv           (J/K/mol): " args [2, 7, 12]
    let l3 ← thermalLine "Total energy  (KJ/mol): " args [3, 8, 13]
    let l4 ← thermalLine "Integration:            " args [4, 9, 14]
    return [l0, l1, l2, l3, l4]
  | none => do
    let args := harmonic ++ renormalized
    let l0 ← thermalLine "Free energy   (KJ/mol): " args [0, 5]
    let l1 ← thermalLine "Entropy      (J/K/mol): " args [1, 6]
    let l2 ← thermalLine "Cv           (J/K/mol): " args [2, 7]
    let l3 ← thermalLine "Total energy  (KJ/mol): " args [3, 8]
    let l4 ← thermalLine "Integration:            " args [4, 9]
    return [l0, l1, l2, l3, l4]

/-- The table of the properties calculated by phonopy (dynaphopy/__init__.py:1321-1324) from the two results of `obtain_phonopy_thermal_properties`. -/
def phonopyTable (harmonic renormalized : List K) : Option (List Line) := do
  let args := harmonic ++ renormalized
  let l0 ← thermalLine "Free energy (not corrected):   " args [0, 3]
  let l1 ← thermalLine "Entropy:                       " args [1, 4]
  let l2 ← thermalLine "Cv:                            " args [2, 5]
  return [l0 ++ "   KJ/mol".toList, l1 ++ "   J/K/mol".toList, l2 ++ "   J/K/mol".toList]

end

/-- The list that `get_thermal_properties` returns (dynaphopy/__init__.py:1299), also line 1353. -/
def ThermalProps.toList (p : ThermalProps) : List ℝ := [p.freeEnergy, p.entropy, p.cv, p.totalEnergy, p.integration]

/-- The results of a fit used in the report (fitting/__init__.py:82-87, 143-145) and the integral of the spectrum (line 89). -/
structure PeakFit extends FitResult where
  error : ℝ
  asymmetry : Option ℝ
  total : ℝ

/-- The four lists that `phonon_fitting_analysis` returns (fitting/__init__.py:190-193), at one branch. -/
structure PeakRow where
  position : ℝ
  width : ℝ
  error : ℝ
  dtQ2 : ℝ

/-- `label` and a number in `{0:15.6f}` followed by `unit` (fitting/__init__.py:120-148). -/
noncomputable def peakLine (label : Line) (x : ℝ) (unit : String) : Line := label ++ fixedField 15 6 x ++ unit.toList

/-- What is printed for branch `i` (fitting/__init__.py:78, 118-149), with the harmonic frequencies (always given, dynaphopy/__init__.py:866, 1155). -/
noncomputable def peakBlock (curveName : Line) (showOccupancy : Bool) (harmonic : ℕ → ℝ) (shift : Option (ℕ → ℝ)) (i : ℕ) (fit : Option PeakFit) : List Line :=
  match fit with
  | none => ["Warning: Fitting not successful in peak #".toList ++ natText (i + 1)]
  | some r =>
    [[], "Peak # ".toList ++ natText (i + 1), "----------------------------------------------".toList,
      peakLine "Width                      ".toList r.width " THz",
      peakLine "Position                   ".toList r.position " THz",
      peakLine ("Area (<K>)    (".toList ++ curveName.take 10 ++ ") ".toList) r.area " eV",
      peakLine "Area (<K>)    (Total)      ".toList r.total " eV",
      peakLine "<|dQ/dt|^2>                ".toList (2 * r.area) " eV"] ++
    (if showOccupancy then [peakLine "Occupation number          ".toList (occupancy r.area r.position) "", peakLine "Fit temperature            ".toList (fitTemperature r.area r.position) " K"] else []) ++
    [peakLine "Base line                  ".toList r.baseLine " eV * ps",
      peakLine "Maximum height             ".toList r.maximum " eV * ps",
      peakLine "Fitting global error       ".toList r.error ""] ++
    (match r.asymmetry with
      | some a => [peakLine "Peak asymmetry             ".toList a ""]
      | none => []) ++
    [peakLine "Frequency shift            ".toList (r.position - harmonic i) " THz"] ++
    (match shift with
      | some s => [peakLine "Frequency shift (+T. exp.) ".toList (r.position - harmonic i + s i) " THz"]
      | none => [])

/-- What is appended to the lists for branch `i` (fitting/__init__.py:73-79, 148-154). -/
noncomputable def peakRow (shift : Option (ℕ → ℝ)) (i : ℕ) (fit : Option PeakFit) : PeakRow :=
  match fit with
  | none => ⟨0, 0, 0, 0⟩
  | some r =>
    let position := match shift with
      | some s => r.position + s i
      | none => r.position
    ⟨position, r.width, r.error / r.maximum, 2 * r.area⟩

/-- `phonon_fitting_analysis` (fitting/__init__.py:53-193) without plots: the lines printed and the lists returned; `fitOne i` is the outcome of the fit of branch `i` (`none`: not `all_good`). The case of peak position zero with warnings
turned into errors (lines 105-113) is left out. -/
noncomputable def fittingReport (n : ℕ) (fitOne : ℕ → Option PeakFit) (curveName : Line) (showOccupancy : Bool) (harmonic : ℕ → ℝ) (shift : Option (ℕ → ℝ)) : List Line × List PeakRow :=
  (List.range n).foldl (fun acc i => (acc.1 ++ peakBlock curveName showOccupancy harmonic shift i (fitOne i), acc.2 ++ [peakRow shift i (fitOne i)])) ([], [])

end Verif
