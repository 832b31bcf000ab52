import Verif.Model.Outputs
import Verif.Model.MeshData

/-! # Renormalized bands along a path (dynaphopy/__init__.py:248-381, 396-530)

`get_renormalized_phonon_dispersion_bands` with its three flags, and what the two plots draw of its result. phonopy is a parameter; colours, titles and matplotlib are left out. -/

set_option autoImplicit false
set_option linter.unusedSectionVars false

namespace Verif

/-- `set_order(bands, renormalized_bands)` (dynaphopy/__init__.py:433-443): the frequencies of each segment in the order of the eigenvectors of `bands`; the eigenvectors stay as they are. -/
noncomputable def setOrder {n : ℕ} (bands renormalized : List (Segment n)) : List (Segment n) :=
  (bands.zip renormalized).map (fun p => { p.2 with freq := p.2.freq.map fun f => reorderBands f fun i => (eigenvectorOrder p.1.ev p.2.ev i).getD i })
    ++ renormalized.drop bands.length

/-- The frequencies of a segment as an array (`bands[2][i]`, dynaphopy/__init__.py:508-525). -/
def Segment.table {n : ℕ} (s : Segment n) : FreqTable ℝ :=
  { points := s.freq.length, branches := n, val := fun p k => if h : k < n then (s.freq.getD p 0) ⟨k, h⟩ else 0 }

/-- What phonopy computes: the bands of one segment for a dynamical matrix (`run_band_structure`, phonopy_link.py:319-321; one call solves all segments, one after the other), the distances along the path,
and the dynamical matrix at a wave vector for the dynamical matrices at the commensurate points (through the force constants, `get_renormalized_force_constants`, phonopy_link.py:366-412).
`V`: wave vectors, `Com`: commensurate points. -/
structure BandTools (n : ℕ) (Com : Type) where
  run : ((Fin 3 → ℝ) → Matrix (Fin n) (Fin n) ℂ) → Bool → List (Fin 3 → ℝ) → Segment n
  distances : List (List (Fin 3 → ℝ)) → List (List ℝ)
  harmonic : (Fin 3 → ℝ) → Matrix (Fin n) (Fin n) ℂ
  interpolate : (Com → Matrix (Fin n) (Fin n) ℂ) → (Fin 3 → ℝ) → Matrix (Fin n) (Fin n) ℂ

/-- The data at the commensurate points (`get_commensurate_points_data`, dynaphopy/__init__.py:478-482). -/
structure ComData (n : ℕ) (Com : Type) where
  frequencies : Com → Fin n → ℝ
  linewidths : Com → Fin n → ℝ
  eigenvectors : Com → List (List (List ℂ))

section run
variable {na nd : ℕ} {Com : Type} (factor : ℝ) (tools : BandTools (na * nd) Com) (data : ComData (na * nd) Com) (resolution : ℕ) (ranges : List ((Fin 3 → ℝ) × (Fin 3 → ℝ)))

/-- The wave vectors of the path (phonopy_link.py:313-318). -/
noncomputable def bandPaths : List (List (Fin 3 → ℝ)) := ranges.map fun r => bandPoints resolution r.1 r.2

/-- `_bands` (dynaphopy/__init__.py:449-457). -/
noncomputable def harmonicSegments (connection interconnect : Bool) : List (Segment (na * nd)) :=
  let bands := (bandPaths resolution ranges).map (tools.run tools.harmonic connection)
  if interconnect then reconnectEigenvectors bands else bands

/-- `obtain_phonon_dispersion_bands` for the force constants of the given numbers at the commensurate points, followed by `set_order` if `band_connection`
(dynaphopy/__init__.py:459-474, 484-501). -/
noncomputable def renormalizedSegments (connection interconnect : Bool) (values : Com → Fin (na * nd) → ℝ) : List (Segment (na * nd)) :=
  let bands := (bandPaths resolution ranges).map
    (tools.run (tools.interpolate fun p => renormalizedDynmat na nd factor (values p) (data.eigenvectors p)) connection)
  if connection then setOrder (harmonicSegments tools resolution ranges connection interconnect) bands else bands

/-- `get_renormalized_phonon_dispersion_bands(with_linewidths, interconnect_bands, band_connection)` (dynaphopy/__init__.py:396-530). -/
noncomputable def renormalizedBands {L : Type} (labels : Option (List (L × L))) (withLinewidths interconnect connection : Bool) : Option (List (BandData ℝ (Fin 3 → ℝ) L)) :=
  bandsFullData ranges labels (tools.distances (bandPaths resolution ranges))
    ((harmonicSegments tools resolution ranges connection interconnect).map Segment.table)
    ((renormalizedSegments factor tools data resolution ranges connection interconnect data.frequencies).map Segment.table)
    (if withLinewidths then
      some ((renormalizedSegments factor tools data resolution ranges connection interconnect fun p s => data.frequencies p s + data.linewidths p s / 2).map Segment.table,
        (renormalizedSegments factor tools data resolution ranges connection interconnect fun p s => data.frequencies p s - data.linewidths p s / 2).map Segment.table)
    else none)

end run

/-! ## What the plots draw -/

/-- `path[...]['branch_{}'.format(j)]` (dynaphopy/__init__.py:325-338); `none`: KeyError. -/
def branchOf (d : List (ℕ × List ℝ)) (j : ℕ) : Option (List ℝ) := d.lookup j

/-- The curves of the four figures of `plot_linewidths_and_shifts_bands` (dynaphopy/__init__.py:309-338): linewidths, harmonic frequencies, shifts, renormalized frequencies; in each figure, for each
segment and each branch, the distances and the values. The number of branches is that of the linewidths of the first segment. `none`: an exception. -/
def bandFigures {Q L : Type} (bands : List (BandData ℝ Q L)) : Option (List (List (List (List ℝ × List ℝ)))) := do
  let first ← bands.head?
  let number := (← first.linewidth).length
  let figure (get : BandData ℝ Q L → Option (List (ℕ × List ℝ))) : Option (List (List (List ℝ × List ℝ))) :=
    bands.mapM fun path => (List.range number).mapM fun j => do
      let d ← get path
      let branch ← branchOf d j
      some (path.distances, branch)
  let f0 ← figure BandData.linewidth
  let f1 ← figure fun b => some b.harmonic
  let f2 ← figure fun b => some b.shifts
  let f3 ← figure fun b => some b.renormalized
  some [f0, f1, f2, f3]

/-- One curve or one filled area of `plot_renormalized_phonon_dispersion_bands`; the label tells the two kinds of curves apart. -/
inductive BandDrawing where
  | curve (harmonic : Bool) (x y : List ℝ)
  | area (x upper lower : List ℝ)

/-- `np.array(list(d.values()))`: the values of the dictionary in its order. -/
def dictValues (d : List (ℕ × List ℝ)) : List (List ℝ) := d.map Prod.snd

/-- One segment in `plot_renormalized_phonon_dispersion_bands` (dynaphopy/__init__.py:255-270): curves and areas in the order in which they are drawn. `none`: no linewidths (KeyError). -/
noncomputable def segmentDrawings {Q L : Type} (plotLinewidths plotHarmonic : Bool) (path : BandData ℝ Q L) : Option (List BandDrawing) :=
  let curves := (dictValues path.renormalized).map (BandDrawing.curve false path.distances)
  let harmonic := if plotHarmonic then (dictValues path.harmonic).map (BandDrawing.curve true path.distances) else []
  if plotLinewidths then
    path.linewidth.map fun w => curves ++ harmonic ++ ((dictValues path.renormalized).zip (dictValues w)).map fun p =>
      BandDrawing.area path.distances (p.1.zipWith (fun f l => f + l / 2) p.2) (p.1.zipWith (fun f l => f - l / 2) p.2)
  else some (curves ++ harmonic)

/-- What `plot_renormalized_phonon_dispersion_bands(plot_linewidths, plot_harmonic)` draws (dynaphopy/__init__.py:248-270). -/
noncomputable def bandDrawings {Q L : Type} (bands : List (BandData ℝ Q L)) (plotLinewidths plotHarmonic : Bool) : Option (List BandDrawing) :=
  (bands.mapM (segmentDrawings plotLinewidths plotHarmonic)).map List.flatten

/-- Only the curves have a label and are among the handles of the legend (dynaphopy/__init__.py:257-268). -/
def BandDrawing.isCurve : BandDrawing → Bool
  | .curve .. => true
  | .area .. => false

/-- The legend (dynaphopy/__init__.py:280-284): the last curve is called 'Harmonic', the first 'Renormalized'. `none`: no curve, and no legend. -/
def bandLegend (drawings : List BandDrawing) : Option (BandDrawing × BandDrawing) :=
  let handles := drawings.filter BandDrawing.isCurve
  match handles.getLast?, handles.head? with
  | some h, some r => some (h, r)
  | _, _ => none

end Verif
