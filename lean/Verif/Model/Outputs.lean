import Verif.Model.PhonopyLink
import Verif.Model.Rounding

/-! # Band structures and data files

dynaphopy/__init__.py:396-443, 500-530 (bands), 568-577 (printing them), 1213-1251 (data files),
dynaphopy/interface/iofile/__init__.py:722-787 (YAML), scripts/rfc_calc:48-66 (reading them again). The text of YAML is not
modelled, only the data written; numbers with a fraction are written with eight decimals. -/

set_option autoImplicit false

namespace Verif

/-! ## Connecting the segments of a path -/

/-- One segment of the path: the frequencies and eigenvectors (columns) of its wave vectors (`bands[2][i]`, `bands[3][i]`). -/
structure Segment (n : ℕ) where
  freq : List (Fin n → ℝ)
  ev : List (Matrix (Fin n) (Fin n) ℂ)

/-- `bands[2][i].T[order].T`, `bands[3][i].T[order].T` (dynaphopy/__init__.py:408-409). -/
def Segment.reorder {n : ℕ} (s : Segment n) (order : Fin n → Fin n) : Segment n :=
  { freq := s.freq.map fun f => reorderBands f order, ev := s.ev.map fun E => E.submatrix id order }

/-- The order of segment `s` behind the (already reordered) segment `prev` (dynaphopy/__init__.py:405-407):
`argmax` of the overlaps of the last eigenvectors of `prev` and the first of `s`. -/
noncomputable def reconnectOrder {n : ℕ} (prev s : Segment n) (i : Fin n) : Fin n :=
  match prev.ev.getLast?, s.ev.head? with
  | some E, some F => ((List.finRange n).argmax fun j => overlap E F i j).getD i
  | _, _ => i

/-- `reconnect_eigenvectors` (dynaphopy/__init__.py:401-409) for the segments behind `prev`. Simplification: a segment
without wave vectors is left as it is (Python: IndexError; every segment has `band_resolution + 1` points). -/
noncomputable def reconnectFrom {n : ℕ} (prev : Segment n) : List (Segment n) → List (Segment n)
  | [] => []
  | s :: rest =>
    let s' := s.reorder (reconnectOrder prev s)
    s' :: reconnectFrom s' rest

/-- `reconnect_eigenvectors` (dynaphopy/__init__.py:401-409). -/
noncomputable def reconnectEigenvectors {n : ℕ} : List (Segment n) → List (Segment n)
  | [] => []
  | s :: rest => s :: reconnectFrom s rest

/-! ## The dictionary of the bands -/

/-- The dictionary of one segment (dynaphopy/__init__.py:506-527). The key `branch_k` is `k`. -/
structure BandData (K Q L : Type*) where
  distances : List K
  inf : Q
  sup : Q
  harmonic : List (ℕ × List K)
  renormalized : List (ℕ × List K)
  shifts : List (ℕ × List K)
  minus : Option (List (ℕ × List K)) := none
  plus : Option (List (ℕ × List K)) := none
  linewidth : Option (List (ℕ × List K)) := none
  labels : Option (L × L) := none

/-- Frequencies of a segment: number of wave vectors, number of branches and the values (first index: wave vector). -/
structure FreqTable (K : Type*) where
  points : ℕ
  branches : ℕ
  val : ℕ → ℕ → K

/-- `{'branch_{}'.format(key): value.tolist() for (key, value) in enumerate(a.T)}` (dynaphopy/__init__.py:508-525). -/
def branchDict {K : Type*} (a : FreqTable K) : List (ℕ × List K) :=
  (List.range a.branches).map fun k => (k, (List.range a.points).map fun p => a.val p k)

/-- `a.T - b.T` for arrays of equal shape (dynaphopy/__init__.py:513, 525). -/
def FreqTable.sub {K : Type*} [Sub K] (a b : FreqTable K) : FreqTable K :=
  { a with val := fun p k => a.val p k - b.val p k }

/-- `bands_full_data` (dynaphopy/__init__.py:503-532). `none`: IndexError. -/
def bandsFullData {K Q L : Type} [Sub K] (ranges : List (Q × Q)) (labels : Option (List (L × L))) (distances : List (List K))
    (harm ren : List (FreqTable K)) (width : Option (List (FreqTable K) × List (FreqTable K))) : Option (List (BandData K Q L)) :=
  (List.range distances.length).mapM fun i => do
    let d ← distances[i]?
    let r ← ranges[i]?
    let h ← harm[i]?
    let a ← ren[i]?
    let band : BandData K Q L :=
      { distances := d, inf := r.1, sup := r.2, harmonic := branchDict h, renormalized := branchDict a, shifts := branchDict (a.sub h) }
    let band ← match width with
      | none => some band
      | some (s, m) => do
        let s ← s[i]?
        let m ← m[i]?
        some { band with minus := some (branchDict m), plus := some (branchDict s), linewidth := some (branchDict (s.sub m)) }
    match labels with
    | none => some band
    | some l => do
      let l ← l[i]?
      some { band with labels := some l }

/-- `for q_start, q_end in bands_ranges` (phonopy_link.py:314) on what `print_phonon_dispersion_bands` passes (dynaphopy/__init__.py:569-572):
the dictionary of `get_band_ranges_and_labels`, which is iterated over its keys; a string is unpacked into its characters. `none`: ValueError. -/
def unpackKeys (keys : List String) : Option (List (Char × Char)) :=
  keys.mapM fun k => match k.toList with
    | [a, b] => some (a, b)
    | _ => none

/-- `print_phonon_dispersion_bands` (dynaphopy/__init__.py:568-577): cached bands are printed, otherwise the dictionary (with the key
`ranges`, and `labels` if there are labels) is used as the list of ranges. `bandsOf` would be phonopy's bands. -/
def printBands {V : Type} (bandsOf : List (Char × Char) → V) (cached : Option V) (hasLabels : Bool) : Option V :=
  match cached with
  | some v => some v
  | none => (unpackKeys (if hasLabels then ["ranges", "labels"] else ["ranges"])).map bandsOf

/-! ## Data files -/

/-- What does not change while the data files are written: the commensurate points of the two supercells, the results at a
commensurate point, the renormalized force constants and group velocities (phonopy). `F`: force constants, `V`: group velocities of a wave vector. -/
structure OutEnv (K Q F V : Type*) where
  points : Bool → List Q
  frequencies : Q → List K
  linewidths : Q → List K
  shifts : Q → List K
  force : List Q → List (List K) → Bool → F
  velocity : F → Q → V

/-- The dictionary `_commensurate_points_data` (dynaphopy/__init__.py:1187-1192) and what `update` can add to it. `fcSupercell`: whether it is the
supercell of the MD. -/
structure ComDict (K Q V : Type*) where
  qPoints : List Q
  frequencies : List (List K)
  linewidths : List (List K)
  shifts : List (List K)
  fcSupercell : Bool
  velocity : Option (List V) := none

/-- The object, as far as the data files are concerned: `use_MD_cell_commensurate`, `_commensurate_points_data` and
`_renormalized_force_constants`. -/
structure OutState (K Q F V : Type*) where
  useMD : Bool := false
  com : Option (ComDict K Q V) := none
  fc : Option F := none

/-- One entry of the file (iofile/__init__.py:733-747). -/
structure QRow (K Q V : Type*) where
  q : Q
  frequencies : List K
  linewidths : List K
  shifts : List K
  velocity : Option V
  deriving DecidableEq

section files
variable {K Q F V : Type}

/-- `get_commensurate_points_data` (dynaphopy/__init__.py:1102-1196), as a cache; its loop is modelled in `Quasi.getCom`. -/
def OutState.getCom (env : OutEnv K Q F V) (o : OutState K Q F V) : OutState K Q F V × ComDict K Q V :=
  match o.com with
  | some d => (o, d)
  | none =>
    let pts := env.points o.useMD
    let d := { qPoints := pts, frequencies := pts.map env.frequencies, linewidths := pts.map env.linewidths, shifts := pts.map env.shifts, fcSupercell := o.useMD }
    ({ o with com := some d }, d)

/-- `get_renormalized_force_constants` (dynaphopy/__init__.py:1198-1211). -/
def OutState.getFC (env : OutEnv K Q F V) (o : OutState K Q F V) : OutState K Q F V × F :=
  let r := o.getCom env
  match r.1.fc with
  | some f => (r.1, f)
  | none =>
    let f := env.force r.2.qPoints r.2.frequencies r.2.fcSupercell
    ({ r.1 with fc := some f }, f)

/-- `write_quasiparticles_data` (dynaphopy/__init__.py:1242-1246) and `save_quasiparticle_data_to_file`
(iofile/__init__.py:722-750). `dict.update` acts on the cached dictionary itself: `q_points`, `fc_supercell` and `group_velocity` are
replaced (`get_commensurate_points_properties`, dynaphopy/__init__.py:1213-1237). The rows are `none` for an IndexError. -/
def OutState.writeQP (env : OutEnv K Q F V) (o : OutState K Q F V) (withExtra : Bool) :
    OutState K Q F V × Option (List (QRow K Q V)) :=
  let r := o.getCom env
  let st := if withExtra then
      let f := r.1.getFC env
      let pts := env.points f.1.useMD
      let d := { r.2 with velocity := some (pts.map (env.velocity f.2)), qPoints := pts, fcSupercell := f.1.useMD }
      (({ f.1 with com := some d } : OutState K Q F V), d)
    else (r.1, r.2)
  let d := st.2
  (st.1, (List.range d.qPoints.length).mapM fun i => do
    let q ← d.qPoints[i]?
    let f ← d.frequencies[i]?
    let l ← d.linewidths[i]?
    let s ← d.shifts[i]?
    match d.velocity with
    | none => some ⟨q, f, l, s, none⟩
    | some v => do
      let v ← v[i]?
      some ⟨q, f, l, s, some v⟩)

/-- What a user does: write the file, or change `use_MD_cell_commensurate` (dynaphopy/parameters.py; a plain attribute, no cache is cleared). -/
inductive OutOp where
  | write (withExtra : Bool)
  | setMD (b : Bool)

/-- One operation (dynaphopy/__init__.py:1242-1246, parameters.py setter of `use_MD_cell_commensurate`). -/
def OutState.step (env : OutEnv K Q F V) (o : OutState K Q F V) : OutOp → OutState K Q F V
  | .write b => (o.writeQP env b).1
  | .setMD b => { o with useMD := b }

end files

/-- `save_mesh_data_to_yaml_file` (iofile/__init__.py:753-776): one entry per wave vector. `none`: IndexError. -/
def meshRows {K Q : Type} (qpoints : List Q) (multiplicity : List ℕ) (frequencies linewidths : List (List K)) :
    Option (List (Q × List K × List K × ℕ)) :=
  (List.range qpoints.length).mapM fun i => do
    let q ← qpoints[i]?
    let f ← frequencies[i]?
    let l ← linewidths[i]?
    let m ← multiplicity[i]?
    some (q, f, l, m)

/-! ## Reading the quasiparticle data: scripts/rfc_calc -/

/-- What `yaml.safe_load` gives: a list or a dictionary of entries (wave vector, frequencies). -/
inductive YamlDoc (K : Type*) where
  | list (rows : List (List K × List K))
  | dict (rows : List (String × List K × List K))

/-- The file written for the given points and frequencies (iofile/__init__.py:732-750): a list; floats have eight decimals. -/
def yamlOf {K : Type*} [Field K] [LinearOrder K] [IsStrictOrderedRing K] [FloorRing K] (rows : List (List K × List K)) : YamlDoc K :=
  .list (rows.map fun r => (r.1.map (aroundDec 8), r.2.map (aroundDec 8)))

/-- The frequencies of `get_renormalized_constants` (scripts/rfc_calc:52-62): `data_dict.values()` (`none`: AttributeError of a list), for each
commensurate point the entries with exactly the same wave vector. -/
def rfcFrequencies {K : Type*} [DecidableEq K] (points : List (List K)) (doc : YamlDoc K) : Option (List (List K)) :=
  match doc with
  | .list _ => none
  | .dict rows => some (points.flatMap fun wv => (rows.filter fun r => decide (r.2.1 = wv)).map fun r => r.2.2)

end Verif
