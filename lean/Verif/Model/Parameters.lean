import Mathlib.Logic.Function.Basic
import Mathlib.Data.List.Basic

/-! # Parameters (dynaphopy/parameters.py and scripts/dynaphopy:297-331) -/

set_option autoImplicit false

namespace Verif

/-- The properties of the class `Parameters` (dynaphopy/parameters.py:111-297). -/
inductive ParamName where
  | silent | reduced_q_vector | number_of_coefficients_mem | mem_scan_range | correlation_function_step | integration_method | frequency_range | spectrum_resolution
  | power_spectra_algorithm | use_NAC | band_ranges | number_of_bins_histogram | band_resolution | modes_vectors_scale | fitting_function | zero_padding | use_symmetry
  | symprec | symmetrize | save_renormalized_frequencies | mesh_phonopy | use_MD_cell_commensurate | project_on_atom
  deriving DecidableEq

/-- The `__dict__` of an object: attribute names to values (`none`: no such attribute). Values are opaque
(dynaphopy/parameters.py:103-108). -/
abbrev Attrs (V : Type*) := String → Option V

/-- The attribute that the getter of a property returns (dynaphopy/parameters.py:111-297). -/
def getterAttr : ParamName → String
  | .silent => "_silent"
  | .reduced_q_vector => "_reduced_q_vector"
  | .number_of_coefficients_mem => "_number_of_coefficients_mem"
  | .mem_scan_range => "_mem_scan_range"
  | .correlation_function_step => "_correlation_function_step"
  | .integration_method => "_integration_method"
  | .frequency_range => "_frequency_range"
  | .spectrum_resolution => "_spectrum_resolution"
  | .power_spectra_algorithm => "_power_spectra_algorithm"
  | .use_NAC => "_use_NAC"
  | .band_ranges => "_band_ranges"
  | .number_of_bins_histogram => "_number_of_bins_histogram"
  | .band_resolution => "_band_resolution"
  | .modes_vectors_scale => "_modes_vectors_scale"
  | .fitting_function => "_fitting_function"
  | .zero_padding => "_zero_padding"
  | .use_symmetry => "_use_symmetry"
  | .symprec => "_symprec"
  | .symmetrize => "_symmetrize"
  | .save_renormalized_frequencies => "_save_renormalized_frequencies"
  | .mesh_phonopy => "_mesh_phonopy"
  | .use_MD_cell_commensurate => "_use_MD_cell_commensurate"
  | .project_on_atom => "_project_on_atom"

/-- The attribute that the setter of a property assigns (dynaphopy/parameters.py:115-297). For `save_renormalized_frequencies` it is the misspelled name of line 271. -/
def setterAttr : ParamName → String
  | .silent => "_silent"
  | .reduced_q_vector => "_reduced_q_vector"
  | .number_of_coefficients_mem => "_number_of_coefficients_mem"
  | .mem_scan_range => "_mem_scan_range"
  | .correlation_function_step => "_correlation_function_step"
  | .integration_method => "_integration_method"
  | .frequency_range => "_frequency_range"
  | .spectrum_resolution => "_spectrum_resolution"
  | .power_spectra_algorithm => "_power_spectra_algorithm"
  | .use_NAC => "_use_NAC"
  | .band_ranges => "_band_ranges"
  | .number_of_bins_histogram => "_number_of_bins_histogram"
  | .band_resolution => "_band_resolution"
  | .modes_vectors_scale => "_modes_vectors_scale"
  | .fitting_function => "_fitting_function"
  | .zero_padding => "_zero_padding"
  | .use_symmetry => "_use_symmetry"
  | .symprec => "_symprec"
  | .symmetrize => "_symmetrize"
  | .save_renormalized_frequencies => "_save_renormalized_frequenciese"
  | .mesh_phonopy => "_mesh_phonopy"
  | .use_MD_cell_commensurate => "_use_MD_cell_commensurate"
  | .project_on_atom => "_project_on_atom"

/-- All properties (dynaphopy/parameters.py:111-297). -/
def allParams : List ParamName :=
  [.silent, .reduced_q_vector, .number_of_coefficients_mem, .mem_scan_range, .correlation_function_step, .integration_method, .frequency_range, .spectrum_resolution,
   .power_spectra_algorithm, .use_NAC, .band_ranges, .number_of_bins_histogram, .band_resolution, .modes_vectors_scale, .fitting_function, .zero_padding, .use_symmetry,
   .symprec, .symmetrize, .save_renormalized_frequencies, .mesh_phonopy, .use_MD_cell_commensurate, .project_on_atom]

section
variable {V : Type*}

/-- `Parameters.__init__` with given default values (dynaphopy/parameters.py:17-101). -/
def paramInit (defaults : ParamName → V) : Attrs V := fun a => (allParams.find? fun p => getterAttr p = a).map defaults

/-- `object.attribute = value` (scripts/dynaphopy:302). -/
def setAttr (s : Attrs V) (a : String) (v : V) : Attrs V := Function.update s a (some v)

/-- `parameters.p = v` (the setters of dynaphopy/parameters.py:115-297). -/
def setParam (s : Attrs V) (p : ParamName) (v : V) : Attrs V := setAttr s (setterAttr p) v

/-- `parameters.p` (`none`: AttributeError; the getters of dynaphopy/parameters.py:111-295). -/
def getParam (s : Attrs V) (p : ParamName) : Option V := s (getterAttr p)

/-- `get_data_from_dict` (dynaphopy/parameters.py:103-108, dynaphopy/atoms.py:77-82): only attributes that exist are replaced. -/
def getDataFromDict (s : Attrs V) (d : String → Option V) : Attrs V := fun a =>
  match s a, d a with
  | some _, some v => some v
  | x, _ => x

/-- The arguments of the command line that are always passed on to the parameters (scripts/dynaphopy:300-306). -/
structure CmdArgs (V : Type*) where
  silent : V
  fcsymm : V
  mdCommensurate : V
  saveRenormalizedFrequencies : V
  nac : V
  symprec : V

/-- `# Set Parameters` (scripts/dynaphopy:297-306). `degenerate` is not a property, so a new attribute is made (line 302). -/
def scriptParameters (s : Attrs V) (input : String → Option V) (a : CmdArgs V) : Attrs V :=
  let s := getDataFromDict s input
  let s := setParam s .silent a.silent
  let s := setAttr s "degenerate" a.fcsymm
  let s := setParam s .use_MD_cell_commensurate a.mdCommensurate
  let s := setParam s .save_renormalized_frequencies a.saveRenormalizedFrequencies
  let s := setParam s .use_NAC a.nac
  setParam s .symprec a.symprec

/-! ## The singleton -/

/-- The state of a process: `Singleton._instances` (dynaphopy/parameters.py:4-10), the attributes of each `Parameters` object by its address, and, for each `Quasiparticle` object, the address of its
parameters. -/
structure ProcessState (V : Type*) where
  inst : Option ℕ
  objects : List (Attrs V)
  calcs : List ℕ

/-- `Parameters()`: `Singleton.__call__` (dynaphopy/parameters.py:7-10); returns the address of the object. -/
def newParameters (defaults : ParamName → V) (h : ProcessState V) : ProcessState V × ℕ :=
  match h.inst with
  | some a => (h, a)
  | none => ({ h with inst := some h.objects.length, objects := h.objects ++ [paramInit defaults] }, h.objects.length)

/-- `Quasiparticle(...)` as far as the parameters go (dynaphopy/__init__.py:43). -/
def newCalculation (defaults : ParamName → V) (h : ProcessState V) : ProcessState V :=
  let r := newParameters defaults h
  { r.1 with calcs := r.1.calcs ++ [r.2] }

/-- `calculation.parameters` (dynaphopy/__init__.py:86-88) of the `i`-th calculation. -/
def calcParam (h : ProcessState V) (i : ℕ) (p : ParamName) : Option V := (h.calcs[i]?).bind fun a => (h.objects[a]?).bind fun s => getParam s p

/-- `calculation.parameters.p = v` of the `i`-th calculation (dynaphopy/__init__.py:86-88). -/
def calcSet (h : ProcessState V) (i : ℕ) (p : ParamName) (v : V) : ProcessState V :=
  match h.calcs[i]? with
  | none => h
  | some a => { h with objects := h.objects.modify a fun s => setParam s p v }

/-- What a process does with calculations (dynaphopy/__init__.py:23-44, 86-88). -/
inductive CalcOp (V : Type*) where
  | create
  | set (i : ℕ) (p : ParamName) (v : V)

/-- The effect of an operation (dynaphopy/__init__.py:23-44, 86-88). -/
def CalcOp.run (defaults : ParamName → V) (h : ProcessState V) : CalcOp V → ProcessState V
  | .create => newCalculation defaults h
  | .set i p v => calcSet h i p v

/-- A fresh process (`_instances = {}`, dynaphopy/parameters.py:5). -/
def processStart {V : Type*} : ProcessState V := { inst := none, objects := [], calcs := [] }

end

end Verif
