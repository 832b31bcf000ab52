# DynaPhoPy in Lean 4: design, trusted base, findings

## 1. Layout

* `lean/Verif/Model/*.lean` – executable/total models of the code in `/repo`, function by function. Every
  definition cites file and lines.
* `lean/Verif/Spec/*.lean` – small specifications that do not mention the model's helpers (only where Mathlib does not
  already have the notion, e.g. `Matrix.det`, `Matrix.PosSemidef`, `HasDerivAt`, `Finset.sum`).
* `lean/Verif/Props/*.lean` – the property theorems `Cxx_...`. Each is followed by an `example` showing that its
  hypotheses are met by a concrete non-trivial case. Theorems named `..._false`/`..._violated` are negations: the code,
  as written, does not have the property, with a concrete witness. `..._partial` theorems prove part of a property.
* `properties.jsonl` (generated by `tools/make_properties.py`), `MANIFEST.json`, `seeded/LOG.jsonl`.

## 2. Trusted base

* Lean 4.33.0's kernel, Mathlib's definitions that occur in the statements.
* Axioms: only `propext`, `Classical.choice`, `Quot.sound` (checked by `vcheck`).  No own axioms, no compiled
  evaluation in proofs.
* The reading of `/repo` that produced the model (nothing is extracted mechanically).
* NumPy/SciPy/Phonopy/h5py/C library behaviour enters as definitions in the model (e.g. `np.around` = round half to
  even, C `round` = round half away from zero, `itertools.product` order, `np.gradient`), or as a parameter of
  the model (curve_fit, phonopy's dynamical matrix, symmetry operations, the file contents).
* Floating point is idealised: exact arithmetic in an ordered field with floor (generic, so the models run over ℚ),
  or ℝ/ℂ when roots/exponentials occur. No claim is made about rounding error, overflow, NaN propagation other than
  where a model says so explicitly.

## 3. Plan per property

See section 5 for what was actually modelled and proved. The plan:

| Prop | Model | Proof plan |
|---|---|---|
| C01–C03 | `Model/Supercell`: `itertools.product` of reversed ranges as nested lists; order arithmetic | induction over the dims; mixed radix arithmetic |
| C04 | `get_cell` as matrix product | iff theorem + counterexample (property violated) |
| C05 | scaled/cartesian conversion as matrix product with inverse | Matrix algebra, n-dimensional |
| C06–C08 | `Model/Structure` cache machine with `get_atom_type_index` triangular loop | loop invariant; negations for C07/C08 |
| C09 | inference over an arbitrary table + the real table | membership lemmas; `decide +kernel` over the whole table |
| C10–C12, C72 | `Model/Displacements` (determinant, cofactor, inverse, rounding, displacement) | relate to `Matrix.det`, adjugate; rounding lemmas |
| C13–C21 | `Model/Dynamics` | state machine over Option caches; loop = sum lemmas; memmap file-store machine |
| C22–C26 | `Model/Projection` over ℂ | unitary / character-sum identities |
| C27 | `Model/Division` over ℚ; `Model/Double` in double precision | floor arithmetic; error bounds of IEEE rounding (relative error 2^-53), an exact subtraction, then floors as without errors except at whole numbers |
| C28 | `Model/Correlation` loops | fold = double sum; negation of the intended formula |
| C29–C30 | `Model/Mem` loops | Burg bounds by induction; read-set trace |
| C31–C32 | `Model/FFTPower` | finite DFT |
| C33–C36 | `Model/Quasi` cache machine parameterised by the numerical kernels | invariant by induction on operation histories, negations for stale caches |
| C37–C38, C44–C47 | `Model/Fitting` | loop invariants; real analysis |
| C39 | `Model/Settings` (`np.arange`); `Model/Double` | ceil arithmetic; error bounds of IEEE rounding |
| C40–C43 | `Model/Thermal` | real analysis, linearity of Simpson's rule |
| C48–C53 | `Model/Parsers`, `Model/Hdf5` | fold over the frames of a file |
| C54 | `Model/Arrangement` | argmin uniqueness, permutations |
| C55–C59 | `Model/GenerateCell`, `Model/LammpsBox` | list and matrix algebra |
| C60–C63 | `Model/Inputs`, `Model/Parameters`, `Model/Xsf` | list induction, finite record cases |
| C64–C66 | `Model/PhonopyLink` | index arithmetic, list induction |
| C67–C72 | `Model/Adp`, `Model/PhonopyLink`, `Model/Fitdata`, `Model/TestTrajectory` | matrix algebra |
| C73 | `Model/Quasi` | negation over all histories |
| C74–C75 | `Model/Fitting`, `Model/Thermal` | real analysis |
| C76–C79 | `Model/Parsers`, `Model/Inputs`, `Model/LammpsBox` | computation on well formed files of any length |
| C80–C82 | `Model/Inputs`, `Model/Parameters`, `Model/GenerateCell` | list induction, record cases |
| C83 | `Model/PhonopyLink` | spectral identity E diag(λ) E^H, unitary E |
| C84 | `Model/Fitdata`/smoothing | weighted least squares reproduces lines |
| C85 | `Model/LammpsLink` (LAMMPS as an abstract machine) | induction over the run commands |
| C86–C89 | `Model/Analysis` | real analysis (maximum likelihood), list induction |
| C90–C91 | `Model/Forces` state machine of the forces of a structure | invariant over all histories |
| C92 | `Model/Commensurate` | exact arithmetic on the grid |
| C93–C95 | `Model/Outputs` | induction along the path; invariant over the files written |
| C96–C97 | `Model/Qha` | algebra with polyfit/interp1d as contracts, roots of polynomials; permutations |
| C98 | `Model/Interactive`: the menus as an automaton over typed characters | invariant of `Model/Quasi` over all sessions |
| C99 | `Model/OutcarStructure`: text as characters, `find`/`seek`/`readline` | list induction, infix arguments |
| C100 | `FitObject` (four classes, cache, report, curve), SciPy a parameter | invariant: the cache holds what curve_fit returns for the data; field arithmetic for the curves |
| C101 | `FitObject`, spec `IsFWHM` | exact half-height points, bounds on square roots; Gaussian moments from Mathlib |
| C102 | Model/Commands.lean (on Model/Quasi.lean) | invariant of the object (C33) carried through the list of calls; settings after each call; membership in the fixed order of requests |
| C103 | Model/Projection.lean, Model/Supercell.lean | plane waves are orthogonal over the atoms of a type (translation argument), square matrix so also over the wave vectors; eigenvectors likewise |
| C104 | Model/Projection.lean, Model/Correlation.lean | conservation of inner products between time steps (C103), the estimator depends on these only |
| C105 | Model/Spectra.lean | the loop over the columns as one mapM; per column C28, C29, C31 |
| C106 | Model/Spectra.lean, Model/Projection.lean | sesquilinearity of the direct estimator, homogeneity of the FFT and of Burg's recursion; explicit counterexamples |
| C107 | Model/Spectra.lean | the parameter occurs in the check only |
| C108 | `powerSpectra`, `vqAt` (C103), `numpyPower`, `mem`, `correlationPar` | autocorrelation of an oscillation, strict triangle inequality, equal pieces up to a phase, interpolation between grid values |
| C109 | `replaceList`, `bandTicks`, `uniqueElements`, `projectedElement` | functional induction on the text; element by element; `np.unique` of dense labels |
| C110 | `projectionTimes`, `plotVcCurves`, `saveVc`, `saveVq` | field arithmetic; induction on the steps |
| C111 | `natText`, `fixedText`, `fixedField`, `expText`, `pySplit`, `pyIntText`, `pyFloat` | digits of numbers; the text is parsed piece by piece; rounding to even |
| C112 | `curveText`, `fileLines`, `numberTable`, `fitdataRead`, `fitdataIndices` | the words of each line from C111; error of a mean; C111 for the numbers |
| C113 | `readParameters`, `bandsLoop`, `readInputText` | section by section: its first line sets the parameters, its other lines contain no keyword and change nothing |
| C114 | `lammpsDataText`, `lammpsFile` | the text is a list of lines, their words are computed by the lemmas on split; a specification of the LAMMPS reader is run on them; the rotation is that of C57 |
| C115 | `Team.Step`, `memBody`, `correlationBody` | invariant over all reachable states of the team: every iteration waits, is at a known point of exactly one thread, or its element has the final value |
| C116 | `Quasi.saveVcHdf5`, `loadVcHdf5`, `cropVc`, `startFromVc` | invariant that the loaded projected velocity stays in place, so the run equals one with a projection routine that returns it; then the cache invariant of C33 |
| C117 | `Heap`, `HeapM`: blocks of words with bounds, liveness and initialisation; `hDisplacements`, `hCorrelation`, `hMem` word by word | Hoare rules for the heap monad, loop invariants, refinement of the functional models (C10-C12, C28, C29) |
| C118 | `positionsReport`, `adpReport`, `thermalTable`, `phonopyTable`, `fittingReport`: lists of lines with the format fields of C63 | splitting lemmas for padded fields, then column by column; rows reparse with `pyFloat` to within half a unit of the last decimal |
| C119 | `QhaObj` with its caches and methods, `qhaScript`, `qhaVolumeAt`, `qhaShiftConstantPressure` | invariant of the caches for every method, then the loops; refinement of the pure functions of C96 |
| C120 | Model/FileRuns: processes that read and write files in steps (a file open for writing has any content), the command line program with the results of Model/Commands as such a process | Props/FileRuns: invariant of all reachable states of one process and of several that share the disk; results linked to C102 |
| C121 | Model/FFTBackends: the four routines and their drivers as written, library functions as parameters, fftfreq and interpolation written out | Props/FFTBackends: fftfreq sorted by any correct argsort is the shifted table of C31 (distinct frequencies, so the order is unique); norm of a product for CUDA; C27 for termination |
| C122 | Constants and functions of Model/Fitting, Model/Thermal, Model/Analysis, Model/TestTrajectory, Model/Spectra | Props/Units: bounds of the logarithm by sinh and a rational function; C31_total for the FFT |
| C123 | Model/ModeDrawing: what plot_phonon_modes gives to matplotlib (atoms, frame, legend); the arrows are in Model/Analysis | frame: explicit list of twelve lines against the pairs (vector, set of the other vectors); legend: np.unique is sorted without repetition; colours injective below seven |
| C124 | Model/TestTrajectory: generateTest, testFrame, testModes (loops over frequencies and wave vectors); Model/Double for the times | the frame is the real part of a sum of Bloch waves with time factors; Bloch waves are eigenvectors of the mass weighted force constants and orthogonal (from C103); energy: cross terms cancel between kinetic and potential energy by symmetry of K |
| C125 | Model/MeshData: phonopyRow (sorted eigenvalues), meshFrequenciesLinewidths, scatterCalls | characteristic polynomial of E diag(l) E^H is that of the diagonal; sorted permutations are unique; pairs of sorted lists are a chain in both coordinates |
| C126 | Model/Simpson: both versions of the rule as in SciPy's source | linear functionals; telescoping over pairs of intervals; non-negativity by absorbing the only negative term into the preceding pair; thermal bounds from C42 |
| C127 | Model/PowerDos, `getDos`: the third column of display_thermal_properties | linearity of the integration rule; C42 for the bounds; 2 tanh(y/2) <= y for the statistics; constants by norm_num |
| C128 | Model/SpectrumPlots: curves and legend, histories of forces (Model/Forces) and renormalization | invariant: renormalized force constants are only there together with forces of the structure |
| C129 | Model/Quasi with the list of Model/PhonopyLink, Model/DoubleTests for double precision | group argument: images of images are images, and operations can be undone; the invariant of C33 for the histories; counterexamples |
| C130 | Model/QhaPlots on top of Model/QhaScript: curves of each plot, with the caches of the object | the invariant of C119 for the caches; counterexamples |
| C131 | Model/BandRun: the whole of get_renormalized_phonon_dispersion_bands with its three flags, and the curves, areas and legend of the two plots | eigenvectors of matrices with common eigenvectors: a nonzero overlap forces equal eigenvalues; sorting keeps order; counterexample |
| C132 | Model/SeekPath: np.unique with return_inverse, the loop over the path, the fallback | inversion of the loop; index of a value in a list without repetitions; injectivity of the inverse matrix |
| C133 | Model/ProgressBar: the text of a bar, the values given to it by the callers, and a terminal with carriage return | induction over the characters and over the bars; the length of a bar grows with the part |
| C134 | Model/ProgressBar: the text of a bar, the values given to it by the callers, and a terminal with carriage return | reduction to C133; evaluation of counterexamples |
| C135 | Model/RfcRun: the script as a function of input file and arguments, phonopy as a parameter | the state of the structure's forces after each phonopy object (C90), case analysis on input and arguments |
| C136 | Model/QhaBands: bands, densities and thermal curves as functions of the object with its caches; phonopy as a parameter | the caches are consistent with the data after any calls (C119); induction over the temperatures |
| C137 | Model/Chain: supercell multiples, atom types, velocities from coordinates, projection onto wave vector and eigenvectors, power spectra, composed from the models of the parts | each part of the chain under an orthogonal matrix, a shift or a permutation of the atoms; sums over the atoms are reindexed |
| C138 | Model/Chain: the whole chain from trajectory to spectrum | the projected velocity as one sum over the atoms of the supercell; phases of reciprocal lattice vectors are 1 on lattice vectors; the maximum entropy spectrum is even in real and imaginary part |
| C139 | Model/Orthonormal: normalization of the rows, printed products, arrangement | a unitary matrix has rows of unit norm; explicit counterexamples |
| C140 | Model/Sampling: choice of the frames for any sequence of random numbers, then Model/Averages | reduction to C19_average; the sum over all sequences by exchanging sums |
| C141 | Model/Sampling: peak search with numpy's order of complex numbers | invariant of the loop of max |
| C142 | Model/Versions: imports and their alternatives for a given installation | case analysis |
| C143 | Model/ChainFull: the chain from structure and trajectory to the sums of the spectra over the components | the velocities are equal (images, origin) or rotated with a common phase; the direct Fourier spectrum is a Hermitian form in each atom's velocity, invariant under orthogonal matrices |
| C144 | Model/Masses: set_masses on Structure; the change of the per-frame operations of Dynamics | invariance of the steps of a history that do not use the masses; the representation invariant of C08 for the structure; caches for the negative parts |
| C145 | Model/FFTPower: selectAtoms, fullSpectrumLoud | sums over the filtered index list; the types partition the atoms |
| C146 | Model/ProjectionText: complexField, replacePlusMinus, complexFile, saveVcText, saveVqText, plotVqCurves | shape of %+.8e; the sign that begins the imaginary part is the first one that is neither first nor behind an e; C111_exp for the values |
| C147 | Model/FitdataRun: smoothCurve, curveMatrix, fitdataData, fitdataRun | C112 for the text; %e text is stable under reading (C111_exp_stable) |
| C148 | Model/XsfText: xsfText, XsfFile; Model/Xsf: the loop | words of the lines are read back (C111); C63 for the loop, C06 for the classes |
| C149 | Model/Mem: burg, memPart; Model/ChainFull: summedSpectra | polynomials of the Levinson recursion: all zeros inside the disc while every reflection is below one; the mean of 1/|A|^2 over the circle by the mean value theorem for the holomorphic quotient, so Burg's residual cancels |
| C150 | Model/Mem, Model/ChainFull, Model/Chain, Model/Analysis | C149 for the areas, C86 for the temperature, C23 for the modes |
| C151 | Model/FFTPower, Model/Spectra, Model/Chain, Model/ChainFull | the correlation of the reversed data is the same at each lag, the windows are mirror images; the velocities of the reversed trajectory are the reversed velocities with the opposite sign |

No property was found that cannot be expressed in a model; where an external program takes part (phonopy, spglib, LAMMPS, SciPy's
optimiser, matplotlib) it is a parameter of the model, universally quantified in the theorems, with its documented contract as a
hypothesis when the property needs it.

## 4. What is modelled and what is not

Modelled, function by function (the citation of file and lines is at each definition):

<!-- begin models -->
* `Model/Adp` (3 definitions): Anisotropic displacement parameters (dynaphopy/__init__.py:1376-1430)
* `Model/Analysis` (26 definitions): Velocity distribution, displacement distributions, scan of MEM coefficients, drawings of the modes (dynaphopy/analysis/energy.py, dynaphopy/__init__.py:984-1095, dynaphopy/power_spectrum/__init__.py:109-219, dynaphopy/analysis/modes.py)
* `Model/Arrangement` (13 definitions): Automatic order of the atoms (dynaphopy/interface/iofile/__init__.py:10-136) and `np.argsort`
* `Model/Averages` (13 definitions): Supercell matrix, mass weighting, mean displacement matrix, average positions, displacement projections (dynaphopy/dynamics.py, dynaphopy/analysis/coordinates.py) A trajectory is a list of frames, a frame a function of the atom index and the direction.
* `Model/BandRun` (16 definitions): Renormalized bands along a path (dynaphopy/__init__.py:248-381, 396-530) `get_renormalized_phonon_dispersion_bands` with its three flags, and what the two plots draw of its result. phonopy is a parameter; colours, titles and matplotlib are left out.
* `Model/CMem` (5 definitions): C arrays with bounds: reads and writes outside an array are an error
* `Model/Chain` (10 definitions): From the trajectory to the phonon power spectrum The calls made by `Quasiparticle.get_power_spectrum_phonon` (dynaphopy/__init__.py:721-757, without averages over equivalent wave vectors, which are C129) for a trajectory of coordinates whose velocities are not given, on a new object: the parts are modelled in the files imported above. phonopy's eigenvectors are an argument.
* `Model/ChainFull` (4 definitions): From the trajectory to the full and the wave-vector power spectrum The calls made by `get_power_spectrum_full` (dynaphopy/__init__.py:781-831) and `get_power_spectrum_wave_vector` (dynaphopy/__init__.py:748-779, without averages over equivalent wave vectors) for all atoms, on a new object, not silent (for the silent loop see `fullSpectrumSilent` of Model/FFTPower), for a trajectory of coordinates whose velocities are not given.
* `Model/Commands` (13 definitions): The command line program (scripts/dynaphopy:297-410) on a trajectory that has been read The options that set parameters, the order in which they are applied, and the results that are written, printed or drawn. The options that only use the trajectory (`-sv`, `-pad`, `-sad`, `-adp`, `-average`) are left out; so are the temperature, the QHA force constants, the progress bars and the interactive mode (Model/Interactive). The numerical routines are those of `QEnv`.
* `Model/Commensurate` (3 definitions): `Structure.get_commensurate_points` (dynaphopy/atoms.py:336-356)
* `Model/Correlation` (5 definitions): Direct Fourier method (c/correlation.c)
* `Model/CurveFile` (9 definitions): The text files with spectra, and how scripts/fitdata reads them
* `Model/Degeneracy` (5 definitions): Degenerate sets and averaging (dynaphopy/analysis/fitting/__init__.py:16-38)
* `Model/DisplacementText` (1 definitions): The text file with the distribution of the displacements
* `Model/Displacements` (11 definitions): c/displacements.c: determinant, cofactors, inverse, minimum image displacements A C array `double **a` is a function of the two indices. Loops that accumulate are folds over `List.range`.
* `Model/Division` (2 definitions): Division of the data into pieces (dynaphopy/power_spectrum/__init__.py)
* `Model/Double` (11 definitions): Double precision Everywhere else the numbers are exact. Here the places where a rounding error decides about a whole number (the number of frequencies, of pieces of the data, of time steps) are modelled in binary floating point with 53 digits, rounding to nearest, ties to even (IEEE 754 double). A float is the rational number that it stands for. Overflow, subnormal numbers and the sign of zero are left out.
* `Model/DoubleTests` (5 definitions): Double precision: the test for commensurate wave vectors
* `Model/DoubleTime` (3 definitions): The average time step in double precision
* `Model/Dynamics` (17 definitions): `Dynamics` (dynaphopy/dynamics.py): series, caches, cropping, finite differences A *frame* (coordinates of all atoms at one step) is an element of a `K`-vector space `F`; the numerical operations on a single frame (conversion of scaled coordinates, displacements, mass weighting) are parameters collected in `DynEnv`: they act frame by frame in the code (`atomic_displacements` is modelled in `Model/Displacements.lean`). A method returns `none` when the Python code raises or exits.
* `Model/Elements` (9 definitions): Element tables and the inference of elements, atomic numbers and masses in `Structure.__init__` The two tables are copied from dynaphopy/atoms.py (`tools/` keeps no generator: the text below is the table).
* `Model/FFTBackends` (10 definitions): The four FFT routines (dynaphopy/power_spectrum/__init__.py:226-432), each as it is written The library functions (`np.correlate`, `np.fft.fft`, `pyfftw...fft`, `cuda_acorrelate`, `cuda_fft`, `cp.correlate`, `cp.fft.fft`, `argsort`) are parameters; `fftfreq` and `interp` are written out. Exact arithmetic.
* `Model/FFTPower` (14 definitions): FFT power spectra and full spectrum `_numpy_power`, `_fftw_power`, `_cuda_power`, `_cupy_power` (dynaphopy/power_spectrum/__init__.py:226-245, 276-296, 321-341, 368-399) are the same formula in four libraries; one model covers them. Exact real/complex arithmetic.
* `Model/FileRuns` (19 definitions): The files that a run of the command line program reads and writes (scripts/dynaphopy:193-411) A disk is a map from names to contents. A program reads whole files and writes whole files; writing is not atomic: between the opening of the file (which truncates it) and its closing the content on the disk is arbitrary, because the text is buffered and the process may be killed. A killed process (or one ended by an exception, Ctrl-C, ...) simply makes no further steps. Left out: `--run_lammps` (LAMMPS writes its own files), `--interactive`, the memory mapped temporary files of `--memmap` (Model/Memmap), the screen.
* `Model/FitObject` (24 definitions): Fit objects as they are used (dynaphopy/analysis/fitting/fitting_functions.py, whole classes) The four classes have the same constructor and the same three methods; they differ in `_function` and in what `get_fitting` reports. SciPy is a parameter (`FitLib`): deterministic, `curve_fit` may return, raise RuntimeError (not converged) or raise another error (unusable data). Real arithmetic.
* `Model/Fitdata` (9 definitions): The script fitdata (scripts/fitdata)
* `Model/FitdataRun` (4 definitions): A run of the script fitdata (scripts/fitdata:56-121)
* `Model/Fitting` (16 definitions): Fitting functions and the fitting loop (dynaphopy/analysis/fitting/fitting_functions.py, .../fitting/__init__.py:40-193) `curve_fit`, `quad` and `minimize_scalar` (SciPy) are parameters. Real arithmetic; the only non-finite values kept are those the code tests for (`isnan(global_error)`).
* `Model/Forces` (20 definitions): Forces of a structure and phonopy objects made from them dynaphopy/atoms.py:95-103, 170-196, dynaphopy/interface/phonopy_link.py:57-83, 130-169, 201-267 and dynaphopy/__init__.py:1446-1460. phonopy is not modelled: the force constants it produces from a data set are given by `produce`, and its densities of states / thermal properties are arguments.
* `Model/GenerateCell` (27 definitions): Generated structure files (dynaphopy/generate_cell.py) and the POSCAR reader (dynaphopy/interface/iofile/__init__.py:268-328) A text file is the list of its lines, a line is the list of its blank separated words. Numbers are exact (the 10 or 15 decimals of the format, and the characters, are in PoscarText.lean).
* `Model/Hdf5` (8 definitions): HDF5 files (dynaphopy/interface/iofile/__init__.py:637-719, dynaphopy/__init__.py:104-126, scripts/concath5)
* `Model/Heap` (31 definitions): Memory of the C routines: blocks, pointers, `malloc` and `free` Memory is a collection of blocks of words of eight bytes; a `double` and a pointer take one word, a `_Dcomplex` two. A pointer is a block and an offset in words. Every allocation gives a new block (`malloc` never fails). The words of a new block hold nothing until they are written. Using a block that is not allocated (any more), a word outside a block, a word that was never written or a word of the other kind is an error, and so is `free` of anything but the start of an allocated block.
* `Model/HeapMem` (12 definitions): Memory of the maximum entropy method (c/mem.c) Uninitialised words hold arbitrary numbers (`junk`), which can be read; see `Verif.Model.Mem`.
* `Model/InputText` (2 definitions): The input file character by character (dynaphopy/interface/iofile/__init__.py:537-606)
* `Model/Inputs` (14 definitions): Choice of the parser and input file (dynaphopy/interface/iofile/__init__.py:139-165, 537-606)
* `Model/Interactive` (22 definitions): The text menus (dynaphopy/interface/interactive_ui.py:24-367) The program reads characters: a menu reads one key (`getch`), a prompt reads a line (`getstr`, at most 60 characters). A session is the state after a sequence of characters. What the program shows on the screen or plots is appended to a list. The `Quasiparticle` object is `Quasi` (Model/Quasi), with wave vectors as lists of numbers of any length. Simplifications: editing keys (backspace) inside a prompt are not interpreted; the layout of the screens is left out; a failure inside a numerical routine or plot is not modelled; the integers typed at the prompts are not negative.
* `Model/LammpsBox` (5 definitions): The cell of a LAMMPS dump and the rotation to the orientation of the structure (dynaphopy/interface/iofile/trajectory_parsers.py:225-275, 304-305)
* `Model/LammpsCell` (6 definitions): Geometry of the LAMMPS data file (dynaphopy/generate_cell.py:70-112, dynaphopy/atoms.py:319-334)
* `Model/LammpsLink` (11 definitions): Trajectories computed with LAMMPS through its Python interface (dynaphopy/interface/lammps_link.py)
* `Model/LammpsText` (7 definitions): The LAMMPS data file character by character: `generate_LAMMPS_structure` (dynaphopy/generate_cell.py:41-132)
* `Model/LoadVc` (4 definitions): Projected velocities saved and loaded (dynaphopy/__init__.py:46-55, 118-126, iofile/__init__.py:693-719, scripts/dynaphopy:288-291) Arrays are lists of frames; the wave vector is one value.
* `Model/Masses` (2 definitions): Setters of data that other values are derived from: `set_masses` and `set_structure` `set_structure` (dynaphopy/dynamics.py:140-141) and a `set_masses` on the structure of a trajectory change the operations `DynEnv` the getters of `Dynamics` use, and nothing in the `Dynamics` object.
* `Model/Mem` (11 definitions): Maximum entropy method (c/mem.c) `double` is idealised as ℝ. Memory that is never freed (c/mem.c:170-177, 229) is the subject of `Verif.Model.HeapMem`.
* `Model/Memmap` (11 definitions): Memory-mapped temporary files of `Dynamics` (dynaphopy/dynamics.py) With `memmap=True` the relative trajectory, the velocity and the mass weighted velocity are `np.memmap` arrays of the files `<temp dir>r_trajectory.<pid>`, `velocity.<pid>` and `velocity_mass.<pid>`. The file names depend only on the temporary directory and the process id. `np.memmap(name, mode='w+')` opens an existing file in place (same inode, truncated) or creates it; a mapping keeps referring to its inode.
* `Model/MeshData` (5 definitions): Frequencies and linewidths on a mesh (dynaphopy/__init__.py:383-394, 533-564; dynaphopy/interface/phonopy_link.py:287-298)
* `Model/ModeDrawing` (7 definitions): Drawings of the phonon modes (dynaphopy/analysis/modes.py:20-107, 110-219) What `plot_phonon_modes` gives to matplotlib: atoms, frame of the cell, arrows (`modeArrow`, Model/Analysis) and legend.
* `Model/Orthonormal` (5 definitions): The test of the orthonormality of the eigenvectors (dynaphopy/interface/phonopy_link.py:86-89, 172-198) The eigenvectors are the columns of the square matrix that phonopy returns. Real arithmetic; a row of zeros, which gives nan in numpy, is left at zero here (all theorems that need it assume rows that are not zero).
* `Model/OutcarStructure` (15 definitions): Structure from a VASP OUTCAR file: `read_from_file_structure_outcar` (dynaphopy/interface/iofile/__init__.py:168-265) The memory mapped file is the list of its characters; a position is the list of the characters behind it. `find` starts at the current position. When a keyword is missing `find` gives -1, and `seek(-1 + k)` goes to the start of the file.
* `Model/OutcarText` (5 definitions): OUTCAR files character by character: the header of `read_vasp_trajectory` (trajectory_parsers.py:38-65) and Python's conversions
* `Model/Outputs` (25 definitions): Band structures and data files dynaphopy/__init__.py:396-443, 500-530 (bands), 568-577 (printing them), 1213-1251 (data files), dynaphopy/interface/iofile/__init__.py:722-787 (YAML), scripts/rfc_calc:48-66 (reading them again). The text of YAML is not modelled, only the data written; numbers with a fraction are written with eight decimals.
* `Model/Parameters` (20 definitions): Parameters (dynaphopy/parameters.py and scripts/dynaphopy:297-331)
* `Model/Parsers` (39 definitions): Trajectory parsers (dynaphopy/interface/iofile/trajectory_parsers.py) A memory mapped file is the list of its lines, a cursor is the list of the lines that follow it (the cursor of these parsers is always at the start of a line, or a `seek` to the middle of a line is directly followed by `readline`). The text of numbers is not modelled: `float`, `int` and `split` are the functions of a `Codec`. `none` as a result of a parser is a Python exception or `exit()`.
* `Model/PhonopyLink` (12 definitions): Link to phonopy (dynaphopy/interface/phonopy_link.py) and reordering of bands (dynaphopy/__init__.py:401-443) phonopy itself is not modelled; what it returns is an argument.
* `Model/PlotLabels` (10 definitions): Texts and axes of the plots, text files of the projections (dynaphopy/__init__.py) Texts are lists of characters. What matplotlib does with them is not modelled.
* `Model/PoscarText` (8 definitions): POSCAR files character by character The writer `generate_VASP_structure` (dynaphopy/generate_cell.py:4-38) and the reader `read_from_file_structure_poscar` (dynaphopy/interface/iofile/__init__.py:268-328) on texts (lists of characters); `GenerateCell.lean` has the same functions on words.
* `Model/PowerDos` (2 definitions): Thermal properties from the power spectrum (dynaphopy/__init__.py:1334-1353, dynaphopy/analysis/thermal_properties.py:18-35)
* `Model/Process` (5 definitions): Several Quasiparticle objects in one process (dynaphopy/parameters.py:4-10, dynaphopy/__init__.py:43)
* `Model/ProgressBar` (9 definitions): Progress bars
* `Model/Projection` (6 definitions): dynaphopy/projection.py and the wave-vector methods of dynaphopy/__init__.py All array operations act on each time step separately, so the models are for one time step (one frame).
* `Model/ProjectionText` (6 definitions): The text of the files written by `save_vc` and `save_vq`, and the curves of `plot_vq`
* `Model/Qha` (22 definitions): Quasi-harmonic scripts: scripts/qha_quasiparticle.py and scripts/qha_extract
* `Model/QhaBands` (9 definitions): scripts/qha_quasiparticle.py: band structures, densities of states and thermal properties drawn phonopy (bands and densities of states of force constants) is a parameter. Titles, axes and colours are left out.
* `Model/QhaPlots` (10 definitions): scripts/qha_quasiparticle.py: the plots of shifts and linewidths A plot is the list of its curves, a curve the list of its points. Titles of the axes and matplotlib are left out.
* `Model/QhaScript` (30 definitions): scripts/qha_quasiparticle.py: the objects `ForceConstantsFitting` with its caches, and what `QuasiparticlesQHA` gives to phonopy. phonopy's thermal properties and `PhonopyQHA` are parameters.
* `Model/Quasi` (35 definitions): The Quasiparticle object: settings, caches, getters (dynaphopy/__init__.py:22-187, 626-854, 1100-1211) The numerical routines are parameters (`QEnv`); the model is about which of them are called with which settings, and about what is kept in the caches. The trajectory and the structure do not change. Simplifications: the wave vectors all have the same number of components; the constructor argument `vc` is None; printing and plotting are left out.
* `Model/Reports` (16 definitions): Tables printed on the screen The lines of text that `print` gives, without the end of line characters. Numbers are exact; `inf` and `nan` are not modelled.
* `Model/RfcRun` (15 definitions): The script rfc_calc scripts/rfc_calc. phonopy and the plotting library are not modelled: the commensurate points of a supercell, the eigenvectors of a phonopy object at a wave vector, the force constants of given frequencies and eigenvectors, the force constants produced from force sets and the automatic path are arguments (`RfcWorld`). What the script prints, writes and draws is the result.
* `Model/Rounding` (4 definitions): Rounding functions used by the code The numbers are idealised: an arbitrary linearly ordered field with a floor function (ℚ, so that the models compute, or ℝ).
* `Model/Sampling` (6 definitions): Averages over random samples of the trajectory (dynaphopy/dynamics.py:241-295) and the highest peak of a spectrum (dynaphopy/analysis/peaksearch.py) The random generator is an arbitrary sequence of numbers. Real arithmetic.
* `Model/Screen` (2 definitions): The list of frequencies on the screen (dynaphopy/interface/interactive_ui.py:13-19, 120-125)
* `Model/SeekPath` (5 definitions): Automatic band path (dynaphopy/atoms.py:358-380) The library seekpath is a parameter: the function `get_path` of the structure it is given, or nothing when it is not installed.
* `Model/Settings` (6 definitions): Frequency range settings (dynaphopy/__init__.py:139-154)
* `Model/Simpson` (6 definitions): Simpson's rule (`scipy.integrate.simps` / `simpson`) Used for the areas of the spectra (dynaphopy/__init__.py:918, 928, 1039, 1046), the number of states (dynaphopy/__init__.py:1266, 1339) and the thermal properties (dynaphopy/analysis/thermal_properties.py:45-119). The code imports `simps` and, where it is missing, `simpson` (dynaphopy/__init__.py:16-19, thermal_properties.py:4-7), so that two versions of the rule are in use: they differ for an even number of points. SciPy is not in the repository; the functions below are the formulas of its source, for points `x 0, ..., x (n-1)`. Real arithmetic.
* `Model/Spectra` (12 definitions): The spectrum functions for a whole matrix (dynaphopy/power_spectrum/__init__.py:57-103, 248-270, 299-315, 344-360, 402-447) `vq` is given by its rows (one per time step), with `m` columns. Exact real arithmetic. The progress bars have no effect on the result and are not modelled. With no column at all numpy returns an empty array of another shape; the model returns empty rows.
* `Model/SpectrumPlots` (11 definitions): The curves of the plots of the spectra and of the trajectory (dynaphopy/__init__.py:875-976) matplotlib is not modelled: a plot is the list of its curves with their names in the legend.
* `Model/Structure` (22 definitions): `Structure` (dynaphopy/atoms.py): cached attributes and the atom type loop Every method is a function returning the result together with the new object; `none` is the Python `exit()`/exception branch.
* `Model/Supercell` (8 definitions): Supercell construction (dynaphopy/atoms.py) and index arithmetic (dynaphopy/interface/iofile/__init__.py) `d` is the number of dimensions (general, not only 3). A list of `n` atom vectors is a `List (Fin d → K)`; a cell is a matrix with the lattice vectors in the rows.
* `Model/TestTrajectory` (9 definitions): Harmonic test trajectories (dynaphopy/interface/iofile/__init__.py:331-446)
* `Model/Text` (22 definitions): Numbers as text: Python's `format`, `split`, `float` and `int` Used by all the files that the code writes and reads. Texts are lists of characters. The numbers are exact (elements of an ordered field with floor); the text is what Python prints for a float with exactly this value. `inf`, `nan`, negative zero and digit groups with underscores are not modelled.
* `Model/Thermal` (23 definitions): Thermal properties (dynaphopy/analysis/thermal_properties.py, dynaphopy/__init__.py:1253-1299) Real arithmetic. `frequency` and `dos` are arrays of `n` numbers. `simps(y, x=frequency)` is a linear rule: the sum of `w i * y i` with weights `w` that depend on `frequency` only; the weights are a parameter (they differ between SciPy versions for an even number of points). `np.nan_to_num` replaces the nan at frequency 0 by 0; Lean's conventions `0⁻¹ = 0`, `log 0 = 0` give 0 for the same expressions. In `get_free_energy` the value at frequency 0 is minus infinity, so the model of that function is meant for positive frequencies from the second point on. Overflow of the exponentials is not modelled.
* `Model/Threads` (10 definitions): The parallel loops over the frequencies (c/mem.c:155-168, c/correlation.c:143-147) `# pragma omp parallel for default(shared) private(AngularFrequency)`: every thread has its own loop variable `i`, its own `AngularFrequency` and its own registers; the array `PowerSpectrum` is shared and everything else is only read. The threads take iterations that nobody has taken yet, in any order, and their instructions are interleaved in any way. Sequential consistency is assumed (for programs without data races it is what C promises).
* `Model/TrajectoryText` (7 definitions): The trajectory parsers on the characters of the file `Parsers.lean` has the parsers for arbitrary functions that turn text into numbers; here these are Python's.
* `Model/Velocity` (1 definitions): Velocity from coordinates (dynaphopy/dynamics.py:313-329) with the C displacement routine
* `Model/Versions` (7 definitions): Loading with different versions of the libraries (dynaphopy/interface/phonopy_link.py:1-19, dynaphopy/__init__.py:16-19, dynaphopy/analysis/thermal_properties.py:4-7) An installed library is what its modules offer: for the name of a module and a name in it, whether it can be imported. A failing import is `none` (`ImportError`, to which `ModuleNotFoundError` belongs).
* `Model/Xsf` (4 definitions): XSF files (dynaphopy/interface/iofile/__init__.py:609-634)
* `Model/XsfText` (4 definitions): The XSF file character by character: `write_xsf_file` (dynaphopy/interface/iofile/__init__.py:609-634)
<!-- end models -->

Not modelled:

* drawing: what matplotlib does with the curves, texts and axes that it is given (the curves and texts themselves are in `PlotLabels`, `SpectrumPlots`, `QhaPlots`, `QhaBands`, `ModeDrawing`);
* floating point: arithmetic is exact, except in `Model/Double`, `DoubleTests` and `DoubleTime`, which have the division into pieces, the frequency range, the number of frames, the comparisons with zero and the
  time axis in IEEE double precision (normal numbers only). Elsewhere comparisons such as `x == 0`, `np.arange` lengths and ties of rounding are those of exact numbers; `inf`, `nan` and negative zero do not occur;
* the text of numbers where a `Codec` gives the value of a token (`Parsers`, some readers); the texts that the program writes and reads are modelled character by character in `Text`, `CurveFile`, `PoscarText`,
  `LammpsText`, `TrajectoryText`, `OutcarText`, `InputText`, `DisplacementText`, `Reports` and `Screen`; the text of YAML and HDF5 files is not, only their data;
* phonopy, spglib, seekpath and SciPy's optimizers (`curve_fit`, `maxwell.fit`): what they return is an argument, or a hypothesis says what is used of it; Simpson's rule is in `Simpson`; NumPy's FFT is the finite
  Fourier sum; CUDA, FFTW and pyfftw only by what they should compute (`FFTBackends`);
* OpenMP: interleavings of the threads' steps, sequentially consistent (`Threads`); the C routines with blocks of memory, bounds and reference counts (`Heap`, `HeapMem`, `CMem`), not the compiler;
* exceptions and `exit()`: `none` in most models (no distinction between kinds of failure, except in `Parsers`, where `break` and failure differ);
* the operating system: files are maps from names to contents; a crash can happen between any two steps, and a file that is being written has arbitrary contents (`FileRuns`); no partial writes within a `memmap` page.

## 5. Results

A property is `proved` if the theorems cover it as stated in `properties.jsonl`. It is `partial` if something is missing **or if the code, as
written, does not have it**: then the theorems named `..._violated`/`..._false` prove the negation (for all inputs, where possible), and the
remaining theorems say in which cases the property holds. The theorems of the second kind are findings about the code, not gaps of the proof.

<!-- begin table -->
| Prop | Title | Status | Props module (models) | Theorems | What is proved / missing |
|---|---|---|---|---|---|
| C01 | Supercell positions: count and order | proved | Supercell (Supercell) | `C01_count`, `C01_order`, `C01_order_3d`, `C01_unit` | For every dimension list (C01_order) and spelled out for 3 dimensions (C01_order_3d). |
| C02 | Per-atom data aligned with supercell positions | proved | Supercell (Supercell) | `C02_length`, `C02_aligned`, `C02_block` |  |
| C03 | dynaphopy_order inverts the supercell order | proved | Supercell (Supercell) | `C03_range`, `C03_reconstruct`, `C03_row`, `C03_injective`, `C03_decode` |  |
| C04 | Supercell lattice vectors | partial | Supercell (Supercell) | `C04_iff`, `C04_partial`, `C04_violated`, `C04_diagflat` | The property is false of the code in general: C04_violated (fcc cell, supercell 2,1,1); C04_iff says exactly when it holds, C04_partial for orthogonal cells and isotropic supercells; C04_diagflat: the formula used by the trajectory readers has the property. |
| C05 | Cartesian / fractional round trip | proved | Structure () | `C05_cart_scaled_cart`, `C05_scaled_cart_scaled`, `C05_supercell` |  |
| C06 | Atom types: labels and equivalence | proved | AtomTypes (Structure); Structure () | `C06_rule`, `C06_first_occurrence`, `C06_labels`, `C06_classes`, `C06_object` |  |
| C07 | Atom types do not depend on the call history | partial | Structure () | `C07_partial`, `C07_violated` | False of the code (C07_violated); holds for supercell arguments that do not mix up the masses (C07_partial). |
| C08 | Setters are visible through getters (Structure) | partial | Setters (); Structure () | `C08_set_cell_partial`, `C08_primitive_partial`, `C08_set_positions_violated`, `C08_set_positions_partial`, `C08_set_cell_violated` | Primitive matrix part proved; set_positions/set_cell parts are false in the code (violated theorems). |
| C09 | Element, atomic number and mass inference | partial | ElementTable (Elements, Text); Elements (Elements) | `C09_table`, `C09_from_elements`, `C09_from_masses`, `C09_rounded_masses`, `C09_explicit`, `C09_unknown_mass_violated`, `C09_zero_mass_violated` | Explicit elements and tabulated masses proved, also for masses rounded to a few decimals; unknown and zero masses violate it. |
| C10 | Minimum-image displacement | proved | Displacements (Displacements) | `C10_minimum_image` | Tie convention as in C round(). |
| C11 | Hand-written determinant and inverse | partial | Displacements (Displacements) | `C11_determinant`, `C11_inverse_partial`, `C11_inverse_one_violated` | Determinant for all n; inverse for n>=2; for n=1 the C code is wrong (C11_inverse_one_violated). |
| C12 | Displacements do not depend on periodic images | proved | Displacements (Displacements) | `C12_periodic_images`, `C12_tie` | Ties excepted; C12_tie shows the exception is needed. |
| C13 | Cropping keeps exactly the last steps of every series | partial | CropVelocity (); Dynamics (Dynamics) | `C13_unknown_partial`, `C13_noop`, `C13_crop_partial`, `C13_crop_twice_partial`, `C13_velocity_violated` | Proved for every reachable object whose velocity is known and memmap=False (C13_crop_partial, C13_crop_twice_partial); with a velocity still to be computed the claim is false (C13_velocity_violated): for equally spaced times all rows but the first are kept and the first one is the forward difference of the kept positions (C13_unknown_partial). |
| C14 | Cropping is visible in every derived quantity | partial | Dynamics (Dynamics) | `C14_derived_partial`, `C14_time_step_violated`, `C14_mean_disp_violated`, `C14_memmap_violated` | Relative trajectory, velocity and mass weighted velocity proved for all histories without memmap; the time step, the mean displacement matrix and memmap clauses are false of the code (violated theorems). |
| C15 | Supercell matrix recovered from the MD cell | partial | Averages (Averages, Dynamics) | `C15_exact`, `C15_stop_partial`, `C15_iff`, `C15_violated` | Exact multiples proved; stopping proved when the deviations have equal sign (C15_stop_partial); false in general because deviations cancel (C15_violated). C15_iff: the program goes on exactly when the signed deviations, added up, are small against the length of the vector of ratios. |
| C16 | Average time step | proved | DoubleTime (DoubleTime); Dynamics (Dynamics) | `C16_double`, `C16_average`, `C16_error`, `C16_repeat`, `C16_uniform` | C16_double: all rounding errors of the loop included, for the unbounded exponent range of Model/Double. |
| C17 | Velocity from coordinates | partial | Velocity (Velocity); VelocityAccuracy () | `C17_uniform_partial`, `C17_static`, `C17_wrapping`, `C17_short`, `C17_drift_violated`, `C17_accuracy`, `C17_harmonic` | Uniform motion closer than half a cell to the reference position is exact; smooth motion is accurate to second order in the time step inside and first order at the ends (C17_accuracy); oscillations are damped by sin(wh)/(wh) (C17_harmonic). False for atoms that drift further than half a cell (C17_drift_violated). |
| C18 | Mass weighting | proved | Averages (Averages, Dynamics) | `C18_entry`, `C18_kinetic` |  |
| C19 | Average positions | partial | Averages (Averages, Dynamics) | `C19_average`, `C19_unit_cell_partial`, `C19_unit_cell_violated` | average_positions proved; to_unit_cell clause violated. |
| C20 | Mean displacement matrix | partial | Averages (Averages, Dynamics) | `C20_average`, `C20_covariance`, `C20_posSemidef`, `C20_first_call_partial`, `C20_cache_violated` | Average/covariance/PSD proved; the cached result ignores the argument (C20_cache_violated). |
| C21 | Memory-mapped objects do not interfere | partial | Memmap (Memmap) | `C21_separate_partial`, `C21_cleanup`, `C21_violated` | False for two objects of one process (C21_violated); proved for all histories of objects in separate directories or processes (C21_separate_partial). |
| C22 | Two implementations of the phonon projection agree | proved | Projection (Projection) | `C22_agree` |  |
| C23 | Phonon projection conserves power | proved | Projection (Projection) | `C23_power` |  |
| C24 | Wave-vector projection conserves power | proved | NormalModes (); Projection (Projection) | `C24_power`, `C24_linear`, `C24_origin`, `C24_power_primitive` | Linearity, origin shift, and conservation of power for every crystal and supercell, also with several primitive cells in the unit cell, over any complete set of commensurate wave vectors (C24_power); C24_power_primitive shows such a set for primitive unit cells. |
| C25 | Atom-projected wave-vector projections add up | proved | Projection (Projection) | `C25_restricted`, `C25_sum` |  |
| C26 | Commensurate wave vectors | proved | DoubleTests (DoubleTests); Projection (Projection) | `C26_double`, `C26_accepted_near`, `C26_reciprocal`, `C26_phase_iff`, `C26_accepts` | Exact arithmetic: C26_accepts, C26_phase_iff, C26_reciprocal, C26_accepted_near; double precision: C26_double (entries up to 16, supercells up to 256; the inverse computed by LAPACK is a hypothesis). |
| C27 | Division of the data into pieces | partial | Division (Division); DoublePieces (); Oscillation () | `C27_division`, `C27_returns`, `C27_double`, `C27_double_one`, `C27_double_size`, `C27_double_violated`, `C27_ragged_violated`, `C27_average_exact`, `C27_length` | Proved in exact arithmetic (C27_division, C27_returns, C27_average_exact). In double precision (Model/Double.lean) two clauses are false: the last sample may be left out (C27_double_violated) and the pieces may differ by one sample, so that the average of the pieces raises an error (C27_ragged_violated); what is left, for up to 2^25 samples: C27_double, C27_double_one, C27_double_size. |
| C28 | Direct Fourier power spectrum | partial | Correlation (Correlation) | `C28_partial`, `C28_returns`, `C28_method`, `C28_step_zero`, `C28_violated`, `C28_scale` | The estimator the code computes is proved to be the stated sum; the intended correlation integral is not what it computes (C28_violated). |
| C29 | Maximum entropy spectrum is non-negative and finite | proved | Mem (Mem) | `C29_coefficients`, `C29_monotone`, `C29_nonneg` |  |
| C30 | Maximum entropy method uses exactly the given data | partial | Mem (Mem) | `C30_violated`, `C30_bounds_partial`, `C30_garbage_violated`, `C30_first_violated` | All reads stay in bounds with fewer coefficients than data (C30_bounds_partial); with the reported off-by-one the first/last sample and garbage are used (C30_*_violated). |
| C31 | FFT spectra | proved | FFTPower (FFTPower) | `C31_scale`, `C31_phase`, `C31_nonneg`, `C31_no_overshoot`, `C31_grid`, `C31_correlogram`, `C31_total` |  |
| C32 | Full spectrum: silent mode and partials agree | proved | Defined (); FFTPower (FFTPower) | `C32_selected`, `C32_silent`, `C32_partials`, `C32_projected` |  |
| C33 | Results always reflect the current settings | partial | Quasi (Quasi) | `C33_partial`, `C33_values`, `C33_settings`, `C33_projection_violated`, `C33_partials_violated`, `C33_coordinate_violated` | Proved for every history without set_projection_onto_atom_type, partial spectra and coordinate projections; those three are false (C33_*_violated). |
| C34 | Getters do not change the settings | partial | Quasi (Quasi) | `C34_getters`, `C34_commensurate`, `C34_range_violated` | Proved for all spectra getters; get_commensurate_points_data restores the wave vector but replaces the frequency range (C34_range_violated). |
| C35 | Settings of two calculations are independent | partial | Parameters (Parameters); Process (Process) | `C35_process_shared_violated`, `C35_process_default_violated`, `C35_process_assign_violated`, `C35_process_single_partial`, `C35_defaults_violated`, `C35_shared_violated`, `C35_single_partial`, `C35_all_share` | False: settings are a process-wide singleton (C35_*_violated). Only the one-object case holds (C35_single_partial). |
| C36 | Commensurate-point data | proved | Quasi (Quasi) | `C36_entries`, `C36_gamma` |  |
| C37 | Degenerate sets | proved | Degeneracy (Degeneracy) | `C37_cover`, `C37_partition`, `C37_linked`, `C37_unsorted_violated` | For frequencies in the order given by the code; unsorted lists are a documented counterexample (C37_unsorted_violated). |
| C38 | Degeneracy averaging | proved | Degeneracy (Degeneracy) | `C38_average`, `C38_equal`, `C38_single`, `C38_sum`, `C38_unsorted_violated` | Unsorted input counterexample in C38_unsorted_violated. |
| C39 | Frequency range | partial | DoubleRange (); Settings (Settings) | `C39_double`, `C39_double_resolution`, `C39_double_repeat_violated`, `C39_double_count_violated`, `C39_limits`, `C39_resolution`, `C39_repeat`, `C39_empty_violated` | Proved in exact arithmetic. In double precision C39_double gives the range up to a thousandth of the resolution, for limits up to 10^6 times the resolution; there the number of values may be off by one and repeating set_spectra_resolution may add a value (C39_double_count_violated, C39_double_repeat_violated). |
| C40 | Thermodynamic identity | partial | Thermal (Thermal) | `C40_general`, `C40_partial`, `C40_violated` | U = F + TS for every spectrum whose first sample has frequency 0 or no states, exact defect otherwise (C40_general); the code zeroes the first grid point, so real use starting at a positive frequency is off (C40_violated). |
| C41 | Heat capacity and entropy are the temperature derivatives | proved | Thermal (Thermal) | `C41_cv`, `C41_entropy` | The entropy = -dF/dT clause is for frequency lists starting at 0 (the code drops the first point of F). |
| C42 | Heat capacity and entropy bounds | proved | Thermal (Thermal) | `C42_bounds`, `C42_modes`, `C42_entropy2` |  |
| C43 | Free energy correction | proved | Thermal (Thermal) | `C43_correction`, `C43_energy`, `C43_shift`, `C43_shift_energy` |  |
| C44 | Lorentzian fit parameters mean what is reported | proved | Fitting (Fitting) | `C44_maximum`, `C44_width`, `C44_area` |  |
| C45 | Asymmetric Lorentzian reduces to the Lorentzian | proved | Fitting (Fitting) | `C45_symmetric`, `C45_width`, `C45_fit`, `C45_report` |  |
| C46 | Accepted fits have a sensible width | partial | Fitting (Fitting) | `C46_width_partial`, `C46_violated`, `C46_failed`, `C46_lists` | Lists complete (C46_lists); width of the damped oscillator never negative, of Lorentzians only for a non-negative fitted half width (C46_width_partial), otherwise negative widths are accepted (C46_violated). |
| C47 | Damped harmonic and Gaussian profiles | partial | Fitting (Fitting) | `C47_damped`, `C47_damped_peak`, `C47_damped_width`, `C47_gaussian_value`, `C47_gaussian_violated` | Damped oscillator clauses proved; the Gaussian integrates to 2 pi c rather than the reported area (C47_gaussian_violated). |
| C48 | LAMMPS reading window | partial | Parsers (Parsers); TrajectoryText (TrajectoryText) | `C48_window`, `C48_to_end`, `C48_last_steps`, `C48_last_zero_violated`, `C48_memmap_partial`, `C48_memmap_violated`, `C48_memmap_empty`, `C48_truncated_violated`, `C48_text` | Proved for every well formed file and window without memmap (C48_window, C48_to_end, C48_last_steps) and with memmap if the file is long enough (C48_memmap_partial). False with memmap on shorter files (zero frames) and for dumps cut off after an ATOMS header (extra time stamp). C48_text: the characters of the file, for any spacing and number format. |
| C49 | XDATCAR reading window | partial | Parsers (Parsers); TrajectoryText (TrajectoryText) | `C49_partial`, `C49_frames_partial`, `C49_time_violated`, `C49_memmap_violated`, `C49_memmap_empty`, `C49_text_partial` | Frames are right without memmap; time stamps of skipped frames are kept (C49_time_violated); with memmap only the last frame survives (C49_memmap_violated). C49_text_partial: the characters of the file. |
| C50 | OUTCAR reading window | partial | OutcarText (OutcarText); Parsers (Parsers) | `C50_text_partial`, `C50_text_violated`, `C50_partial`, `C50_violated`, `C50_example_violated` | Only initial_cut=1 is right; otherwise the first e+1-i frames are returned (C50_violated, for all files). C50_text_partial and C50_text_violated are about the characters of the file: number of atoms, POTIM, lattice vectors, steps with any lines between them. |
| C51 | Reading limit | partial | Parsers (Parsers) | `C51_lammps_count`, `C51_violated` | False: limit+2 frames are read (C51_lammps_count, exact for all files; C51_violated). |
| C52 | HDF5 round trip | partial | Hdf5 (Hdf5) | `C52_roundtrip`, `C52_velocity_only`, `C52_window_partial`, `C52_zero`, `C52_time_violated`, `C52_rotation_violated` | Round trip proved for all data and supercells in the orientation of the unit cell; the window does not cut the time stamps (C52_time_violated, for all files) and rotated supercells lose their orientation (C52_rotation_violated); read_from 0 reads the last frame only (C52_zero). |
| C53 | concath5 concatenates | partial | Hdf5 (Hdf5) | `C53_concat_partial`, `C53_success`, `C53_time_violated`, `C53_example_violated` | Concatenation of velocity, trajectory, vc proved for any number of files; time stamps are those of the first file, uncut (C53_time_violated, for all inputs). |
| C54 | Automatic atom order is a permutation | partial | Arrangement (Arrangement, Parsers) | `C54_permutation`, `C54_nearest`, `C54_order_partial`, `C54_violated` | Each atom is assigned to the nearest atom of the unit cell, periodic images included (C54_nearest); np.argsort of the template is always a permutation (C54_permutation); the order of get_positions is recovered for displaced, wrapped atoms in any order when the outermost coordinate is in the outer half of the last cell (C54_order_partial); false for structures with all fractional coordinates below 1/2 (C54_violated). |
| C55 | POSCAR round trip | partial | GenerateCell (GenerateCell); PoscarText (PoscarText) | `C55_roundtrip_partial`, `C55_elements_iff`, `C55_violated`, `C55_supercell_partial`, `C55_text_partial`, `C55_text_stable` | Cell and coordinates always survive; elements exactly if equal elements are adjacent (C55_elements_iff), so false in general (C55_violated). C55_text_partial: the same character by character, with the decimals of the file. |
| C56 | LAMMPS data file: atom types and masses | partial | GenerateCell (GenerateCell) | `C56_types`, `C56_isotopes_violated` | Proved for all lists of elements whose masses depend on the element only; false for isotopes (C56_isotopes_violated). |
| C57 | LAMMPS cell is the same crystal | partial | LammpsCell (LammpsCell, Supercell) | `C57_gram`, `C57_rotation`, `C57_box`, `C57_supercell_violated`, `C57_supercell_partial` | Gram matrix, box numbers, rotation of the positions proved for every non-singular cell given to the generator; for anisotropic supercells of non-orthogonal cells that cell is wrong (C57_supercell_violated, from C04). |
| C58 | LAMMPS box bounds | proved | LammpsBox (LammpsBox, Supercell) | `C58_triclinic`, `C58_orthogonal`, `C58_lines` | For all boxes, orthogonal and triclinic, tilts of any sign. |
| C59 | LAMMPS frame rotation | proved | LammpsBox (LammpsBox, Supercell); TrajectoryText (TrajectoryText) | `C59_geometry`, `C59_trajectory`, `C59_text` | For every non-singular cell, orthogonal matrix and supercell, and for whole trajectories through the reader model (C59_text: from the characters of the file). |
| C60 | Trajectory format detection | proved | Inputs (Inputs) | `C60_first`, `C60_lammps`, `C60_default` | All contents and any number of inspected bytes; reading the file itself (mmap, missing file) is outside the model. |
| C61 | Input file | partial | Inputs (Inputs) | `C61_last`, `C61_matrix`, `C61_comment_violated`, `C61_comment_example_violated` | For every file that is read: last value wins, default POSCAR, commented keywords are ignored (C61_last). False that comment lines are always ignored: a comment right after a keyword becomes its value (C61_comment_violated). |
| C62 | Parameter setters | partial | Parameters (Parameters) | `C62_set_partial`, `C62_save_violated`, `C62_default`, `C62_dict` | Every property but save_renormalized_frequencies, for all histories; that one can never be changed through its setter (C62_save_violated). |
| C63 | XSF writer | proved | Xsf (Xsf) | `C63_ends_iff`, `C63_computed`, `C63_user_types_violated` | Ends iff all types below the number of types occur (C63_ends_iff), which holds for all types the code computes (C63_computed); not for user-given types (C63_user_types_violated). The text is C148. |
| C64 | Eigenvector arrangement round trip | proved | PhonopyLink (PhonopyLink) | `C64_roundtrip` | For all sizes and arrays. |
| C65 | Equivalent q-points | proved | PhonopyLink (PhonopyLink) | `C65_points`, `C65_gamma` | For all operations, primitive matrices and points; the order of the result is not modelled (a Python set). |
| C66 | Band paths | proved | DoubleTests (DoubleTests); PhonopyLink (PhonopyLink) | `C66_double`, `C66_double_violated`, `C66_points` | For every resolution > 0, over the reals (C66_points) and with every operation rounded to a double (C66_double); C66_double_violated shows that a stronger claim, ending exactly at the end point, fails with floats. |
| C67 | Anisotropic displacement parameters | proved | Adp (Adp) | `C67_fractional`, `C67_posSemidef`, `C67_orthogonal`, `C67_scale`, `C67_trajectory` | For all cells and data; C67_trajectory ties it to the mean displacement matrix model of C20. |
| C68 | Band reordering is a permutation | partial | PhonopyLink (PhonopyLink) | `C68_permutation_partial`, `C68_violated` | Holds if each band keeps a squared overlap above 1/2 along the segment (C68_permutation_partial); false in general: two orthonormal eigenvector sets give the order 1,0,0 (C68_violated). |
| C69 | fitdata uses all rows | partial | Defined (); Fitdata (Fitdata) | `C69_groups_defined`, `C69_columns_defined`, `C69_groups_partial`, `C69_first_row_violated` | With -bi, for all files and groups (C69_groups_partial); without -bi the first row is lost in every file (C69_first_row_violated). |
| C70 | Harmonic test trajectory phase | partial | TestTrajectory (TestTrajectory) | `C70_scaled_violated`, `C70_amplitude_violated`, `C70_harmonic_partial`, `C70_periodic_partial`, `C70_equipartition_violated` | Phase zero: equal energies, equations of motion, periodicity; any other phase multiplies all displacements by exp(phase_0) (C70_scaled_violated, for all inputs). |
| C71 | Displacement distributions | proved | Averages (Averages, Dynamics) | `C71_values`, `C71_count`, `C71_scale` |  |
| C72 | Python and C displacement routines agree | partial | Displacements (Displacements) | `C72_partial`, `C72_iff`, `C72_violated` | Agreement in symmetric (orthogonal) cells away from ties; false in sheared cells (C72_violated). C72_iff: the two agree off the ties exactly when the cell is symmetric. |
| C73 | Changing the trajectory or the quasi-harmonic force constants refreshes the results | partial | Process (Process) | `C73_crop_violated`, `C73_qha_violated` | False (C73_*_violated): no cache is cleared. |
| C74 | Occupation number and temperature of a fitted peak | partial | Fitting (Fitting) | `C74_bose_einstein`, `C74_energy`, `C74_quantum_violated` | The relation holds with hbar*position; with the documented quantum h*position it is false (C74_quantum_violated). |
| C75 | Thermal properties of a quasiparticle | partial | PowerDos (PowerDos); Thermal (Thermal) | `C75_projected`, `C75_identity`, `C75_normalized`, `C75_harmonic_partial`, `C75_violated` | Identity and normalisation proved; harmonic values under the stated grid hypotheses (C75_harmonic_partial), false otherwise (C75_violated). |
| C76 | LAMMPS columns | partial | Parsers (Parsers) | `C76_partial`, `C76_id_violated`, `C76_iff`, `C76_velocity_violated` | Exactly for headers starting with x y z / vx vy vz (C76_iff); otherwise false (C76_id_violated, C76_velocity_violated). |
| C77 | XDATCAR scale factor | partial | Parsers (Parsers) | `C77_lines`, `C77_violated` | False: the scale factor is ignored (C77_violated, for all files). |
| C78 | POSCAR reader | partial | GenerateCell (GenerateCell); PoscarText (PoscarText) | `C78_poscar_partial`, `C78_truncated`, `C78_cartesian_violated`, `C78_text_partial` | Both styles and direct coordinates proved, on words and on characters (C78_text_partial); Cartesian coordinates are not multiplied by the scale factor (C78_cartesian_violated, for all files). |
| C79 | LAMMPS dumps keep distances | partial | LammpsBox (LammpsBox, Supercell) | `C79_distances_partial`, `C79_iff`, `C79_sheared_violated` | Exactly if the dump has the angles of the structure (C79_iff); false for sheared boxes (C79_sheared_violated). |
| C80 | Band path of the input file | partial | Inputs (Inputs) | `C80_bands_partial`, `C80_labels_partial`, `C80_labels_violated`, `C80_mesh_violated`, `C80_example_violated` | Holds unless the section is directly followed by MESH PHONOPY; then reading raises ValueError (C80_mesh_violated, for all such files). |
| C81 | Command line options | partial | Parameters (Parameters) | `C81_options_partial`, `C81_ignored_violated` | Four options reach the parameters; --fcsymm and --save_renormalized_frequencies never do (C81_ignored_violated). |
| C82 | Atom types by element | partial | Xsf (Xsf) | `C82_element_partial`, `C82_violated` | Only if the first atoms are one of each element; false otherwise (C82_violated). |
| C83 | Renormalized force constants keep the renormalized frequencies | proved | PhonopyLink (PhonopyLink) | `C83_frequencies`, `C83_harmonic` | phonopy functions create_dynamical_matrices and the frequency convention are modelled from their documentation, not from the repository; the Fourier transform to real-space force constants is not modelled. |
| C84 | LOESS smoothing keeps straight lines | proved | Fitdata (Fitdata); Loess () | `C84_line`, `C84_local`, `C84_window`, `C84_undefined`, `C84_defined`, `C84_least_squares`, `C84_even` | C84_line wherever a smoothed value exists; C84_defined and C84_even say exactly when; C84_undefined: none exists for a factor of one or more. Negative factors are not modelled. |
| C85 | LAMMPS trajectories: order of the atoms, times, commands | partial | Defined (); DoubleRange (); LammpsLink (LammpsLink) | `C85_runs`, `C85_double`, `C85_double_violated`, `C85_frames_partial`, `C85_reordered_iff`, `C85_order_partial`, `C85_total_time`, `C85_setup`, `C85_cell`, `C85_reordered_violated` | Holds if LAMMPS keeps its internal order during the run (C85_frames_partial, C85_order_partial, C85_total_time, C85_setup); exactly which reorderings are survived: C85_reordered_iff; the cell: C85_cell; number of frames in double precision: C85_double (at most one frame is lost; C85_double_violated); false in general (C85_reordered_violated: the id permutation is applied instead of its inverse). |
| C86 | Temperature from the velocities | partial | Analysis (Analysis) | `C86_fit`, `C86_equipartition`, `C86_printed`, `C86_cache`, `C86_zero_violated` | The equipartition temperature for all trajectories in which no atom is at rest (SciPy: the fit is taken to be a maximum of the likelihood; it exists and is unique, C86_fit); a temperature of 0 that was set is ignored (C86_zero_violated). |
| C87 | Scan of the number of MEM coefficients | proved | Analysis (Analysis) | `C87_best`, `C87_width` | For all ranges, spectra, fits; the bounds of the width for positive errors (a zero error gives nan in the code). |
| C88 | Distribution of atomic displacements | partial | Analysis (Analysis); Defined (); DisplacementText (DisplacementText) | `C88_density_partial`, `C88_plot_centres`, `C88_file_violated`, `C88_file_defined`, `C88_text` | Densities and plot centres for all data (C88_density_partial, C88_plot_centres); in every file written the displacement of a row is one bin below its bin (C88_file_violated). C88_text: the characters of the file read back give four decimals of the displacement and ten digits of the densities. |
| C89 | Arrows of the phonon modes | partial | Analysis (Analysis) | `C89_arrow_partial`, `C89_iff`, `C89_mass_violated` | Exactly if the atom numbered by the type has the same mass (C89_iff; primitive cells); false in conventional cells (C89_mass_violated). |
| C90 | Forces used by phonopy | partial | Forces (Forces) | `C90_given`, `C90_consistent`, `C90_latest_constants`, `C90_force_sets`, `C90_stale_violated`, `C90_latest_sets_false`, `C90_no_forces`, `C90_supercell_none`, `C90_repeat`, `C90_supercell`, `C90_check`, `C90_check_false`, `C90_qha` | For all histories the forces and supercell belong together (C90_consistent), force constants set last are used (C90_latest_constants), arguments and QHA forces do not touch the structure; false: force sets set after a calculation are ignored (C90_stale_violated, for all inputs), the check of the number of atoms is wrong for non-triangular supercell matrices (C90_check exact, C90_check_false). Phonopy is a parameter. |
| C91 | Normalisation to the unit cell | proved | Forces (Forces) | `C91_total`, `C91_projected`, `C91_projected_sum`, `C91_thermal`, `C91_extensive` | For all spectra and cells; phonopy results are arguments of the model. |
| C92 | Commensurate points of a structure | partial | Commensurate (Commensurate) | `C92_sound`, `C92_double`, `C92_violated` | What is returned is characterised (C92_sound, C92_double: points of the doubled supercell); the property is false (C92_violated: extra points, 1/3 lost). |
| C93 | Band structure data | partial | Outputs (Outputs) | `C93_connected`, `C93_dictionary`, `C93_print_violated` | Data and connection proved for all paths; printing the bands always fails unless they are cached (C93_print_violated). |
| C94 | Quasiparticle and mesh files | partial | Outputs (Outputs) | `C94_rows_partial`, `C94_extra_violated`, `C94_switch_violated`, `C94_mesh` | Rows for all histories with a fixed supercell setting (C94_rows_partial), mesh file (C94_mesh); false: group velocities stay in later files (C94_extra_violated, for all inputs), mixed-up points after changing the setting (C94_switch_violated). |
| C95 | Quasiparticle file read by rfc_calc | partial | Outputs (Outputs) | `C95_list_violated`, `C95_decimals`, `C95_file`, `C95_dict_partial`, `C95_thirds_violated` | False: the list written is not the dictionary expected (C95_list_violated, for all files); with a dictionary only for points of at most eight decimals (C95_dict_partial, C95_thirds_violated). |
| C96 | Temperature and volume dependent frequencies (qha_quasiparticle) | partial | Defined (); Qha (Qha) | `C96_pressure_all`, `C96_gradient_all`, `C96_range_defined`, `C96_reference`, `C96_polynomial`, `C96_default_volume`, `C96_interpolate_violated`, `C96_no_reference_violated`, `C96_wave_vectors_violated`, `C96_range`, `C96_bands_violated`, `C96_bands`, `C96_pressure_pairs`, `C96_gradient_violated`, `C96_index` | Reference temperature, polynomial data, ranges and pressure pairs proved for all data; false: interpolate_volume is inverted, no default reference temperature, wave vectors of the other files are ignored, no automatic band path, wrong volumes in the gradient plot. |
| C97 | Data alignment in qha_extract | partial | Qha (Qha) | `C97_aligned`, `C97_force_constants_iff`, `C97_force_constants_violated`, `C97_temperatures_violated` | Thermal properties aligned for every order (C97_aligned); force constants aligned exactly when the volumes are already ascending (C97_force_constants_iff, C97_force_constants_violated); temperatures of the last file only. |
| C98 | Results and settings in the text menus | partial | Interactive (Interactive); Screen (Screen) | `C98_consistent_partial`, `C98_choice`, `C98_select`, `C98_other_keys`, `C98_long_line`, `C98_prompts`, `C98_keys`, `C98_exit`, `C98_mem_violated`, `C98_wave_violated`, `C98_nac_violated`, `C98_thermal_violated`, `C98_list`, `C98_list_fails`, `C98_list_violated` | All sessions (lists of characters): choices, exit, selection proved; results are those of a new object as long as the lines are acceptable (C98_consistent_partial). False: MEM coefficients and a mistyped wave vector leave old results in place (C98_mem_violated, C98_wave_violated, for all routines), NAC menu (C98_nac_violated), thermal table with two ranges (C98_thermal_violated), long lists of frequencies (C98_list_violated). Editing keys inside a prompt and failures inside numerical routines not modelled. |
| C99 | Structure read from an OUTCAR file | partial | OutcarStructure (OutcarStructure); OutcarText (OutcarText) | `C99_read`, `C99_masses`, `C99_missing_violated`, `C99_text` | Proved for all files of the layout VASP writes (C99_read, C99_masses); false for files without a keyword: read from the start of the file without notice (C99_missing_violated). C99_text is about the characters of the file (int, float, split of Python). |
| C100 | A fit object answers consistently | partial | Defined (); FitObject (FitObject) | `C100_guess_defined`, `C100_history`, `C100_once`, `C100_retry`, `C100_failure`, `C100_start`, `C100_lorentzian_curve`, `C100_damped_curve`, `C100_gaussian_curve`, `C100_maximum`, `C100_maximum_violated`, `C100_area`, `C100_error`, `C100_drawn`, `C100_guess` | All clauses proved for all histories and optimisers, except that the maximum of a Lorentzian leaves out the base line, unlike that of the other functions (C100_maximum_violated). curve_fit, quad, minimize_scalar are deterministic parameters. |
| C101 | Meaning of the reported width | partial | AsymExact (); AsymWidth (); FitObject (FitObject) | `C101_asymmetric_violated`, `C101_asymmetric_iff`, `C101_asymmetric_factor`, `C101_lorentzian`, `C101_damped_partial`, `C101_damped_violated`, `C101_gaussian`, `C101_asymmetric_partial` | Lorentzian and Gaussian proved (C101_lorentzian, C101_gaussian); asymmetric Lorentzian for asymmetry 0 (C101_asymmetric_partial), false for every asymmetry but 0, the reported width then being strictly too large (C101_asymmetric_violated; C101_asymmetric_iff: exact), by any factor (C101_asymmetric_factor); the damped oscillator's width is strictly below the full width at half maximum (C101_damped_violated), by a factor of at most sqrt(1+2(width/position)^2) (C101_damped_partial). |
| C102 | Results of the command line program | partial | Commands (Commands); Defined () | `C102_options`, `C102_results`, `C102_renormalized`, `C102_independent_partial`, `C102_range_violated`, `C102_plot`, `C102_thermal_violated`, `C102_runs` | Proved: options (C102_options), order and value of every result for the model of the program (C102_results), independence of velocity files, force constants, quasiparticle data, mesh and bands from other requests and from -r (C102_renormalized), of all results from other requests if none needs the quasiparticles (C102_independent_partial), the additional curve in the plot (C102_plot). Violated by the code and proved so: with -sfc the saved and drawn spectra ignore -r and use the automatic range (C102_range_violated); the frequency limit of the harmonic column of the thermal properties depends on --thm_reference (C102_thermal_violated). Not modelled: options that use the trajectory only, temperature, QHA force constants, interactive mode. |
| C103 | Projection onto normal modes | proved | NormalModes () | `C103_amplitudes`, `C103_complete`, `C103_energy` | Exact arithmetic. Hypotheses: the types are those of a crystal (C06), eigenvectors orthonormal and complete, wave vectors commensurate (C26), pairwise inequivalent and as many as primitive cells. |
| C104 | Mode spectra sum up to the full spectrum | proved | ChainSum (); NormalModes () | `C104_chain`, `C104_sum` | For the estimator the C code computes (see C28) in exact arithmetic; the common factor unit_conversion is left out. C104_chain: the same for what the three functions return from structure and trajectory (Model/Chain, Model/ChainFull), unit_conversion included. The FFT and MEM methods are not linear in the correlations and have no such rule. |
| C105 | Spectra are calculated column by column | proved | Spectra (Spectra, Projection) | `C105_shape`, `C105_independent`, `C105_values`, `C105_coefficients`, `C105_fourier_returns`, `C105_fft_returns`, `C105_algorithm`, `C105_nonneg` | Exact arithmetic; the out-of-bounds read of mem.c (C30) is represented by a readable element behind the data, whose content is part of the environment. The progress bars and the shape of a result without columns are not modelled. |
| C106 | Spectra do not depend on arbitrary choices | partial | Spectra (Spectra, Projection) | `C106_scale`, `C106_phase`, `C106_mixing`, `C106_mem_scale_partial`, `C106_mem_small_violated`, `C106_mem_phase_violated`, `C106_fft_mixing_violated` | Proved: scale and phase for direct Fourier and all FFT methods, mixing for direct Fourier, scale for MEM with real velocities and factors of at least 1. Violated: MEM depends on the phase of the eigenvectors (it treats real and imaginary part as separate signals) and returns zero for small velocities; the FFT sums depend on the mixing (absolute value of a truncated correlogram). |
| C107 | Zero padding refines the FFT resolution | partial | Spectra (Spectra, Projection) | `C107_padding_violated` | Violated for all inputs: no spectrum depends on the padding, it only suppresses the warning (C105_fft_returns states when the warning is printed). |
| C108 | A pure oscillation shows up at its frequency | partial | Oscillation () | `C108_line`, `C108_peak`, `C108_absent`, `C108_fourier_violated`, `C108_mem_even`, `C108_normal_modes`, `C108_other_modes` | Proved for the FFT methods (algorithms 2-5), any division into pieces, any position of the requested frequencies, from the trajectory to the spectrum. The direct Fourier method (algorithm 0) violates it: the spectrum of a constant velocity grows with the frequency (C108_fourier_violated). The maximum entropy spectrum is even in the frequency (C108_mem_even), so it cannot tell f from -f; its peak position is not proved. |
| C109 | Labels of the plots | proved | PlotLabels (PlotLabels) | `C109_plain`, `C109_gamma`, `C109_ticks`, `C109_missing`, `C109_element` | The texts and positions handed to matplotlib; what matplotlib draws is not modelled. |
| C110 | Plots and files of the projections | partial | Defined (); PlotLabels (PlotLabels); ProjectionText (ProjectionText); SpectrumPlots (SpectrumPlots) | `C110_curves_defined`, `C110_times_violated`, `C110_curves`, `C110_save_vc`, `C110_save_vq`, `C110_vq`, `C110_default`, `C110_trajectory`, `C110_empty_violated` | Violated for every number of steps from 2 on: the times are linspace(0, n dt, n), so every point but the first is drawn at a wrong time, the last one a whole step late (C110_times_violated). The selection, the values and the files are proved (C110_curves, C110_trajectory, C110_save_vc, C110_save_vq); an empty selection shows nothing in the plot of the trajectory and atom 0 in that of the velocity (C110_empty_violated). |
| C111 | Numbers written to a file are read back to the printed precision | proved | Text (Text); TextStable (); TextSyntax () | `C111_words`, `C111_nat`, `C111_fixed_eq`, `C111_fixed`, `C111_exp`, `C111_exp_stable`, `C111_fixed_stable`, `C111_int`, `C111_float` | Exact numbers instead of floats: the further rounding of a decimal text to the nearest float (relative 1e-16) is not modelled. |
| C112 | Spectra files are read back completely | partial | CurveFile (CurveFile) | `C112_read`, `C112_fine_violated`, `C112_first_row_violated`, `C112_short`, `C112_groups`, `C112_columns` | Holds with -bi for frequencies more than 1e-4 apart. Violated (proved): without -bi the first row is lost; frequencies finer than 5e-5 coincide in the file. Columns may be counted from the back (C112_columns). The text of the file is modelled character by character. |
| C113 | An input file is read completely | proved | InputText (InputText) | `C113_document`, `C113_text` | C113_document for any conversion of numbers, C113_text for the characters of the file with Python's split, strip, int and float. |
| C114 | The LAMMPS data file describes the crystal | proved | LammpsText (LammpsText) | `C114_file` | C114_file. Masses are assumed to depend on the element only (isotopes: see C56, violated); the cell is the one the structure reports (supercells: see C04/C57). Python's str of a charge is a parameter assumed to read back as the same number. Real arithmetic instead of floats. |
| C115 | Spectra do not depend on the scheduling of the threads | proved | Threads (Threads) | `C115_schedule`, `C115_race_free`, `C115_progress`, `C115_ends`, `C115_finishes`, `C115_fourier`, `C115_mem` | C115_schedule for any loop body, C115_mem and C115_fourier for the two routines, C115_race_free, C115_progress, C115_ends, C115_finishes. Sequentially consistent interleaving of loads and stores (what C promises without data races). |
| C116 | A saved projected velocity gives the spectra of the calculation that wrote it | proved | LoadVc (LoadVc) | `C116_results`, `C116_roundtrip`, `C116_last_steps` | C116_results (results of any loaded calculation), C116_roundtrip (save, load, any calls), C116_last_steps. Symmetry averaging is switched off for loaded files by the program, so the comparison is with a calculation without symmetry; changing the wave vector or asking for the full spectrum needs velocities and is excluded. Python ints for the steps option are naturals. |
| C117 | The C routines access only their own memory and give it back | partial | Heap (Heap); HeapMem (HeapMem) | `C117_displacements`, `C117_relative_violated`, `C117_correlation`, `C117_correlation_null`, `C117_mem` | C117_displacements, C117_correlation and C117_mem prove safety, values and the exact set of blocks left for all inputs (mem with one readable word behind its arrays, C30 shows it reads one beyond); the leaks violate the rest of the property (C117_relative_violated: growth with the number of atoms; C117_correlation_null: an invalid method keeps three arrays, the third the result itself). Loops over frequencies and frames run one after the other (C115 covers the threads). malloc never fails in the model; numpy references are blocks. Freed blocks are never reused, so an access after free is always an error of the model. |
| C118 | The tables printed on the screen show the values that are returned | partial | Reports (Reports) | `C118_positions`, `C118_adp_partial`, `C118_adp_order_violated`, `C118_thermal`, `C118_phonopy`, `C118_peaks`, `C118_lists` | C118_positions, C118_thermal, C118_phonopy, C118_peaks hold in full for real values (inf and nan not modelled; the titles with the resolution not modelled); C118_lists links the returned lists to C36. C118_adp_partial: the rows are a permutation of one row per atom, grouped by type; C118_adp_order_violated shows Na Cl Na printed as Na Na Cl. |
| C119 | Quasi-harmonic script: data given to PhonopyQHA and results at constant pressure | partial | DefinedQha (); QhaScript (QhaScript) | `C119_pressure_defined`, `C119_history`, `C119_values`, `C119_reference_violated`, `C119_script`, `C119_runs`, `C119_reload`, `C119_options_violated`, `C119_volume`, `C119_pressure` | C119_history, C119_values, C119_script, C119_runs, C119_reload, C119_volume and C119_pressure hold in full; C119_options_violated and C119_reference_violated refute the rest. phonopy, np.polyfit and interp1d are parameters; the yaml files do not change during a run; not modelled: PhonopyQHA itself, read_v_e, plots (their band labels are C109). |
| C120 | Interrupted, repeated and simultaneous runs | partial | FileRuns (FileRuns) | `C120_other_files`, `C120_any_moment`, `C120_history`, `C120_repeat`, `C120_simultaneous`, `C120_contents`, `C120_frequencies`, `C120_overwrite_violated`, `C120_fixed_names_violated` | Proved for all processes, crash points, histories and interleavings, with contents arbitrary while a file is open. The condition that results are not written over input files is needed (C120_overwrite_violated: -sfc FORCE_CONSTANTS), and the names of -sdata, -smesh and of the table of frequencies cannot be chosen, so that two runs in one directory replace each other's results (C120_fixed_names_violated). Not modelled: --run_lammps, --interactive, the temporary files of --memmap (C21), two processes writing the same file at the same time. |
| C121 | The FFT algorithms agree | partial | FFTBackends (FFTBackends) | `C121_column`, `C121_same`, `C121_shape`, `C121_ends`, `C121_warning`, `C121_warning_violated` | Agreement, shape and termination proved for all four routines in exact arithmetic. The warning is proved for Numpy and CuPy; with FFTW and CUDA it is never printed (C121_warning_violated). |
| C122 | One system of units | partial | Units (Spectra, Thermal, TestTrajectory) | `C122_bose`, `C122_gas`, `C122_energy_violated`, `C122_fft_violated`, `C122_classical`, `C122_temperature_violated` | The constants of peaks, thermal properties, velocities and test trajectories agree to 1e-6 and the temperature of a peak tends to the classical one (C122_bose, C122_gas, C122_classical). unit_conversion of the spectra is 2.13 % too large: all areas are too large by that (C122_energy_violated, C122_fft_violated) and the temperatures of the peaks are above those of the velocities (C122_temperature_violated). |
| C123 | The drawing of a phonon mode shows the cell and the atoms | partial | ModeDrawing (ModeDrawing) | `C123_frame`, `C123_colours`, `C123_radii`, `C123_heavy_violated`, `C123_invisible_violated`, `C123_many_violated`, `C123_types_violated` | Frame, positions, sizes, colours and legend by elements proved for at most 37 elements with a radius (at most 7 for distinct colours); the other cases are violated (theorems with suffix _violated). matplotlib itself is not modelled: the model is the list of calls. |
| C124 | The harmonic test trajectory is a motion of the crystal | partial | TestCrystal (TestTrajectory); TestVelocity () | `C124_frames`, `C124_motion`, `C124_energy`, `C124_projection`, `C124_reported`, `C124_energy_violated`, `C124_double`, `C124_double_violated`, `C124_velocity` | Frames, Newton's equation, conservation of energy, energy for each phonon and the projection onto phonons are proved in full for stable phonons above the minimum frequency; C124_velocity does the same for the velocities that the program calculates from the frames (interior frames; reduced by sin(2 pi f dt)/(2 pi f dt)). The reported energy is d/2 times too small (C124_reported, C124_energy_violated); the number of frames in double precision may be one too large (C124_double, C124_double_violated). phonopy (frequencies, eigenvectors, commensurate points) is an argument of the model. |
| C125 | Frequencies and linewidths on a mesh belong to the same phonon | partial | MeshData (MeshData) | `C125_rows`, `C125_pairs_partial`, `C125_plot`, `C125_pairs_violated` | Rows, values at commensurate points and points drawn proved; the pairing is proved to be right exactly if the orders agree (C125_pairs_partial, an equivalence) and fails otherwise (C125_pairs_violated). phonopy's interpolation and mesh are arguments of the model; that eigenvalues are given in ascending order (numpy.linalg.eigh) is part of the model. |
| C126 | Integrals over the frequencies | partial | Simpson (Simpson) | `C126_weights`, `C126_nonneg`, `C126_weights_nonneg`, `C126_parabola`, `C126_line`, `C126_parabola_violated`, `C126_thermal` | Proved for both versions of the rule; the difference between the versions is C126_parabola_violated. SciPy's formulas are modelled (they are not in the repository). |
| C127 | Thermal properties from the power spectrum | partial | PowerDos (PowerDos) | `C127_integration`, `C127_scale`, `C127_normalized`, `C127_dulong_petit`, `C127_integration_violated`, `C127_bose` | Integral, scaling, normalisation, bounds and statistics proved (C127_integration, C127_scale, C127_normalized, C127_dulong_petit, C127_bose); the value in equipartition is violated by the unit of the spectra (C127_integration_violated). |
| C128 | Curves and names in the plots of the spectra | proved | Defined (); SpectrumPlots (SpectrumPlots) | `C128_full_defined`, `C128_full`, `C128_phonon` | matplotlib is not modelled: a plot is the list of its curves with their names; the densities of states of phonopy are a parameter. |
| C129 | Averages over equivalent wave vectors | partial | Star (DoubleTests) | `C129_star`, `C129_average`, `C129_choice`, `C129_negative_violated`, `C129_missing_violated`, `C129_double_violated`, `C129_double` | violated: if the chosen wave vector has a negative coordinate, it is not in the lists of its equivalents, and equivalent wave vectors with a negative coordinate are always left out; in double precision a coordinate that is exactly 0 may come out as -2.8e-17, and the wave vector is left out. The numerical routines are parameters; spglib's operations are assumed to be a group. |
| C130 | Plots of the quasi-harmonic script | partial | DefinedQha (); QhaPlots (QhaPlots) | `C130_total_defined`, `C130_temperature_defined`, `C130_temperature`, `C130_volume`, `C130_files`, `C130_drawn`, `C130_total`, `C130_title_violated`, `C130_order_violated` | violated: the row of a wave vector is looked up in the first temperature file only, so that files in another order are mixed; the title of the plot of the total shift says relative to the reference temperature, while the shifts are relative to the harmonic frequencies. matplotlib is not modelled: a plot is the list of its curves. |
| C131 | Linewidths and shifts along a band path belong to the phonon of the branch | partial | BandRun (BandRun); Defined () | `C131_modes_partial`, `C131_sorted_partial`, `C131_unconnected_violated`, `C131_figures`, `C131_areas`, `C131_legend`, `C131_drawn` | proved for connected bands whose eigenvectors keep more than half of their weight along the segment, and for different harmonic frequencies at the wave vector. Violated for bands in the order of the frequencies (the plot of the renormalized bands with linewidths): the limits are sorted separately; C131_sorted_partial says exactly when this does no harm. phonopy is a parameter: that it solves the dynamical matrices it is given, and gives back at a commensurate point the matrix that was put in there, are hypotheses. |
| C132 | Automatic band path | partial | SeekPath (SeekPath) | `C132_species`, `C132_path`, `C132_fallback`, `C132_primitive_partial`, `C132_primitive_violated` | Segments, labels, elements and the fallback are proved; the wave vectors are those meant by seekpath exactly when the primitive cells agree (C132_primitive_partial), and not for an fcc crystal given by its cubic cell (C132_primitive_violated). seekpath is a parameter of the model. |
| C133 | Progress bars | proved | ProgressBar (ProgressBar) | `C133_screen`, `C133_spectra`, `C133_test`, `C133_double` | For every label, number of columns, total time and time step, on a terminal of unlimited width; in double precision: Done... exactly with the last column. The other bars are C134. |
| C134 | Progress of LAMMPS runs and of the scan of coefficients | partial | ProgressBar (ProgressBar) | `C134_lammps_partial`, `C134_scan_partial`, `C134_lammps_violated`, `C134_scan_violated` | One finished line for total times that are multiples of the sampling (C134_lammps_partial) and for scans without failures with steps of two or more (C134_scan_partial); violated otherwise, and the step shown by LAMMPS bars is always one ahead (C134_lammps_violated, C134_scan_violated). |
| C135 | The script rfc_calc | partial | RfcRun (RfcRun) | `C135_points`, `C135_saved_partial`, `C135_bands_violated`, `C135_dim_violated` | Holds for -cp, and for the force constants and the bands along the automatic path with the phonon supercell of the input file and a file of frequencies in the format the script expects (C95: not the one dynaphopy writes). Fails: with BANDS in the input file -p always ends with an exception (the dictionary of the input file is passed instead of its ranges); without -cp, --dim changes nothing. |
| C136 | Bands, densities of states and thermal properties of the quasi-harmonic script | partial | DefinedQha (); QhaBands (QhaBands) | `C136_density_defined`, `C136_thermal_defined`, `C136_pressure_defined`, `C136_state`, `C136_density`, `C136_thermal`, `C136_gradient_partial`, `C136_gradient_shown`, `C136_pressure_partial`, `C136_labels_violated`, `C136_external_violated` | Holds for bands, densities of states and thermal properties, and for the band plots of a path without labels (with external data for the plot at one temperature). Fails: with labels no band plot is shown (iteritems does not exist in Python 3), and plot_band_structure_constant_pressure fails with its default external_data=None. |
| C137 | Phonon spectra do not depend on axes, origin and numbering | partial | Chain (Chain); ChainOrigin (); Numbering () | `C137_axes`, `C137_origin`, `C137_mem_origin_violated`, `C137_numbering` | Axes and numbering: all algorithms. Origin: all algorithms but the maximum entropy method (the default), with which moving the origin changes the spectra (C137_mem_origin_violated). The numbering theorem takes atoms that are equivalent or not by more than the tolerance of get_atom_type_index. |
| C138 | Spectra at equivalent and opposite wave vectors | partial | ChainWave () | `C138_reciprocal`, `C138_opposite_mem`, `C138_opposite_fft_violated` | Reciprocal lattice vectors: all algorithms. Opposite wave vectors: the maximum entropy method (the default); the fast Fourier transforms distinguish the two directions of a travelling wave (C138_opposite_fft_violated). phonopy's choice of phases of the eigenvectors is a hypothesis. |
| C139 | Test of the orthonormality of the eigenvectors | partial | Orthonormal (Orthonormal) | `C139_orthonormal`, `C139_components`, `C139_trace`, `C139_real`, `C139_scaled_violated`, `C139_phase_violated` | Orthonormal modes: proved. The normalization divides the coordinates and not the modes (C139_scaled_violated), and only the real part of the products is printed (C139_phase_violated); for real eigenvectors the printed test is exact (C139_real). |
| C140 | Average positions from random samples | partial | Sampling (Sampling) | `C140_all`, `C140_samples`, `C140_static`, `C140_unbiased`, `C140_exhaustive_violated` | All but the last: frames are drawn with repetition, so asking for all frames does not give the average over the trajectory (C140_exhaustive_violated). np.random.random_integers, which recent versions of numpy do not have, is taken as an arbitrary sequence of numbers from 1 to the number of frames. |
| C141 | Frequencies of the highest peaks | partial | Sampling (Sampling) | `C141_highest`, `C141_none_violated` | C141_highest for spectra with a peak in every branch; one branch without peaks stops the calculation for all (C141_none_violated). find_peaks_cwt of SciPy is an argument. |
| C142 | Versions of the libraries | partial | Versions (Versions) | `C142_link_partial`, `C142_units_violated`, `C142_simps` | C142_link_partial: only with the new module of units; C142_units_violated: the import of the factor from phonopy.units is misspelled (VaspToTHza), so that versions which have it there cannot be used. |
| C143 | Full and wave-vector spectra do not depend on periodic images, origin and axes | partial | ChainAxes (); ChainFull (ChainFull); ChainNumbering () | `C143_fft_axes_violated`, `C143_images`, `C143_origin_full`, `C143_axes_fourier`, `C143_origin_wave`, `C143_numbering_full` | Images: all algorithms (no half-integer fractional distance from the place in the crystal). Origin: all algorithms for the full spectrum (C143_origin_full), all but the maximum entropy method for the wave vector (for which C137_mem_origin_violated shows the dependence for the modes). Axes: C143_axes_fourier for the direct Fourier transform; with the fast Fourier transforms turning the crystal changes the full spectrum (C143_fft_axes_violated). Numbering: C143_numbering_full, all algorithms. |
| C144 | Masses, structure or times changed after a calculation | partial | Masses (Masses); Setters () | `C144_late_masses`, `C144_after_crop`, `C144_velocity_violated`, `C144_structure_violated`, `C144_masses`, `C144_types_refreshed`, `C144_types_stale_violated`, `C144_types_example_violated`, `C144_set_time`, `C144_set_time_violated` | Proved: C144_masses, C144_late_masses (every history without the mass weighted velocities), C144_after_crop, C144_types_refreshed, C144_set_time. Refuted for all objects: C144_velocity_violated, C144_structure_violated, C144_set_time_violated, C144_types_stale_violated (with a concrete crystal in C144_types_example_violated): cached values are not refreshed. |
| C145 | Full spectrum of one coordinate | partial | Coordinate () | `C145_coordinate`, `C145_negative`, `C145_complete`, `C145_ignored_violated` | All but the last clause: without an atom type the coordinate is ignored, for all inputs (C145_ignored_violated). C33_coordinate_violated: on an object that has a spectrum already the argument is ignored. |
| C146 | Saved projections can be read back | proved | ProjectionText (ProjectionText) | `C146_save_vc`, `C146_save_vq` | Characters of the files, including the replacement of +- done by np.savetxt. complex() is specified for words a+bj. inf and nan not modelled. plot_vq: C110_vq, C110_default. |
| C147 | fitdata on files it has saved | partial | FitdataRun (FitdataRun) | `C147_saved`, `C147_smoothed`, `C147_repeat`, `C147_again_violated` | With -bi in full (frequencies not negative for the exact repetition: Python prints a negative zero). Without -bi every further run loses one more row, for all files (C147_again_violated). |
| C148 | The XSF file is the crystal | proved | XsfText (XsfText) | `C148_file` |  |
| C149 | The area of the maximum entropy spectrum is the kinetic energy | proved | MemArea (ChainFull) | `C149_area`, `C149_kinetic` | The memory that the C routine reads past its arrays is taken to be zero (CleanMemory), as in C30; that the first row is not used is the defect of C30. |
| C150 | Areas of the maximum entropy spectra: temperature and modes | proved | MemTemperature () | `C150_areas`, `C150_modes`, `C150_temperature` | The temperature is that of the best fit of a Maxwell distribution (C86); memory read past the arrays is zero (CleanMemory, see C30); in eV the area is 2.1 % too large (C122). |
| C151 | The direction of time | partial | TimeReversal () | `C151_backwards`, `C151_trajectory`, `C151_phonons`, `C151_mem_violated`, `C151_fourier_violated`, `C151_windows_violated` | C151_backwards, C151_trajectory and C151_phonons hold for the FFT algorithms with symmetric windows; C151_mem_violated and C151_fourier_violated are counterexamples for the other two methods, C151_windows_violated one for the FFT with windows whose distance is not a whole number (their borders are cut towards zero, so the windows of the reversed data are other ones). |
<!-- end table -->

## 6. Tests of the theorems against wrong programs

`seeded/run.py` copies the project to a scratch directory, applies one edit of a model definition, rebuilds and records which theorems fail. Each line of `seeded/LOG.jsonl` is
one such edit. Edits under which everything still builds were examined: the ones that are equivalent programs are marked so, for the others a theorem was added or
tightened (field `tightened`) and the edit was run again.
