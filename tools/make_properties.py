#!/usr/bin/env python3
"""Writes /verif/properties.jsonl (the table below is the source of truth)."""
import json, os
P = []
def p(id, title, statement, quantifier, why, anchors):
    P.append(dict(id=id, title=title, statement=statement, quantifier=quantifier,
                  why_tests_cant=why, anchors=anchors))

A="dynaphopy/atoms.py"; D="dynaphopy/dynamics.py"; PR="dynaphopy/projection.py"; PS="dynaphopy/power_spectrum/__init__.py"
Q="dynaphopy/__init__.py"; IO="dynaphopy/interface/iofile/__init__.py"; TP="dynaphopy/interface/iofile/trajectory_parsers.py"
PL="dynaphopy/interface/phonopy_link.py"; GC="dynaphopy/generate_cell.py"; TH="dynaphopy/analysis/thermal_properties.py"
FT="dynaphopy/analysis/fitting/__init__.py"; FF="dynaphopy/analysis/fitting/fitting_functions.py"; PA="dynaphopy/parameters.py"
CO="dynaphopy/analysis/coordinates.py"; DC="c/displacements.c"; CC="c/correlation.c"; MC="c/mem.c"
LL="dynaphopy/interface/lammps_link.py"

# ---------------------------------------------------------------- Structure
p("C01","Supercell positions: count and order",
  "Structure.get_positions(supercell) returns exactly (number of unit-cell atoms) x (product of the supercell multiplicities) rows; atom blocks come in unit-cell order, and inside the block of atom k the row with index x1 + s1*x2 + s1*s2*x3 + ... is the unit-cell position of k translated by x1*a1 + x2*a2 + x3*a3.",
  "every unit cell (any number of atoms and dimensions), every list of supercell multiplicities, every atom and every translation",
  "the order is a mixed-radix enumeration; a test checks a few sizes, every downstream routine indexes with it for all sizes",
  [A+":Structure.get_positions"])
p("C02","Per-atom data aligned with supercell positions",
  "get_masses, get_charges, get_atomic_elements, get_atomic_numbers and get_atom_type_index with a supercell return lists as long as get_positions(supercell), and entry number i describes the same unit-cell atom as row i of get_positions(supercell).",
  "every structure, every supercell, every row index",
  "alignment of six independently written loops must hold for all sizes",
  [A+":Structure.get_masses",A+":Structure.get_charges",A+":Structure.get_atomic_elements",A+":Structure.get_atomic_numbers",A+":Structure.get_atom_type_index"])
p("C03","dynaphopy_order inverts the supercell order",
  "dynaphopy_order(i, size) returns [x, y, z, k] such that row i of get_positions(size) is atom k translated by (x, y, z), with 0<=x<size[0], 0<=y<size[1], 0<=z<size[2]; distinct rows give distinct results.",
  "every positive supercell size and every row index",
  "inverse of a mixed-radix enumeration over unbounded sizes",
  [IO+":dynaphopy_order",A+":Structure.get_positions"])
p("C04","Supercell lattice vectors",
  "get_cell(supercell) returns the matrix whose i-th row (lattice vector) is supercell[i] times the i-th lattice vector of the unit cell.",
  "every cell matrix and every supercell",
  "tests use cubic cells, where scaling rows and scaling columns coincide",
  [A+":Structure.get_cell",GC+":generate_VASP_structure"])
p("C05","Cartesian / fractional round trip",
  "For an invertible cell, cartesian positions recomputed from get_scaled_positions() times the cell equal the original positions, and scaled positions recomputed from get_positions() equal the original scaled positions.",
  "every invertible cell and every list of positions",
  "identity over all real matrices",
  [A+":Structure.get_positions",A+":Structure.get_scaled_positions",A+":Structure.set_positions"])
p("C06","Atom types: labels and equivalence",
  "get_atom_type_index() assigns labels forming exactly {0..T-1} with T = get_number_of_atom_types() = get_number_of_primitive_atoms(); labels first occur in increasing order; when lattice equivalence (same position modulo the primitive lattice within tolerance, and same mass) is an equivalence relation on the atoms, two atoms get the same label iff they are equivalent.",
  "every unit cell, primitive matrix and mass list",
  "the labelling loop mutates labels in a triangular double loop; correctness is for all numbers of atoms",
  [A+":Structure.get_atom_type_index",A+":Structure.get_number_of_atom_types",A+":Structure.get_number_of_primitive_atoms"])
p("C07","Atom types do not depend on the call history",
  "The labels returned by get_atom_type_index do not depend on whether the first call on the object was made with or without a supercell argument.",
  "every structure, every supercell, every order of calls",
  "depends on the order of API calls on a caching object",
  [A+":Structure.get_atom_type_index"])
p("C08","Setters are visible through getters (Structure)",
  "After set_primitive_matrix the primitive cell, the atom types and the number of primitive atoms are those of the new matrix; after set_positions(p), get_positions() returns p; after set_cell the cached positions and scaled positions are consistent with the new cell.",
  "every history of setter and getter calls on a Structure",
  "stale caches only appear for particular call orders",
  [A+":Structure.set_primitive_matrix",A+":Structure.set_positions",A+":Structure.set_cell"])
p("C09","Element, atomic number and mass inference",
  "Building a Structure from element symbols gives, for every atom, the atomic number and the tabulated mass of that symbol; building it from tabulated (non-zero) masses recovers exactly one element per atom, the right one.",
  "every list of element symbols of the table, in any order and length",
  "unbounded lists over the full periodic table",
  [A+":Structure.__init__",A+":atom_data",A+":symbol_map"])
# ---------------------------------------------------------------- displacements
p("C10","Minimum-image displacement",
  "atomic_displacements(trajectory, position, cell) returns for every time step r - r0 - L where L is an integer combination of the cell vectors, and the fractional coordinates of the result all lie in [-1/2, 1/2]; its imaginary part is zero.",
  "every invertible cell of dimension >= 2, every trajectory and reference position",
  "must hold for all real cells, including skewed ones, and uses a hand-written C matrix inverse",
  [DC+":atomic_displacements",D+":Dynamics.get_relative_trajectory"])
p("C11","Hand-written determinant and inverse",
  "The C determinant is the mathematical determinant for every n >= 1 and matrix_inverse(a) is the two-sided inverse of a whenever det(a) != 0.",
  "all square matrices of every size",
  "recursion over matrix size; all matrices",
  [DC+":Determinant",DC+":CoFactor",DC+":matrix_inverse",DC+":matrix_multiplication"])
p("C12","Displacements do not depend on periodic images",
  "Adding any integer combination of the supercell vectors to any frame of the trajectory does not change the displacement of that frame (ties at exactly half a cell excepted).",
  "every trajectory, cell, frame and integer translation",
  "all integer translations and all cells",
  [DC+":atomic_displacements"])
# ---------------------------------------------------------------- Dynamics
p("C13","Cropping keeps exactly the last steps of every series",
  "Dynamics.crop_trajectory(n) with n > 0 leaves trajectory, velocity, energy and time equal to the last min(n, length) entries of what they were; n None or <= 0 changes nothing; cropping twice with n and m equals cropping once with min(n, m).",
  "every stored combination of series, every length, every n, every sequence of crops",
  "all lengths and all sequences of crops",
  [D+":Dynamics.crop_trajectory"])
p("C14","Cropping is visible in every derived quantity",
  "After crop_trajectory, relative trajectory, velocity, mass weighted velocity, time step average and mean displacement matrix are those of the cropped data, and the call succeeds whatever series were given, with or without memory mapping.",
  "every history of getter calls before the crop",
  "stale caches appear only for particular histories",
  [D+":Dynamics.crop_trajectory",D+":Dynamics.get_mean_displacement_matrix"])
p("C15","Supercell matrix recovered from the MD cell",
  "If the MD cell is diag(n1,n2,n3) times the unit cell (up to a rotation), get_supercell_matrix returns [n1,n2,n3]; if some ratio of cell lengths is not within tolerance of an integer the program stops with a message instead of returning a matrix.",
  "every unit cell with non-zero vectors, every triple of multiplicities, every MD cell",
  "all real cells; the mismatch test must catch every mismatch",
  [D+":Dynamics.get_supercell_matrix"])
p("C16","Average time step",
  "get_time_step_average returns (t_last - t_first)/(n-1) rounded to 8 decimals for every time array with at least two entries; for a uniform grid whose step is a multiple of 1e-8 it is the step itself, also in double precision (the double closest to it) for times up to 10^6 ps, and it stays the same when asked again.",
  "every time array of every length",
  "telescoping sum over any length",
  [D+":Dynamics.get_time_step_average"])
p("C17","Velocity from coordinates",
  "When no velocity is given it is computed by finite differences of the displacements: uniform motion at velocity v gives exactly v at every step (first and last included), a static atom gives 0, for smooth motion the error is bounded by the third derivative times the squared time step over 6 (second derivative times the time step over 2 at the ends), and the result does not depend on periodic wrapping of the trajectory.",
  "every trajectory length >= 2, every velocity or smooth path, every wrapping",
  "all lengths and wrappings",
  [D+":Dynamics.velocity"])
p("C18","Mass weighting",
  "get_velocity_mass_average multiplies the velocity of atom i by the square root of the mass of atom i, so that the squared norm of the result is twice the kinetic energy of every frame.",
  "every frame, every structure and supercell",
  "sum over arbitrarily many atoms",
  [D+":Dynamics.get_velocity_mass_average"])
p("C19","Average positions",
  "average_positions() equals reference position plus mean displacement up to a lattice vector, and lies inside the supercell (fractional coordinates in [0,1]); with to_unit_cell=True the mean is taken over all atoms equivalent to the unit-cell atom.",
  "every trajectory, structure and supercell",
  "all sizes; normalisation over equivalent atoms",
  [D+":Dynamics.average_positions"])
p("C20","Mean displacement matrix",
  "get_mean_displacement_matrix returns for each atom type the average of d^T d over equivalent atoms and steps, a symmetric positive semidefinite matrix; with use_average_positions=True it is the covariance around the average position; the argument of the current call decides which of the two is returned.",
  "every trajectory, every type, every history of calls",
  "positivity over all data; depends on call history through a cache",
  [D+":Dynamics.get_mean_displacement_matrix"])
p("C21","Memory-mapped objects do not interfere",
  "Two Dynamics objects created in the same process with memmap=True keep their own relative trajectory, velocity and mass weighted velocity: computing one does not change what the other returns; deleting an object removes its temporary files and no others.",
  "every interleaving of operations on several objects",
  "interleavings of several live objects over shared files",
  [D+":Dynamics.get_relative_trajectory",D+":Dynamics.velocity",D+":Dynamics.__del__"])
# ---------------------------------------------------------------- projection
p("C22","Two implementations of the phonon projection agree",
  "project_onto_phonon and project_onto_phonon2 return the same array.",
  "all velocities and eigenvectors of every shape",
  "all shapes and all complex data",
  [PR+":project_onto_phonon",PR+":project_onto_phonon2"])
p("C23","Phonon projection conserves power",
  "If the eigenvectors are orthonormal and complete, at every time step the sum over modes of |vq|^2 equals the sum over atoms and directions of |vc|^2.",
  "every set of orthonormal eigenvectors, every velocity, every step",
  "Parseval identity for all dimensions",
  [PR+":project_onto_phonon"])
p("C24","Wave-vector projection conserves power",
  "Summed over all wave vectors commensurate with the MD supercell, |vc|^2 equals the total squared mass weighted velocity; shifting the origin does not change |vc|^2; the projection is linear in the velocity.",
  "every supercell size, structure and velocity",
  "discrete Fourier orthogonality for all sizes",
  [PR+":project_onto_wave_vector"])
p("C25","Atom-projected wave-vector projections add up",
  "Projecting with project_on_atom = t leaves only type t non-zero, equal to the unrestricted projection, and the sum over all t of the restricted projections is the unrestricted one.",
  "every structure, type and velocity",
  "arbitrary number of atoms and types",
  [PR+":project_onto_wave_vector"])
p("C26","Commensurate wave vectors",
  "check_commensurate(q) accepts every q whose phase factor is 1 on all MD supercell translations; if q passes with exact integer coordinates its phase factor is 1 on all supercell translations; adding a reciprocal lattice vector of the primitive cell does not change the answer. Rounding errors do not matter: in double precision every commensurate vector of ordinary size is accepted, and only vectors within 5.02e-5 of a commensurate one.",
  "every primitive matrix, supercell and wave vector",
  "all reals; modular arithmetic",
  [Q+":Quasiparticle.check_commensurate",Q+":Quasiparticle.get_q_vector"])
# ---------------------------------------------------------------- power spectra
p("C27","Division of the data into pieces",
  "_division_of_data returns pieces that all have the same length, stay inside [0, number_of_data], start at 0, end at number_of_data and leave no sample out.",
  "every resolution, data length and time step for which a piece has at least one sample",
  "all lengths; rounding at every boundary",
  [PS+":_division_of_data"])
p("C28","Direct Fourier power spectrum",
  "correlation_par returns, for every frequency, time_step/(N/step) times the real part of the sum over lags and origins of conj(v[j]) v[j+i] exp(i w t_i); it reads only inside the velocity array and returns for every positive step.",
  "all velocities, frequencies, steps and lengths",
  "all data; termination and memory bounds for all sizes",
  [CC+":EvaluateCorrelation",CC+":correlation_par"])
p("C29","Maximum entropy spectrum is non-negative and finite",
  "mem.mem returns a finite non-negative power for every frequency: the reflection coefficients are at most 1 in absolute value, the mean square discrepancy is non-negative and non-increasing with the order, and the denominator never vanishes when it is used.",
  "all data, all numbers of coefficients, all frequencies",
  "stability of a recursion of any order",
  [MC+":GetCoefficients",MC+":FrequencyEvaluation",MC+":MaximumEntropyMethod"])
p("C30","Maximum entropy method uses exactly the given data",
  "mem.mem only reads inside its input and work arrays, and its result is a function of the whole velocity series it was given.",
  "all lengths and numbers of coefficients admitted by get_mem_power_spectra",
  "out-of-bounds reads do not fail a test; all sizes",
  [MC+":GetCoefficients",PS+":get_mem_power_spectra"])
p("C31","FFT spectra",
  "The FFT power spectra are non-negative, scale with the square of the velocity, do not change when the velocity is multiplied by a phase, and interpolate between computed frequencies without overshooting.",
  "all data, lengths, resolutions",
  "all lengths and data",
  [PS+":_numpy_power",PS+":_fftw_power",PS+":_cuda_power",PS+":_cupy_power"])
p("C32","Full spectrum: silent mode and partials agree",
  "get_power_spectrum_full returns the same curve in silent and non-silent mode, equal to the sum over atoms and directions of the single-column spectra, and to the sum over atoms of get_power_spectrum_partials.",
  "every number of atoms, every algorithm working column by column",
  "two separately written accumulation loops for all sizes",
  [Q+":Quasiparticle.get_power_spectrum_full",Q+":Quasiparticle.get_power_spectrum_partials"])
# ---------------------------------------------------------------- Quasiparticle
p("C33","Results always reflect the current settings",
  "Whatever sequence of setters (wave vector, algorithm, MEM coefficients, frequency limits, resolution, fitting function, band ranges, NAC, atom projection) and getters was called before, each getter returns what a fresh object with the current settings would return.",
  "every history of setter and getter calls",
  "unbounded histories over nine mutually dependent caches",
  [Q+":Quasiparticle.set_reduced_q_vector",Q+":Quasiparticle.full_clear",Q+":Quasiparticle.power_spectra_clear",Q+":Quasiparticle.force_constants_clear",Q+":Quasiparticle.bands_clear",Q+":Quasiparticle.set_projection_onto_atom_type"])
p("C34","Getters do not change the settings",
  "Computing power spectra (with crystal symmetry) or the commensurate-point data leaves the wave vector the user selected, and the spectra getters leave all settings, unchanged.",
  "every state and every set of equivalent points",
  "the wave vector is changed and restored inside loops of any length",
  [Q+":Quasiparticle.get_power_spectrum_phonon",Q+":Quasiparticle.get_power_spectrum_wave_vector",Q+":Quasiparticle.get_commensurate_points_data"])
p("C35","Settings of two calculations are independent",
  "A new Quasiparticle starts from the default settings, and changing a setting of one object does not change the settings of another.",
  "every interleaving of operations on several objects",
  "depends on several live objects",
  [PA+":Singleton",PA+":Parameters",Q+":Quasiparticle.__init__"])
p("C36","Commensurate-point data",
  "get_commensurate_points_data returns one entry per commensurate point, in order; entry i is the fit at point i or a copy of the entry of an earlier symmetry-equivalent point; at the Gamma point the three acoustic frequencies and linewidths are 0.",
  "every list of commensurate points and every symmetry relation",
  "loop with skips over lists of any length",
  [Q+":Quasiparticle.get_commensurate_points_data",Q+":_vector_in_list"])
p("C37","Degenerate sets",
  "degenerate_sets(freqs) covers all branches; for the sorted frequencies returned by phonopy the sets are disjoint, and two branches are in the same set iff they are linked by a chain of gaps below the cutoff.",
  "every frequency list and cutoff",
  "all lengths and all gap patterns",
  [FT+":degenerate_sets"])
p("C38","Degeneracy averaging",
  "average_phonon gives all members of a degenerate set the same curve, leaves non-degenerate branches unchanged and conserves the sum of the curves over all branches.",
  "every spectrum and every partition into degenerate sets",
  "all partitions",
  [FT+":average_phonon",FT+":phonon_fitting_analysis"])
p("C39","Frequency range",
  "set_frequency_limits([a,b]) makes get_frequency_range() an evenly spaced grid with the current resolution that starts at a and covers b with an excess below one step; set_spectra_resolution keeps the start, never loses the upper limit, and repeating it changes nothing.",
  "all limits and resolutions, every sequence of calls",
  "all reals; repeated application",
  [Q+":Quasiparticle.set_frequency_limits",Q+":Quasiparticle.set_spectra_resolution",Q+":Quasiparticle._set_frequency_range"])
# ---------------------------------------------------------------- thermal
p("C40","Thermodynamic identity",
  "get_total_energy = get_free_energy + T * get_entropy for the same density of states.",
  "every temperature > 0, every positive frequency grid, every density of states",
  "identity between transcendental functions over all reals",
  [TH+":get_total_energy",TH+":get_free_energy",TH+":get_entropy"])
p("C41","Heat capacity and entropy are the temperature derivatives",
  "get_cv is the derivative of get_total_energy with respect to temperature and get_entropy is minus the derivative of get_free_energy (mode by mode).",
  "every temperature > 0 and frequency > 0",
  "derivative identities over all reals",
  [TH+":get_cv",TH+":get_entropy",TH+":get_free_energy",TH+":get_total_energy"])
p("C42","Heat capacity and entropy bounds",
  "For a non-negative density of states every mode contributes between 0 and k_B to get_cv and a non-negative amount to get_entropy; the two entropy formulas get_entropy and get_entropy2 agree.",
  "every temperature > 0 and frequency > 0",
  "inequalities over all reals",
  [TH+":get_cv",TH+":get_entropy",TH+":get_entropy2"])
p("C43","Free energy correction",
  "get_free_energy_correction_dos is zero when both densities of states coincide, changes sign when they are exchanged and is additive.",
  "all densities of states",
  "all inputs",
  [TH+":get_free_energy_correction_dos"])
# ---------------------------------------------------------------- fitting
p("C44","Lorentzian fit parameters mean what is reported",
  "For the fitted Lorentzian the reported position is the maximum, the reported width is the full width at half maximum above the base line, the reported maximum is the height above the base line, and the reported area is the integral of the peak over all frequencies.",
  "all fit parameters with positive half width and area",
  "all real parameters; an improper integral",
  [FF+":Lorentzian._function",FF+":Lorentzian.get_fitting"])
p("C45","Asymmetric Lorentzian reduces to the Lorentzian",
  "With zero asymmetry Lorentzian_asymmetric and Lorentzian are the same function and report the same width at the peak; the asymmetric width is positive and bounded by twice the parameter.",
  "all parameters and frequencies",
  "all reals",
  [FF+":Lorentzian_asymmetric._function",FF+":Lorentzian_asymmetric._g_a"])
p("C46","Accepted fits have a sensible width",
  "Whenever a fit is reported as successful (all_good) the linewidth is non-negative; unsuccessful fits contribute position 0 and width 0 and the output lists have one entry per branch.",
  "every outcome of the optimiser",
  "depends on optimiser output, which tests cannot enumerate",
  [FF+":Lorentzian.get_fitting",FF+":Damped_harmonic.get_fitting",FT+":phonon_fitting_analysis"])
p("C47","Damped harmonic and Gaussian profiles",
  "Damped_harmonic is even in frequency with value area-parameter/(a^2 b^2) above the base line at the position, and its reported width tells exactly where the curve is above half of its peak; Gaussian_function integrates to its area parameter.",
  "all parameters",
  "all reals; an improper integral",
  [FF+":Damped_harmonic._function",FF+":Gaussian_function._function"])
# ---------------------------------------------------------------- parsers
p("C48","LAMMPS reading window",
  "read_lammps_trajectory with initial_cut=a, end_cut=b returns exactly frames a..min(b, last) of the file in order, with their own time stamps times the time step, and the same number of time stamps as frames.",
  "every file, every window",
  "all windows and file lengths; skip/continue logic",
  [TP+":read_lammps_trajectory"])
p("C49","XDATCAR reading window",
  "read_VASP_XDATCAR with initial_cut=a, end_cut=b returns exactly frames a..min(b, last) with matching time stamps, with or without memory mapping.",
  "every file, every window, memmap on and off",
  "all windows and file lengths",
  [TP+":read_VASP_XDATCAR"])
p("C50","OUTCAR reading window",
  "read_vasp_trajectory with initial_cut=a, end_cut=b returns exactly frames a..min(b, last) with their energies, the lattice vectors, and the times 0, dt, 2 dt, ... with the time step dt (POTIM) of the file.",
  "every file, every window",
  "all windows and file lengths",
  [TP+":read_vasp_trajectory"])
p("C51","Reading limit",
  "The trajectory parsers never keep more than limit_number_steps frames in memory.",
  "every file, window and limit",
  "boundary off by one over all values",
  [TP+":read_lammps_trajectory",TP+":read_VASP_XDATCAR",TP+":read_vasp_trajectory"])
p("C52","HDF5 round trip",
  "Loading a file written by save_velocity_hdf5 gives the same trajectory, velocity, time and supercell; with a reading window the trajectory, velocity and time are all cut to the window.",
  "all data and windows",
  "all lengths and windows",
  [IO+":save_data_hdf5",IO+":initialize_from_hdf5_file"])
p("C53","concath5 concatenates",
  "concath5 writes the concatenation of the velocity (and trajectory) of all input files, each without its first N steps, with a time array of the same length.",
  "every list of files and every N",
  "any number of files",
  ["scripts/concath5"])
p("C54","Automatic atom order is a permutation",
  "get_correct_arrangement returns a permutation of the atoms, and for a supercell whose atoms sit at their lattice positions in any order, applying np.argsort(template) to the frames yields the order of get_positions. Whatever the displacements are, each atom is assigned to the atom of the unit cell closest to it, periodic images included.",
  "every structure, supercell and permutation of the atoms",
  "all permutations and sizes",
  [IO+":get_correct_arrangement",IO+":check_atoms_order",TP+":read_lammps_trajectory"])
p("C55","POSCAR round trip",
  "Reading back the POSCAR generated for a structure and supercell gives the same elements in the same order, the same cell and the same positions.",
  "every structure and supercell",
  "all orders of elements",
  [GC+":generate_VASP_structure",IO+":read_from_file_structure_poscar"])
p("C56","LAMMPS data file: atom types and masses",
  "In the LAMMPS data file every atom line carries a type between 1 and the number of atom types, equal elements have equal types, different elements different types, and the mass listed for that type is the mass of the atom.",
  "every structure and supercell",
  "all orders of elements",
  [GC+":generate_LAMMPS_structure"])
p("C57","LAMMPS cell is the same crystal",
  "The lower triangular LAMMPS cell has the same lengths and angles (the same Gram matrix) as the supercell, the written box bounds and tilts describe that cell, and the rotated positions keep all mutual distances.",
  "every non-degenerate cell",
  "identity over all real cells",
  [GC+":generate_LAMMPS_structure"])
p("C58","LAMMPS box bounds",
  "The cell that read_lammps_trajectory derives from the BOX BOUNDS lines of a dump is the cell LAMMPS used (lx, ly, lz, xy, xz, yz), for orthogonal and triclinic boxes.",
  "all boxes and tilts of either sign",
  "sign cases of the tilts, all reals",
  [TP+":read_lammps_trajectory"])
p("C59","LAMMPS frame rotation",
  "If the LAMMPS cell is a rotated integer supercell of the structure cell, the parser rotates the cell and all coordinates back: the cell becomes diag(n) times the unit cell and every atom its position in the orientation of the structure.",
  "every cell, rotation and supercell",
  "all rotations",
  [TP+":read_lammps_trajectory"])
p("C60","Trajectory format detection",
  "get_trajectory_parser returns a parser only if all its keywords occur in the inspected part of the file, the first such parser in the table, and None iff no parser matches.",
  "all file contents",
  "all contents",
  [IO+":get_trajectory_parser"])
p("C61","Input file",
  "read_parameters_from_input_file ignores comment lines, keeps the last value given for a keyword, and defaults the structure file to POSCAR.",
  "all input files",
  "all sequences of lines",
  [IO+":read_parameters_from_input_file"])
p("C62","Parameter setters",
  "Assigning any property of Parameters makes the corresponding getter return the assigned value and changes no other property.",
  "every property, every value, every history",
  "every property and history",
  [PA+":Parameters"])
p("C63","XSF writer",
  "write_xsf_file terminates and writes exactly one atom per atom type, in type order.",
  "every structure",
  "while loop that only ends if all labels occur",
  [IO+":write_xsf_file"])
p("C64","Eigenvector arrangement round trip",
  "Rearranging phonopy eigenvectors by atoms and directions and flattening them again in get_renormalized_force_constants returns the original eigenvector matrix; mode i keeps its components.",
  "all sizes",
  "index arithmetic for all sizes",
  [PL+":obtain_eigenvectors_and_frequencies",PL+":get_renormalized_force_constants"])
p("C65","Equivalent q-points",
  "get_equivalent_q_points_by_symmetry contains the point itself, contains no duplicates, and every returned point is an image of the point under an operation of the crystal; Gamma is only equivalent to itself.",
  "all operations and points",
  "all groups and points",
  [PL+":get_equivalent_q_points_by_symmetry"])
p("C66","Band paths",
  "Each band segment is sampled with band_resolution+1 evenly spaced points from its start to its end; with double-precision floats every point is within 1e-15 of that for coordinates between -1 and 1 (the last one may miss the end by the last bits).",
  "all segments and resolutions",
  "all reals and resolutions",
  [PL+":obtain_phonon_dispersion_bands"])
p("C67","Anisotropic displacement parameters",
  "The crystallographic tensor is the displacement covariance in fractional coordinates, is symmetric positive semidefinite, and for an orthogonal cell the 'uvrs' tensor equals the cartesian one.",
  "all cells and displacement data",
  "all reals",
  [Q+":Quasiparticle.get_anisotropic_displacement_parameters"])
p("C68","Band reordering is a permutation",
  "Reordering the renormalized bands by eigenvector overlap is a permutation of the branches: no branch is duplicated or lost.",
  "all eigenvectors",
  "all unitary matrices",
  [Q+":Quasiparticle.get_renormalized_phonon_dispersion_bands"])
p("C69","fitdata uses all rows",
  "fitdata analyses every row of the input file, and averages the columns of each requested group.",
  "all input files and groups",
  "all files",
  ["scripts/fitdata"])
p("C70","Harmonic test trajectory phase",
  "generate_test_trajectory with phase_0 gives all phonons that phase and keeps their amplitude.",
  "all phases",
  "all reals",
  [IO+":generate_test_trajectory"])
p("C71","Displacement distributions",
  "trajectory_projection collects for each atom type exactly the displacements of the atoms of that type along the normalised direction, (number of atoms of the type) x (number of steps) values, unchanged by rescaling the direction.",
  "all trajectories, directions and types",
  "all sizes",
  [CO+":trajectory_projection",Q+":Quasiparticle.get_atomic_displacements"])
p("C72","Python and C displacement routines agree",
  "relativize_trajectory_py gives the same displacements as the C routine.",
  "all cells and trajectories",
  "all cells; tests use orthogonal cells",
  [CO+":relativize_trajectory_py",DC+":atomic_displacements"])
p("C73","Changing the trajectory or the quasi-harmonic force constants refreshes the results",
  "After crop_trajectory or set_qha_force_constants on a Quasiparticle, the getters return what a new object would return for the cropped trajectory / the new force constants.",
  "every state of the object and every change of the data",
  "unbounded histories",
  [Q+":Quasiparticle.crop_trajectory",Q+":Quasiparticle.set_qha_force_constants"])

p("C74","Occupation number and temperature of a fitted peak",
  "The occupation number and the fit temperature reported for a fitted phonon peak obey the Bose-Einstein relation n = 1/(exp(h*frequency/kT)-1) and reproduce the mode energy.",
  "all positions and areas of the fitted peak",
  "all reals",
  ["dynaphopy/analysis/fitting/__init__.py:phonon_fitting_analysis"])
p("C75","Thermal properties of a quasiparticle",
  "get_thermal_properties returns quantities with U = F + T S (free energy, internal energy, entropy) on the corrected spectrum, a density of states normalised to the number of modes, and harmonic values when the renormalised force constants equal the harmonic ones.",
  "all spectra, temperatures and force constants",
  "all reals",
  [Q+":Quasiparticle.get_thermal_properties"])

p("C76","LAMMPS columns",
  "read_lammps_trajectory takes the coordinates (velocities) from the columns of the dump that the header calls x, y, z (vx, vy, vz).",
  "all headers",
  "all column layouts",
  [TP+":read_lammps_trajectory"])
p("C77","XDATCAR scale factor",
  "The supercell read from an XDATCAR file is its lattice vectors times its scale factor, as for POSCAR files.",
  "all files",
  "all headers",
  [TP+":read_VASP_XDATCAR"])

p("C78","POSCAR reader",
  "Reading a POSCAR file, of the old or the new style, gives the cell (scale factor times the vectors), one atom per coordinate line with the element names repeated as counted, and the positions written: direct coordinates as they are, Cartesian ones times the scale factor (VASP's definition).",
  "all well-formed files",
  "all sizes, counts and scale factors",
  [IO+":read_from_file_structure_poscar"])

p("C79","LAMMPS dumps keep distances",
  "The transformation that read_lammps_trajectory applies to the coordinates keeps all distances between atoms.",
  "every structure cell and every box of the dump",
  "all cells",
  [TP+":read_lammps_trajectory"])

p("C80","Band path of the input file",
  "A BANDS section of the input file defines exactly the segments written in it, in order, whatever section follows it.",
  "all input files with a BANDS section",
  "all sequences of lines and orders of sections",
  [IO+":read_parameters_from_input_file"])
p("C81","Command line options",
  "Each option of the dynaphopy command sets the parameter it documents (--silent, --MD_commensurate, --nac, --symprec, --fcsymm: symmetrize force constants, --save_renormalized_frequencies), and the other parameters are those of the input file.",
  "all values of the options and input files",
  "all combinations",
  ["scripts/dynaphopy",PA+":Parameters"])
p("C82","Atom types by element",
  "After set_atom_type_index_by_element two atoms have the same type iff they are the same element.",
  "all lists of atoms",
  "all lists",
  ["dynaphopy/atoms.py:Structure.set_atom_type_index_by_element"])
p("C83","Renormalized force constants keep the renormalized frequencies",
  "At every commensurate point the dynamical matrix from which get_renormalized_force_constants builds the force constants is Hermitian and has exactly the renormalized frequencies with the harmonic eigenvectors; with unchanged frequencies it is the harmonic dynamical matrix.",
  "all frequencies (including imaginary), eigenvectors and numbers of atoms",
  "all unitary matrices and reals",
  [PL+":get_renormalized_force_constants",PL+":obtain_eigenvectors_and_frequencies"])
p("C84","LOESS smoothing keeps straight lines",
  "fitdata --smooth returns straight-line data unchanged, for every set of points and smoothing factor for which the smoothing is defined. A smoothed value is defined exactly if another point lies strictly inside the window of its point; for evenly spaced points all are defined exactly if the window (factor times number of points, rounded up) is at least 3 and less than the number of points.",
  "all data and factors",
  "all reals",
  ["scripts/fitdata"])
p("C85","LAMMPS trajectories: order of the atoms, times, commands",
  "In the trajectory returned by generate_lammps_trajectory, row k of every frame (positions, velocities) is the atom recognised as row k of the structure's supercell, whatever the internal order of LAMMPS; frame i has time i*time_step*sampling_interval and its own energy, the number of frames is the largest that fits into total_time, and the cell is the box of LAMMPS.",
  "every LAMMPS run, every internal order of the atoms in every frame, all times and intervals",
  "the internal order changes unpredictably during a run",
  [LL+":generate_lammps_trajectory"])
p("C86","Temperature from the velocities",
  "get_temperature returns the temperature of the equipartition theorem for the velocities of the trajectory (or the one given to set_temperature, once set), is the same on every later call, and leaves the parameters as they were. The printed numbers belong together: average squared plus deviation squared is three times Boltzmann's constant times the temperature; at least 8/9 of the data lie on the velocity axis of the plot.",
  "all trajectories, masses and call histories",
  "a maximum-likelihood identity over all data, and call histories",
  ["dynaphopy/analysis/energy.py:boltzmann_distribution",Q+":Quasiparticle.get_temperature",Q+":Quasiparticle.set_temperature"])
p("C87","Scan of the number of MEM coefficients",
  "mem_coefficient_scan_analysis reports, for each phonon, the numbers of the accepted fit with the smallest error, all of the same number of coefficients; points without a spectrum or a good fit are left out; the estimated width lies between the smallest and the largest accepted width.",
  "all scan ranges, spectra and fit results",
  "all sequences of failures",
  ["dynaphopy/power_spectrum/__init__.py:mem_coefficient_scan_analysis"])
p("C88","Distribution of atomic displacements",
  "get_atomic_displacements returns for each atom type a probability density over bins that cover all samples, and write_atomic_displacements writes it against displacements that belong to the bins.",
  "all trajectories, directions and numbers of bins",
  "all data, including data on bin edges",
  [Q+":Quasiparticle.get_atomic_displacements",Q+":Quasiparticle.write_atomic_displacements",Q+":Quasiparticle.plot_trajectory_distribution"])
p("C89","Arrows of the phonon modes",
  "The arrow plot_phonon_modes draws on each atom is the displacement of that atom in the mode: the real part of its eigenvector times exp(i q r), divided by the root of its mass, times the scale.",
  "all structures, eigenvectors, wave vectors and scales",
  "all numbers of atoms and types",
  ["dynaphopy/analysis/modes.py:plot_phonon_modes"])
p("C90","Forces used by phonopy",
  "Every phonopy calculation on a structure uses forces and a supercell matrix that belong together and that the user gave (force constants if there are any, else force sets); the forces set last are used; force constants passed as an argument are used with their own supercell and leave the structure alone; force sets are refused exactly if their number of atoms is not that of the supercell; get_qha_shift uses the quasi-harmonic force constants and leaves the structure's forces alone.",
  "all histories of set_force_constants, set_force_set and calculations; all supercell matrices",
  "depends on the whole call history (produced force constants are stored in the structure)",
  [A+":Structure.get_supercell_phonon",A+":Structure.get_force_sets",A+":Structure.set_force_constants",PL+":get_phonon",Q+":Quasiparticle.get_qha_shift"])
p("C91","Normalisation to the unit cell",
  "obtain_phonopy_dos returns a density of states of 3N states for the N atoms of the unit cell (phonopy: primitive cell), projections add up to the total, atom indices outside the primitive cell are refused; obtain_phonopy_thermal_properties returns phonopy's values at exactly the temperature asked for, per unit cell.",
  "all unit and primitive cells, spectra, quadratures, temperatures",
  "must hold for all ratios of unit cell and primitive cell and all spectra",
  [PL+":obtain_phonopy_dos",PL+":obtain_phonopy_thermal_properties"])
p("C92","Commensurate points of a structure",
  "Structure.get_commensurate_points(supercell) returns exactly the wave vectors of the first zone that are periodic in the supercell, each once.",
  "all supercells and primitive matrices",
  "unbounded supercell sizes; rounding to five decimals loses points only for some sizes",
  [A+":Structure.get_commensurate_points"])
p("C93","Band structure data",
  "In the data of get_renormalized_phonon_dispersion_bands each segment has its own bounds and labels, branch by branch the shift is renormalized minus harmonic and the linewidth upper minus lower at the same wave vector; connecting the segments makes every branch continuous and only renumbers branches; print_phonon_dispersion_bands prints the bands.",
  "all paths, any number of segments, points, branches; all eigenvectors",
  "unbounded number of segments, the renumbering of one segment depends on all before",
  [Q+":Quasiparticle.get_renormalized_phonon_dispersion_bands",Q+":Quasiparticle.print_phonon_dispersion_bands",IO+":save_bands_data_to_file"])
p("C94","Quasiparticle and mesh files",
  "Each entry of the file written by write_quasiparticles_data (write_mesh_data) has the wave vector, frequencies, linewidths and shifts of the same commensurate (mesh) point, one entry per point; group velocities are in the file exactly if with_extra is given.",
  "all histories of files written and of changes of use_MD_cell_commensurate, all sets of points",
  "depends on the call history: the cached data is changed in place",
  [Q+":Quasiparticle.write_quasiparticles_data",Q+":Quasiparticle.get_commensurate_points_properties",IO+":save_quasiparticle_data_to_file",IO+":save_mesh_data_to_yaml_file"])
p("C95","Quasiparticle file read by rfc_calc",
  "rfc_calc finds, for every commensurate point, the frequencies that write_quasiparticles_data wrote for it.",
  "all sets of commensurate points and frequencies",
  "equality of printed and computed decimals fails only for some points",
  ["scripts/rfc_calc:get_renormalized_constants",IO+":save_quasiparticle_data_to_file"])
p("C96","Temperature and volume dependent frequencies (qha_quasiparticle)",
  "At the reference temperature and a volume of the list the total frequencies are those of the file of that volume; away from it they change with the fitted temperature shift; interpolate_volume interpolates; options with a default can be omitted; temperatures and volumes are paired correctly.",
  "all sets of data files, temperatures, volumes, orders and options",
  "quantifies over all data sets and over every fit that numpy may return; a test has one set of files",
  ["scripts/qha_quasiparticle.py:ForceConstantsFitting","scripts/qha_quasiparticle.py:QuasiparticlesQHA"])
p("C97","Data alignment in qha_extract",
  "Energies, thermal properties and force constants of the different volumes are used with their own volume, whatever the order of the rows of the volume-energy file and of the files.",
  "all volume-energy files, thermal properties files and force constants files",
  "the sample data are sorted; misalignment appears only for other orders",
  ["scripts/qha_extract"])
p("C98","Results and settings in the text menus",
  "In an interactive session, whatever keys and lines are typed, every result shown or plotted is the one a new calculation with the settings shown on the screen would give; the choices of algorithm and fitting function are always among those offered; each key does what its menu says; the program ends with 0 in the main menu; the list of frequencies shows each frequency once, numbered in order (VIOLATED: the program stops with an error if the list does not fit on the screen, e.g. 20 atoms and 24 lines).",
  "all sequences of characters typed, all initial settings, all trajectories",
  "stale results appear only for particular orders of menu options; the number of sessions is unlimited",
  ["dynaphopy/interface/interactive_ui.py:interactive_interface","dynaphopy/interface/interactive_ui.py:get_param","dynaphopy/interface/interactive_ui.py:list_on_screen","dynaphopy/__init__.py:set_reduced_q_vector"])
p("C99","Structure read from an OUTCAR file",
  "Reading the structure from a VASP OUTCAR file returns the lattice vectors (as rows), the cartesian positions of all ions in the order of the file, and for each ion the mass of its type as listed with the ions per type, whatever other text the file contains between these parts.",
  "all OUTCAR files: any text between the parts, any number of types and ions",
  "the reader looks for keywords from the current position in a large text; sample files show one layout only",
  ["dynaphopy/interface/iofile/__init__.py:read_from_file_structure_outcar"])
p("C100","A fit object answers consistently",
  "Whatever calls are made on a fit object (get_fitting_parameters, get_fitting, get_curve), and in whatever order, each is answered as on a new object with the same data, and the optimiser converges at most once. The drawn curve is the one determined by the reported position, width, maximum or area and base line; the reported maximum is its height at the reported position; a fit that does not converge is always reported as unsuccessful. Branches are fitted starting from the frequency and height of the highest point.",
  "all histories of calls, all outcomes of the optimiser, all spectra",
  "histories of a caching object and all outcomes of an external optimiser",
  ["dynaphopy/analysis/fitting/fitting_functions.py:Lorentzian", "dynaphopy/analysis/fitting/fitting_functions.py:Lorentzian_asymmetric", "dynaphopy/analysis/fitting/fitting_functions.py:Damped_harmonic", "dynaphopy/analysis/fitting/fitting_functions.py:Gaussian_function", "dynaphopy/analysis/fitting/__init__.py:phonon_fitting_analysis"])
p("C101","Meaning of the reported width",
  "The width of an accepted fit is the full width at half maximum of the curve that is drawn, above its base line, whatever spectral function is selected; for the Gaussian fitted to displacement distributions position and width are its mean and standard deviation.",
  "all parameters the optimiser may return",
  "all real parameters; improper integrals",
  ["dynaphopy/analysis/fitting/fitting_functions.py:Lorentzian.get_fitting", "dynaphopy/analysis/fitting/fitting_functions.py:Lorentzian_asymmetric.get_fitting", "dynaphopy/analysis/fitting/fitting_functions.py:Damped_harmonic.get_fitting", "dynaphopy/analysis/fitting/fitting_functions.py:Gaussian_function.get_fitting"])
p("C102","Results of the command line program",
  "On the command line every option takes effect in place of the value of the input file, wherever it stands; the program stops before any result exactly if the fitting function, atom type or algorithm does not exist. There is one result per request, each the value for the settings asked for, whatever else is requested. The plot of the full power spectrum shows the renormalized density of states exactly if -sfc or the renormalized bands are also asked for.",
  "all option combinations, input settings with a valid frequency range, and numerical routines",
  "two dozen options can be combined in millions of ways, and results are cached between the calls; tests run one option at a time",
  ["scripts/dynaphopy: Set Parameters ... args.average (297-410)", "dynaphopy/__init__.py: Quasiparticle"])
p("C103","Projection onto normal modes",
  "If the mass weighted velocities are a superposition of phonon modes of the crystal at wave vectors commensurate with the MD cell, the phonon projection returns exactly the amplitude of each mode (in particular nothing for the absent ones); conversely every velocity is the superposition of its projections, and the squared amplitudes of all modes sum up to twice the kinetic energy.",
  "all crystals (also with several primitive cells per unit cell), supercells, complete sets of commensurate wave vectors, orthonormal eigenvectors, amplitudes and velocities",
  "tests compare spectra of one structure with stored numbers; mixing between modes or a wrong normalisation for one supercell shape passes",
  ["dynaphopy/projection.py: project_onto_wave_vector, project_onto_phonon", "dynaphopy/__init__.py: get_vc, get_vq, get_q_vector", "dynaphopy/atoms.py: get_positions, get_atom_type_index"])
p("C104","Mode spectra sum up to the full spectrum",
  "With the direct Fourier method, at every frequency the phonon spectra of all modes at all commensurate wave vectors sum up to the full power spectrum, and so do the wave-vector projected spectra.",
  "all trajectories, crystals, supercells, eigenvectors, frequencies, correlation steps and both integration methods",
  "a double counted or missing wave vector or branch changes total spectra by a few percent and no test sums them",
  ["c/correlation.c: correlation_par, EvaluateCorrelation", "dynaphopy/__init__.py: get_power_spectrum_full, get_power_spectrum_wave_vector, get_power_spectrum_phonon", "dynaphopy/projection.py"])
p("C105","Spectra are calculated column by column",
  "Every spectrum function returns one row per frequency and one entry per column of the velocity matrix, and the entry depends only on that column, not on its place or on the other columns. Maximum entropy spectra are refused exactly when there are not at least two more time steps than coefficients, unknown algorithms always; otherwise direct Fourier, maximum entropy and fast Fourier transforms return for every matrix, and the last two are non-negative. Numpy and CuPy warn exactly when the requested resolution is finer than the length of the data allows.",
  "all matrices of velocities, algorithms, frequency ranges and parameters",
  "an index slip shows only for particular shapes, and a refusal or warning at the wrong size only at the boundary",
  ["dynaphopy/power_spectrum/__init__.py: get_fourier_direct_power_spectra, get_mem_power_spectra, get_fft_numpy_spectra, get_fft_fftw_power_spectra, get_fft_cuda_power_spectra, get_fft_cupy_spectra, power_spectrum_functions"])
p("C106","Spectra do not depend on arbitrary choices",
  "Multiplying the velocities by a factor multiplies the spectra by its squared absolute value; multiplying eigenvectors by phases leaves the phonon spectra unchanged; mixing degenerate eigenvectors by a unitary matrix leaves the sum of the spectra over the degenerate set unchanged.",
  "all trajectories, eigenvectors, phases, unitary mixings, frequencies and algorithms",
  "eigenvector phases and mixings differ between runs, libraries and machines; a test sees one of them",
  ["dynaphopy/power_spectrum/__init__.py: power_spectrum_functions", "c/mem.c: MaximumEntropyMethod", "c/correlation.c", "dynaphopy/projection.py: project_onto_phonon"])
p("C107","Zero padding refines the FFT resolution",
  "The zero_padding parameter extends the data of the FFT methods and so refines their resolution, as the resolution check assumes.",
  "all matrices, algorithms and paddings",
  "the warning text is the only visible effect",
  ["dynaphopy/power_spectrum/__init__.py: get_fft_numpy_spectra, get_fft_cupy_spectra, _numpy_power"])
p("C108","A pure oscillation shows up at its frequency",
  "The power spectrum of a velocity A exp(2 pi i f t) has its maximum at the requested frequency f (with its sign, if f is on the Fourier grid of the pieces), with a height that only depends on |A|, the time step and the number of samples per piece. In a crystal moving in a superposition of normal modes, the spectrum of every mode peaks at the frequency of that mode, whatever the other modes do, and a mode that is not excited has no spectrum.",
  "all amplitudes, frequencies, numbers of steps, time steps, frequency ranges, divisions into pieces and algorithms; all crystals, supercells and superpositions of modes",
  "tests compare the spectra of one trajectory with stored numbers; a shift of the frequency axis, a leak between modes or a length dependent normalisation can pass",
  ["dynaphopy/power_spectrum/__init__.py: _numpy_power, get_fft_numpy_spectra, power_spectrum_functions", "c/correlation.c: EvaluateCorrelation", "c/mem.c: FrequencyEvaluation", "dynaphopy/projection.py"])
p("C109","Labels of the plots",
  "The dispersion plots have a tick at the start of every segment and at the end of the last one; the outer ticks show the first and last name, an inner tick both names of a jump separated by a slash, or one name if they agree; GAMMA is shown as the Greek letter and every other name unchanged; with too few names the plot fails instead of showing wrong ones. The element named for a projection onto an atom type is that of all atoms of this type.",
  "all lists of names, numbers of segments and points, all atom types and structures",
  "tests do not look at plots; an off by one in the names only shows for paths with jumps",
  ["dynaphopy/__init__.py: plot_phonon_dispersion_bands, plot_renormalized_phonon_dispersion_bands, plot_linewidths_and_shifts_bands, replace_list, get_vc", "dynaphopy/atoms.py: get_atomic_elements"])
p("C110","Plots and files of the projections",
  "The plots of the projected velocities, of the trajectory and of the velocity show the value of every step at the time of that step, for exactly the chosen atoms and coordinates; the files of the projections have one line per step with the three components of the chosen atom, or with all the modes, and an atom that does not exist is refused.",
  "all numbers of steps, time steps, projections, selections of atoms and coordinates",
  "a shifted or stretched time axis is invisible for one plot and grows with the number of steps only relatively",
  ["dynaphopy/__init__.py: plot_vq, plot_vc, save_vc, save_vq, plot_trajectory, plot_velocity"])
p("C111","Numbers written to a file are read back to the printed precision",
  "The numbers in the files that the program writes are read back by its readers to the printed precision, whatever the width of the fields and the white space around them: a whole number exactly; a number with fixed decimals to half a unit of its last digit, exactly if it has no more decimals, and unchanged when written and read again; a number in exponential form to half a unit of its last digit relative to its size. The words of a line come back one by one whatever white space separates them. A field that is not a number is refused, never misread.",
  "all numbers, widths, numbers of decimals, and amounts of white space",
  "tests write a few numbers of ordinary size; rounding up to the next power of ten, tiny and huge numbers and numbers wider than their field are not tried",
  ["dynaphopy/generate_cell.py: generate_VASP_structure, generate_LAMMPS_structure", "dynaphopy/interface/iofile/__init__.py: write_curve_to_file, read_from_file_structure_poscar", "scripts/fitdata"])
p("C112","Spectra files are read back completely",
  "A spectrum written to a text file and analysed with fitdata is the spectrum that was calculated: all rows are there and in order, frequencies to four decimals and different if they were different, and for every group of columns given with -bi the mean of these columns to ten digits; the groups are the ones typed, however they are split into shell words.",
  "all spectra (any number of rows and columns), all groups",
  "the writer and the reader are in different programs and are not tested together; a text file is read for every size and sign of the numbers",
  ["dynaphopy/interface/iofile/__init__.py: write_curve_to_file", "scripts/fitdata"])
p("C113","An input file is read completely",
  "An input file made of sections (structure files, force files, matrices, bands, mesh), comments and other lines, in any order and repeated any number of times, is read without error, and the parameters are exactly those its sections set: the last section of each kind counts, a kind that does not occur keeps its default, matrices, segments and labels are in the order written. (The line after a list of segments must be neither a further line with a colon nor MESH PHONOPY: see C80.)",
  "all input files: any number, order and repetition of sections, any spacing and form of the numbers",
  "the reader works line by line with substring tests and a loop that changes the loop variables; only all orders and texts together show that sections do not disturb each other",
  ["dynaphopy/interface/iofile/__init__.py: read_parameters_from_input_file"])
p("C114","The LAMMPS data file describes the crystal",
  "The text of the LAMMPS data file written for a structure, read by the rules of LAMMPS (first line skipped, blank lines ignored, header lines by their keywords, sections Masses and Atoms), is the same crystal to ten decimals: the number of atoms and of elements, a box and positions that are the cell and positions of the structure turned by one and the same rotation (with an inversion for a left-handed cell), atoms in the order of the structure numbered from 1, types that agree exactly for atoms of the same element and are declared in the Masses section with the mass of that element, and the charges if there are any.",
  "all structures: any number of atoms, order and repetition of elements, any non-singular cell (left- or right-handed, any skew), with or without charges",
  "the sections refer to each other (types, masses, counts, rotated positions and box computed from different formulas), so the file is right only if all of them agree for every cell and every order of the elements",
  ["dynaphopy/generate_cell.py: generate_LAMMPS_structure"])
p("C115","Spectra do not depend on the scheduling of the threads",
  "The parallel loops over the frequencies of the direct Fourier and maximum entropy routines give exactly the spectrum of the sequential program, for every number of threads, every distribution of the frequencies among the threads, every interleaving of their instructions, and whatever was in the private variables and in the uninitialised result array before. Two threads never use the same element of the result, no schedule gets stuck, and all schedules end.",
  "all teams of threads (any number), all assignments of iterations, all interleavings of single instructions, all inputs, all contents of uninitialised memory",
  "a test sees one schedule of one machine; a shared temporary would show up only under rare interleavings",
  ["c/mem.c: MaximumEntropyMethod", "c/correlation.c: correlation_par"])
p("C116","A saved projected velocity gives the spectra of the calculation that wrote it",
  "The file of projected velocities (save_vc_hdf5), written by a calculation after any history of settings and calls, and loaded by another run of the program with any settings and any later calls that keep the wave vector, gives the projected velocity, phonon-projected velocity, phonon spectra and wave-vector spectrum that a new calculation from the trajectory gives with the current settings of the later run, the wave vector and atom projection of the run that wrote it, and no symmetry. The later run never needs a trajectory for them. Time stamps and supercell come back exactly; with -n the later run uses exactly the last n frames of the file.",
  "all histories before the save, all settings and all histories of calls after the load, all crystals with a diagonal supercell, all frame counts",
  "the caches of the writing and of the reading calculation can be in any state; a test tries a few orders of calls",
  ["dynaphopy/__init__.py: Quasiparticle.save_vc_hdf5, crop_trajectory, __init__", "dynaphopy/interfaces/iofile/__init__.py: initialize_from_hdf5_file", "scripts/dynaphopy: 288-297"])
p("C117","The C routines access only their own memory and give it back",
  "For every input the C routines behind relative displacements, the direct Fourier spectrum and the maximum entropy spectrum access only arrays they own, inside their bounds, never after giving them back, never give one back twice, leave everything else in memory unchanged, and return exactly the values of their mathematical description; after the call only the returned array is left. VIOLATED in the last part: each call keeps memory nobody can reach, exactly 2n+2 blocks (2N+2n\u00b2+n numbers) per atom for the displacements, the two input arrays for the direct spectrum, and the copy of the imaginary part plus three work arrays per abandoned fit for maximum entropy.",
  "all states of the memory before the call, all numbers of frames, dimensions, atoms, frequencies and coefficients, all values",
  "memory errors depend on sizes and values and often have no visible effect in a test; leaks show only in long runs",
  ["c/displacements.c: atomic_displacements, Determinant, CoFactor, matrix_inverse, matrix_multiplication", "c/correlation.c: correlation_par", "c/mem.c: MaximumEntropyMethod, GetCoefficients, FrequencyEvaluation", "dynaphopy/dynamics.py: Dynamics.get_relative_trajectory"])
p("C118","The tables printed on the screen show the values that are returned",
  "Each table printed by the Python interface (average positions, anisotropic displacement parameters, thermal properties, fitted peaks) has one row (or block) per atom, quantity or branch, in order, and each row shows, with the right element, label and unit and to the printed number of decimals, the values that the same call computes or returns; a peak whose fit failed prints one warning with its number and gives zeros. VIOLATED by the order of the displacement parameters: rows are grouped by type, so row i need not belong to atom i of the cell.",
  "all numbers of atoms, branches and types, all symbols without blanks, all real values, with and without occupancies, asymmetries and thermal expansion",
  "the printed columns are chosen by hand-written argument positions; tests compare returned arrays and no test parses the output",
  ["dynaphopy/__init__.py: Quasiparticle.get_average_atomic_positions, get_anisotropic_displacement_parameters, display_thermal_properties", "dynaphopy/analysis/fitting/__init__.py: phonon_fitting_analysis"])
p("C119","Quasi-harmonic script: data given to PhonopyQHA and results at constant pressure",
  "The object that fits the quasiparticle data returns, after any sequence of calls, what a new object would return. The arrays given to PhonopyQHA hold, in the row of each temperature and the column of each volume, the thermal properties at that temperature for the frequencies at that temperature and volume, with the volumes and energies of the -ev file; the files saved give the same input when loaded. The volume at a temperature is interpolated linearly between the equilibrium volumes, and the shifts at constant pressure pair each temperature with its own volume and the wave vector asked for. VIOLATED by the option names (files given as documented, -cv_data at constant volume and -ct_data at constant temperature, are exchanged) and by the public attribute ref_temperature (ignored once the volume shifts are cached).",
  "all data sets, numbers of temperatures, volumes, wave vectors and branches, all sequences of calls, all behaviours of phonopy, polyfit and interp1d (whose errors depend only on the abscissae)",
  "alignment of three nested loops and transposes with caches; the script has no tests and depends on the order of calls",
  ["scripts/qha_quasiparticle.py: ForceConstantsFitting (get_temperature_range, get_shift_matrix_temperature, get_fitted_shifts_temperature, get_shift_matrix_volume, get_total_shifts, get_total_force_constants, get_thermal_properties)", "scripts/qha_quasiparticle.py: QuasiparticlesQHA.__init__, get_volume_at_temperature, get_total_shift_constant_pressure"])
p("C120","Interrupted, repeated and simultaneous runs",
  "A run of the command line program touches only the files its options name for results, whatever moment it is killed at: the files written before that moment are complete, at most the one being written is not, the others are as before. The files of a finished run hold the texts of the results asked for and do not depend on earlier runs in the directory, finished or interrupted; repeating an interrupted run gives the directory of an uninterrupted one. Simultaneous runs that do not write each other's files give, in any interleaving, the files they give alone.",
  "all options and file names, all contents of the directory and of the input files, all moments of interruption, all histories of commands, all interleavings of any number of processes",
  "needs all crash points, histories and interleavings; tests run one command to its end",
  ["scripts/dynaphopy", "dynaphopy/interface/iofile/__init__.py:write_curve_to_file", "dynaphopy/interface/iofile/__init__.py:save_data_hdf5", "dynaphopy/__init__.py:Quasiparticle.write_quasiparticles_data", "dynaphopy/__init__.py:Quasiparticle.get_commensurate_points_data"])
p("C121","The FFT algorithms agree",
  "Whichever FFT algorithm is selected (Numpy, FFTW, CUDA, CuPy), the spectra returned for the same data, frequencies and time step are the same, provided the library used computes the autocorrelation, the discrete Fourier transform and the sorting order it documents: one spectrum for each column, one value for each frequency asked for. All of them end for the same data. When the resolution asked for is not available the user is told so and told the largest available one.",
  "all four algorithms, all libraries computing what they document (whatever algorithm they use), all columns of data, all frequency ranges with increasing first frequencies, positive time steps",
  "tests can compare two libraries that are installed on some data; this ranges over all data and all libraries that meet their documentation",
  ["dynaphopy/power_spectrum/__init__.py:get_fft_numpy_spectra", "dynaphopy/power_spectrum/__init__.py:get_fft_fftw_power_spectra", "dynaphopy/power_spectrum/__init__.py:get_fft_cuda_power_spectra", "dynaphopy/power_spectrum/__init__.py:get_fft_cupy_spectra"])
p("C122","One system of units",
  "Energies, temperatures and frequencies reported by different parts of the program refer to the same constants: the occupation numbers of the thermal properties and of the peaks agree, the Boltzmann constant is the same for velocities, test trajectories and molar quantities; an oscillator gets from its power spectrum (in eV ps) the kinetic energy and, in the classical limit, the temperature that it gets from its velocities.",
  "all temperatures, frequencies, mean square velocities, data and time steps",
  "a statement about all data; tests with one trajectory compare numbers within the statistical error of a few percent",
  ["dynaphopy/power_spectrum/__init__.py:unit_conversion", "dynaphopy/analysis/fitting/__init__.py:phonon_fitting_analysis", "dynaphopy/analysis/energy.py:boltzmann_distribution", "dynaphopy/analysis/thermal_properties.py", "dynaphopy/interface/iofile/__init__.py:generate_test_trajectory"])
p("C123","The drawing of a phonon mode shows the cell and the atoms",
  "plot_phonon_modes draws the twelve edges of the cell, each once, and every atom once, at its position, with the size of its element and with the colour that the legend gives to its element; the legend lists every element of the structure exactly once, in alphabetical order, and tells the elements apart. VIOLATED by the code for: more than seven elements (colours repeat), elements of atomic number above 109 and the unknown element X (the drawing stops with an error), elements without a tabulated radius (size 0, invisible), and by_element=False (the legend uses the type as the number of an atom).",
  "every cell, every list of positions and elements, any number of atoms",
  "the legend must be right for every structure; a test draws one crystal with one or two elements, for which colours never repeat and every radius is known",
  ["dynaphopy/analysis/modes.py:plot_phonon_modes", "dynaphopy/analysis/modes.py:atom_radius"])
p("C124","The harmonic test trajectory is a motion of the crystal",
  "For every crystal whose phonons (frequencies and eigenvectors at all commensurate wave vectors) are given, the trajectory of generate_test_trajectory is sampled at 0, dt, 2dt, ... up to total_time, every atom obeys Newton's equation m x'' = -sum K u with the force constants K that have these phonons, the sum of kinetic and potential energy does not change in time, each phonon above minimum_frequency has the same energy, and the projection of the mass weighted velocities onto a phonon (what the analysis does) oscillates with the frequency of this phonon and with an amplitude that is the same for all phonons; phonons below the minimum frequency do not appear. The same holds in all but the first and the last frame for the velocities that the program calculates from the coordinates, where the amplitude is reduced by sin(2 pi f dt)/(2 pi f dt). VIOLATED by the code: the energy reported for the frames is not the energy of the crystal (in three dimensions the crystal has 3/2 of it, so it moves as at 3/2 of the temperature asked for), and in double precision there may be one frame more than total_time/dt.",
  "every crystal, supercell, set of force constants with stable phonons, temperature, phase, time step and total time",
  "the equations of motion must hold for every atom at every time and for every crystal; a test compares one trajectory with stored numbers",
  ["dynaphopy/interface/iofile/__init__.py:generate_test_trajectory"])
p("C125","Frequencies and linewidths on a mesh belong to the same phonon",
  "get_mesh_frequencies_and_linewidths returns for every wave vector of the mesh one row of frequencies and one row of linewidths; at a wave vector that is a commensurate point these are exactly the renormalized frequencies and the linewidths of that point, and equal positions of the two rows belong to the same phonon, so that the points drawn by plot_frequencies_vs_linewidths (and the branches of the mesh file) are (frequency, linewidth) pairs of phonons. VIOLATED by the code: both rows are sorted independently; the pairs are right exactly if a phonon of higher frequency never has a smaller linewidth.",
  "every crystal, mesh, set of frequencies, eigenvectors and linewidths",
  "the pairing must hold for every order of the linewidths; for a test crystal with one atom or linewidths growing with frequency the error is invisible",
  ["dynaphopy/__init__.py:Quasiparticle.get_mesh_frequencies_and_linewidths", "dynaphopy/__init__.py:Quasiparticle.plot_frequencies_vs_linewidths", "dynaphopy/interface/phonopy_link.py:obtain_phonopy_mesh_from_force_constants"])
p("C126","Integrals over the frequencies",
  "The integrals over the frequencies (areas of the spectra, number of states, thermal properties) are sums of the values with weights that depend on the frequencies only; they are exact for constant and linear values for every number of frequencies, exact for parabolas, not negative for non-negative values on evenly spaced frequencies, so that the heat capacity and entropy bounds hold for the integrals that are really calculated; and the result does not depend on the version of SciPy. VIOLATED for the last: for an even number of frequencies the two versions that the code accepts (simps and simpson) differ, and the older one is not exact for parabolas.",
  "every number of frequencies, every increasing list of frequencies, all values",
  "holds for all numbers of points (the rule is different for even and odd ones) and all values; a test integrates one spectrum",
  ["dynaphopy/__init__.py:Quasiparticle.plot_power_spectrum_full", "dynaphopy/__init__.py:Quasiparticle.get_thermal_properties", "dynaphopy/analysis/thermal_properties.py"])
p("C127","Thermal properties from the power spectrum",
  "The density of states that the program derives from the power spectrum has the number of states of the crystal: the reported integral is the kinetic energy of the molecular dynamics divided by that of equipartition, so 1 in equilibrium; with normalisation it integrates to the number of modes (divided by the number of primitive atoms if projected onto one), does not depend on supercell, temperature or the unit of the spectrum, and the heat capacity lies between 0 and 3NR for every non-negative spectrum; Bose-Einstein statistics never give more states than classical ones. VIOLATED: in equipartition the reported integral is 1.0213 instead of 1, for every crystal and temperature (the unit of the spectra, C122).",
  "all spectra, frequencies, integration weights, temperatures, supercells",
  "a test compares numbers for one spectrum; this holds for all spectra and temperatures",
  ["dynaphopy/__init__.py:Quasiparticle.display_thermal_properties", "dynaphopy/analysis/thermal_properties.py:get_dos"])
p("C128","Curves and names in the plots of the spectra",
  "After any history of giving forces, calculating from them, renormalizing and clearing, the plot of the full power spectrum shows the spectrum, the harmonic density of states exactly if forces are known, and the renormalized one exactly if renormalized force constants are there, and the legend gives each curve its own name. The plot of the phonon spectra has one figure for each mode, titled with the number of the mode counted from 1, showing the spectrum of that mode at each frequency.",
  "all histories, forces, spectra, numbers of modes",
  "tests do not look at plots; the names are given by position, so a missing curve would shift them",
  ["dynaphopy/__init__.py:Quasiparticle.plot_power_spectrum_full", "dynaphopy/__init__.py:Quasiparticle.plot_power_spectrum_phonon", "dynaphopy/__init__.py:Quasiparticle.get_renormalized_force_constants", "dynaphopy/atoms.py:Structure.forces_available"])
p("C129","Averages over equivalent wave vectors",
  "With symmetry on, after any history of settings and calculations, the phonon spectra and the wave vector spectrum are the averages, over the equivalent wave vectors of the chosen one, of what new calculations without symmetry give for these. For a chosen wave vector without negative coordinates, every equivalent wave vector in the list has the same list, so that the spectra do not depend on which of them was chosen.",
  "all histories, all groups of symmetry operations, all primitive matrices, all wave vectors, all numerical routines",
  "tests use one crystal and one wave vector; the claim is about every group and every history of the caches",
  ["dynaphopy/interface/phonopy_link.py:get_equivalent_q_points_by_symmetry", "dynaphopy/__init__.py:Quasiparticle.get_power_spectrum_phonon", "dynaphopy/__init__.py:Quasiparticle.get_power_spectrum_wave_vector"])
p("C130","Plots of the quasi-harmonic script",
  "After any calls of the methods of scripts/qha_quasiparticle.py, the plots of the shifts show for each branch asked for (all, or the one with the given number) the differences between the frequencies in the temperature or volume files and the harmonic or reference frequencies, as dots at the temperature or volume of the file, and as lines the fitted or interpolated shifts between the first and the last temperature or volume; the plots of linewidths and shifts stored in the files show these entries of the row of the wave vector; the plot of the total shift shows the total shift at each temperature and the equilibrium volume of that temperature.",
  "all data files, all histories of calls, all wave vectors and branches, all fitting and interpolation routines",
  "tests do not look at plots; rows, branches and files are matched by position and the arrays are transposed several times",
  ["scripts/qha_quasiparticle.py:ForceConstantsFitting.plot_fitted_shifts_temperature", "scripts/qha_quasiparticle.py:ForceConstantsFitting.plot_fitted_shifts_volumes", "scripts/qha_quasiparticle.py:ForceConstantsFitting.plot_linewidth_volume", "scripts/qha_quasiparticle.py:ForceConstantsFitting.get_shift_temperature", "scripts/qha_quasiparticle.py:QuasiparticlesQHA.plot_total_shift_constant_pressure"])
p("C131","Linewidths and shifts along a band path belong to the phonon of the branch",
  "Wherever the path passes through a commensurate wave vector, each branch listed in the band data belongs to one phonon calculated there: its harmonic and renormalized frequencies, its shift, its limits and its linewidth are those of that phonon, and different branches belong to different phonons; the plots show these data with the right names.",
  "all structures, paths, resolutions and results at the commensurate points, all orders in which phonopy returns the branches, with and without connection of the bands and of the segments",
  "harmonic bands, renormalized bands and the two limits of the linewidths come from four separate diagonalizations, each with its own order of the branches, and are put together by position",
  ["dynaphopy/__init__.py:Quasiparticle.get_renormalized_phonon_dispersion_bands", "dynaphopy/__init__.py:Quasiparticle.plot_linewidths_and_shifts_bands", "dynaphopy/__init__.py:Quasiparticle.plot_renormalized_phonon_dispersion_bands", "dynaphopy/interface/phonopy_link.py:obtain_phonon_dispersion_bands"])
p("C132","Automatic band path",
  "When no band path is given, get_path_using_seek_path gives seekpath the crystal (cell, fractional positions, and numbers that are equal exactly for atoms of the same element) and returns, in the order of seekpath, the segments between the coordinates of the two labels of each pair; without seekpath it is one segment from (0,0,0) to (1/2,0,1/2) with these labels. The coordinates stand for the wave vectors that seekpath means. VIOLATED by the code: they are coordinates in the primitive cell of seekpath but are used in the primitive cell of the structure, which is right if and only if the two cells are the same.",
  "every structure, list of elements and answer of seekpath",
  "depends on arbitrary crystals, labels and on which primitive cells agree",
  ["dynaphopy/atoms.py:Structure.get_path_using_seek_path", "dynaphopy/__init__.py:Quasiparticle.get_band_ranges_and_labels"])
p("C133","Progress bars",
  "While spectra are calculated or a test trajectory is generated, and the object is not silent, the line of the terminal shows after each column or frame the label, a bar of 30 characters and the per cent of what is done (to half a character and half of the second decimal), with nothing left of earlier bars; when everything is done there is one finished line with the full bar and Done..., and the cursor is on an empty line. In double precision too, Done... comes exactly with the last column.",
  "every label, number of columns, total time and time step, every growing sequence of parts, every number of coefficients",
  "depends on all sequences of bars and on overwriting in the terminal, which tests do not see",
  ["dynaphopy/power_spectrum/__init__.py:_progress_bar", "dynaphopy/analysis/coordinates.py:progress_bar", "dynaphopy/interface/iofile/__init__.py:generate_test_trajectory"])
p("C134","Progress of LAMMPS runs and of the scan of coefficients",
  "During a LAMMPS run and during the scan of the numbers of MEM coefficients, the bar shows what has been done, and ends with one finished line for the run or column. VIOLATED by the code: in a LAMMPS run a step is shown as done before it is run, and the line is never finished if the total time is not a multiple of the sampling time; in the scan several lines may be finished, or none, and warnings stand behind the bar.",
  "every total time, time step, sampling interval, every list of numbers of coefficients and every outcome of the fits",
  "depends on the order of bars and steps and on rare outcomes of the fits",
  ["dynaphopy/interface/lammps_link.py:generate_lammps_trajectory", "dynaphopy/power_spectrum/__init__.py:mem_coefficient_scan_analysis"])
p("C135","The script rfc_calc",
  "rfc_calc -cp prints the commensurate points of the supercell of --dim, else of the phonon supercell of the input file, else of the unit cell. With a file of frequencies it makes the force constants whose frequencies at each commensurate point are those of the file, with the eigenvectors of the forces of the input file at the same point and for the supercell asked for (--dim or the input file), saves them with -s and draws harmonic and renormalized bands with -p along the ranges of the input file (or the automatic path).",
  "all input files, arguments, supercell matrices, force constants or force sets, files of frequencies",
  "depends on the combination of arguments and entries of the input file, and on the order of the entries of the file",
  ["scripts/rfc_calc", "dynaphopy/interface/phonopy_link.py:obtain_phonon_dispersion_bands", "dynaphopy/interface/phonopy_link.py:get_renormalized_force_constants"])
p("C136","Bands, densities of states and thermal properties of the quasi-harmonic script",
  "After any calls of the methods of scripts/qha_quasiparticle.py, bands and densities of states at a temperature and volume are those of the harmonic frequencies plus the total shift at this temperature and volume; plot_thermal_properties shows free energy, entropy and heat capacity of these at every temperature of the range and the volume asked for; the band plots at constant pressure show, for each temperature asked for, the bands along the path of the input file at the equilibrium volume of that temperature, with or without labels and external data.",
  "all data files, all histories of calls, all temperatures, volumes, paths and labels, all fitting and interpolation routines",
  "depends on the call history (caches) and on all data; tests do not look at plots",
  ["scripts/qha_quasiparticle.py:ForceConstantsFitting.get_band_structure", "scripts/qha_quasiparticle.py:ForceConstantsFitting.plot_thermal_properties", "scripts/qha_quasiparticle.py:QuasiparticlesQHA.plot_band_structure_gradient", "scripts/qha_quasiparticle.py:QuasiparticlesQHA.plot_band_structure_constant_pressure"])
p("C137","Phonon spectra do not depend on axes, origin and numbering",
  "The power spectra of the phonon modes computed from a trajectory do not change if crystal, trajectory and eigenvectors are rotated or reflected, if the origin of the coordinates is moved, or if the atoms of the unit cell (with their images in the trajectory and their eigenvectors) are numbered in another order.",
  "all crystals, trajectories, wave vectors, eigenvectors, orthogonal matrices, shifts and permutations, every dimension above 1, all power spectrum algorithms",
  "holds for all rotations, shifts and orders of the atoms and depends on the whole chain from trajectory to spectrum; tests compare one input with stored numbers",
  ["dynaphopy/__init__.py:Quasiparticle.get_power_spectrum_phonon", "dynaphopy/__init__.py:Quasiparticle.get_vq", "dynaphopy/dynamics.py:Dynamics.velocity", "dynaphopy/dynamics.py:Dynamics.get_supercell_matrix", "dynaphopy/projection.py:project_onto_wave_vector", "dynaphopy/projection.py:project_onto_phonon", "dynaphopy/atoms.py:Structure.get_atom_type_index"])
p("C138","Spectra at equivalent and opposite wave vectors",
  "The phonon spectra at a wave vector and at the same wave vector plus a vector of the reciprocal lattice of the primitive cell are equal (each with its own eigenvectors, which differ by the phases of the atomic positions), with every power spectrum algorithm; the spectra at opposite wave vectors are equal.",
  "all crystals whose unit cell consists of whole primitive cells, all trajectories, wave vectors, reciprocal lattice vectors and eigenvectors, all algorithms, every dimension",
  "ranges over all wave vectors and trajectories; a test compares stored numbers at one wave vector",
  ["dynaphopy/__init__.py:Quasiparticle.get_power_spectrum_phonon", "dynaphopy/__init__.py:Quasiparticle.get_q_vector", "dynaphopy/projection.py:project_onto_wave_vector", "dynaphopy/projection.py:project_onto_phonon"])
p("C139","Test of the orthonormality of the eigenvectors",
  "Asking for the test of orthonormality changes neither the returned eigenvectors of orthonormal modes, whose printed products are the unit matrix, nor their arrangement by atoms and axes; modes that are not normalized are returned normalized; and the unit matrix is printed only if the returned modes are orthonormal.",
  "all numbers of atoms and dimensions and all complex matrices of eigenvectors",
  "ranges over all matrices; a test checks one orthonormal set, for which every normalization is the identity",
  ["dynaphopy/interface/phonopy_link.py:obtain_eigenvectors_and_frequencies", "dynaphopy/interface/phonopy_link.py:eigenvectors_normalization"])
p("C140","Average positions from random samples",
  "average_positions(number_of_samples) averages frames of the trajectory, as many as asked for and at most all of them, whatever the random numbers are: reference position plus mean displacement of the drawn frames, in the cell; the mean has no bias, is exact for atoms that do not move, and is the average over the trajectory if no number is given or if at least as many samples as frames are asked for.",
  "all trajectories, cells, numbers of samples and sequences of random numbers",
  "the result depends on a random generator; a test sees one sequence",
  ["dynaphopy/dynamics.py:Dynamics.average_positions"])
p("C141","Frequencies of the highest peaks",
  "get_frequencies_from_correlation returns one frequency for each branch with peaks: that of the highest of its peaks.",
  "all spectra (also complex ones), frequency ranges and peak finders",
  "ranges over all spectra; a test has one",
  ["dynaphopy/analysis/peaksearch.py:get_frequencies_from_correlation"])
p("C142","Versions of the libraries",
  "The program can be loaded with every version of phonopy and SciPy that offers what is used under one of the names it knows (class of atoms, factor of the frequencies, integration rule), and then uses an object that exists.",
  "all installations: all assignments of names to modules",
  "a test runs with the one version that is installed",
  ["dynaphopy/interface/phonopy_link.py", "dynaphopy/__init__.py", "dynaphopy/analysis/thermal_properties.py"])
p("C143","Full and wave-vector spectra do not depend on periodic images, origin and axes",
  "The full power spectrum, the wave-vector spectrum and the spectra of the modes of a trajectory of coordinates are the same for wrapped and unwrapped trajectories (each atom in each frame may be replaced by any periodic image); the full spectrum does not depend on the origin of the coordinates and the numbering of the atoms; neither it nor the wave-vector spectrum depends on origin and Cartesian axes when crystal and trajectory are rotated together.",
  "all crystals, MD cells, trajectories, choices of images, rotations and origins, algorithms and parameters",
  "a test uses one trajectory and one choice of axes",
  ["dynaphopy/__init__.py: get_power_spectrum_full, get_power_spectrum_wave_vector", "dynaphopy/dynamics.py: get_velocity_mass_average, get_relative_trajectory", "dynaphopy/projection.py: project_onto_wave_vector"])
p("C144","Masses, structure or times changed after a calculation",
  "Masses given with set_masses are returned by get_masses at once, whatever was asked before. Masses set after any history of calls on a trajectory that does not contain get_velocity_mass_average, or before a crop_trajectory that returns, act as if they had been given from the start; set_masses followed by set_primitive_matrix makes all later atom types those of the new masses. Without that, values already computed are not refreshed: once the mass weighted velocities, the displacements or the atom types have been asked for, no change of the masses (or set_structure) has an effect on them. Likewise set_time gives the time step of the new times only if the time step has not been asked for (or was zero).",
  "all structures, trajectories, masses, structures set later and histories of calls before and after the change",
  "The state depends on the order of an unbounded history of calls; a test fixes one order.",
  ["dynaphopy/atoms.py: Structure.set_masses, get_masses, get_atom_type_index, set_primitive_matrix", "dynaphopy/dynamics.py: Dynamics.set_structure, get_velocity_mass_average, get_relative_trajectory, crop_trajectory"])
p("C145","Full spectrum of one coordinate",
  "On a new object that projects onto an atom type, get_power_spectrum_full(projection_on_coordinate=c) is the sum of the spectra of the coordinate c of all atoms of that type; it ends the program exactly if there is no atom of the type or no such coordinate, and a negative coordinate means all coordinates. The spectra of all coordinates add up to that of the type, those of all types and coordinates to the full spectrum. The coordinate should also be respected without an atom type.",
  "all trajectories, atom types, coordinates, dimensions and power spectrum algorithms",
  "The sums range over any number of atoms and types.",
  ["dynaphopy/__init__.py: Quasiparticle.get_power_spectrum_full"])
p("C146","Saved projections can be read back",
  "The files of save_vc and save_vq have one line per time step, and on each line one word per component of the chosen atom (atoms counted from 1) or per phonon mode, in order; Python's complex() reads every word, and both parts agree with the projection to a relative error of 5e-9. save_vc raises an exception exactly for atoms that do not exist.",
  "all projections (any number of steps, atoms, modes; all values), all atom numbers",
  "The text depends on the sign, size and rounding of every number.",
  ["dynaphopy/__init__.py: Quasiparticle.save_vc, save_vq"])
p("C147","fitdata on files it has saved",
  "scripts/fitdata fits every curve (the mean of a group of columns, smoothed on its own with -sm) separately and in order; with -s it writes the curves whenever no fit raises an exception. The saved file is read again with -bi 1,2,...,n as the same n curves, frequencies to four decimals and values to ten digits, and running the script on it and saving again gives the same file character by character. Without -bi the same should hold.",
  "all input files, groups, smoothing factors, fits and numbers of repeated runs",
  "The text depends on the rounding of every number; a repeated run feeds the output back in.",
  ["scripts/fitdata: whole script", "dynaphopy/interface/iofile/__init__.py: write_curve_to_file"])
p("C148","The XSF file is the crystal",
  "write_xsf_file on a structure with computed types always ends and writes one file; a reader of the XSF format finds in it, to four decimals, the primitive vectors (the combinations of the vectors of the cell that the primitive matrix gives), the vectors of the cell, as many atoms as announced, each with the atomic number and the position of an atom of the cell, and for every atom of the cell exactly one equivalent atom.",
  "all cells, primitive matrices, atomic numbers, positions and equivalences of atoms",
  "Every number must survive the text, and the atoms must be one per class of equivalent atoms for every arrangement.",
  ["dynaphopy/interface/iofile/__init__.py: write_xsf_file", "dynaphopy/atoms.py: get_primitive_cell, get_atom_type_index, get_number_of_primitive_atoms"])
p("C149","The area of the maximum entropy spectrum is the kinetic energy",
  "With the maximum entropy method, for any number of coefficients below the length of the data minus one: the spectrum of each component is a continuous, non-negative function of the frequency, and its area from zero to 1/(2 dt) is half the mean square of the component (times the unit conversion, the first row not used, the real and the imaginary part apart), or the spectrum of that part is zero everywhere; so the area of the full spectrum of a real motion is at most the mean kinetic energy of the frames but the first (over the number of frames), and equal to it if the spectrum of no component vanishes: the number of coefficients does not move it.",
  "all lengths of the data, values, time steps above zero, numbers of coefficients and lists of frequencies",
  "That the area does not depend on the number of coefficients is an integral over all frequencies of the result of a recursion of any length.",
  ["c/mem.c: GetCoefficients, FrequencyEvaluation", "dynaphopy/power_spectrum/__init__.py: get_mem_power_spectra", "dynaphopy/__init__.py: get_power_spectrum_full"])
p("C150","Areas of the maximum entropy spectra: temperature and modes",
  "With the maximum entropy method and any number of coefficients below the length of the data minus one: (a) the area from zero to 1/(2 dt) of the full spectrum of a motion is at most three halves of k_B T per atom, T being the temperature that get_temperature finds from the same velocities, and if no component's spectrum is zero everywhere it is that less the kinetic energy of the first frame over the number of frames; (b) the areas of the spectra of the phonons at a wave vector with orthonormal eigenvectors add up to the area of the spectrum of that wave vector, although the spectra do not, if no spectrum is lost (zero at all frequencies though the data are not zero).",
  "all numbers of atoms and frames, masses, real velocities, time steps, numbers of coefficients, lists of frequencies, orthonormal eigenvectors and trajectories",
  "The area is an integral over all frequencies of the result of a recursion of any length, compared with the temperature of the best fit among all Maxwell distributions.",
  ["c/mem.c: GetCoefficients, FrequencyEvaluation", "dynaphopy/__init__.py: get_power_spectrum_full, get_power_spectrum_wave_vector, get_power_spectrum_phonon, get_temperature", "dynaphopy/analysis/energy.py: boltzmann_distribution"])
p("C151","The direction of time",
  "Run backwards (rows in the opposite order, opposite sign and complex conjugate), a motion has the same spectra with the FFT algorithms (2 to 5), if the windows into which the data are divided lie symmetrically: the window has s points (one over resolution and time step, rounded) and the rest of the data is a multiple of the number of windows less one. In particular a trajectory file whose frames are read in the opposite order gives the same full spectrum, for any crystal, and phonon spectra that are those of the original trajectory at the opposite wave vector. With the maximum entropy method and the direct Fourier method this is violated: a motion that starts from rest has another spectrum than the same motion run backwards (ten times as large; zero against positive), because the first (last) data are never read; and with windows that do not lie symmetrically it is violated by the FFT algorithms too.",
  "all lengths of the data, numbers of columns, complex data, time steps, lists of two or more increasing frequencies, crystals, trajectories, paddings and warnings",
  "Reversal is checked against every window and every pair of data in the correlation, for data of any length; that the two other methods break it is a claim about the same formula.",
  ["dynaphopy/power_spectrum/__init__.py: _numpy_power, _division_of_data, get_fft_numpy_spectra", "dynaphopy/dynamics.py: velocity", "c/correlation.c: EvaluateCorrelation", "c/mem.c: GetCoefficients"])
with open(os.path.join(os.path.dirname(__file__),"..","properties.jsonl"),"w") as f:
    for r in P:
        f.write(json.dumps(r)+"\n")
print(len(P))
