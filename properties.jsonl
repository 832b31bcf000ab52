{"id": "C01", "title": "Supercell positions: count and order", "statement": "Structure.get_positions(supercell) returns exactly (number of unit-cell atoms) x (product of the supercell multiplicities) rows; atom blocks come in unit-cell order, and inside the block of atom k the row with index x1 + s1*x2 + s1*s2*x3 + ... is the unit-cell position of k translated by x1*a1 + x2*a2 + x3*a3.", "quantifier": "every unit cell (any number of atoms and dimensions), every list of supercell multiplicities, every atom and every translation", "why_tests_cant": "the order is a mixed-radix enumeration; a test checks a few sizes, every downstream routine indexes with it for all sizes", "anchors": ["dynaphopy/atoms.py:Structure.get_positions"]}
{"id": "C02", "title": "Per-atom data aligned with supercell positions", "statement": "get_masses, get_charges, get_atomic_elements, get_atomic_numbers and get_atom_type_index with a supercell return lists as long as get_positions(supercell), and entry number i describes the same unit-cell atom as row i of get_positions(supercell).", "quantifier": "every structure, every supercell, every row index", "why_tests_cant": "alignment of six independently written loops must hold for all sizes", "anchors": ["dynaphopy/atoms.py:Structure.get_masses", "dynaphopy/atoms.py:Structure.get_charges", "dynaphopy/atoms.py:Structure.get_atomic_elements", "dynaphopy/atoms.py:Structure.get_atomic_numbers", "dynaphopy/atoms.py:Structure.get_atom_type_index"]}
{"id": "C03", "title": "dynaphopy_order inverts the supercell order", "statement": "dynaphopy_order(i, size) returns [x, y, z, k] such that row i of get_positions(size) is atom k translated by (x, y, z), with 0<=x<size[0], 0<=y<size[1], 0<=z<size[2]; distinct rows give distinct results.", "quantifier": "every positive supercell size and every row index", "why_tests_cant": "inverse of a mixed-radix enumeration over unbounded sizes", "anchors": ["dynaphopy/interface/iofile/__init__.py:dynaphopy_order", "dynaphopy/atoms.py:Structure.get_positions"]}
{"id": "C04", "title": "Supercell lattice vectors", "statement": "get_cell(supercell) returns the matrix whose i-th row (lattice vector) is supercell[i] times the i-th lattice vector of the unit cell.", "quantifier": "every cell matrix and every supercell", "why_tests_cant": "tests use cubic cells, where scaling rows and scaling columns coincide", "anchors": ["dynaphopy/atoms.py:Structure.get_cell", "dynaphopy/generate_cell.py:generate_VASP_structure"]}
{"id": "C05", "title": "Cartesian / fractional round trip", "statement": "For an invertible cell, cartesian positions recomputed from get_scaled_positions() times the cell equal the original positions, and scaled positions recomputed from get_positions() equal the original scaled positions.", "quantifier": "every invertible cell and every list of positions", "why_tests_cant": "identity over all real matrices", "anchors": ["dynaphopy/atoms.py:Structure.get_positions", "dynaphopy/atoms.py:Structure.get_scaled_positions", "dynaphopy/atoms.py:Structure.set_positions"]}
{"id": "C06", "title": "Atom types: labels and equivalence", "statement": "get_atom_type_index() assigns labels forming exactly {0..T-1} with T = get_number_of_atom_types() = get_number_of_primitive_atoms(); labels first occur in increasing order; when lattice equivalence (same position modulo the primitive lattice within tolerance, and same mass) is an equivalence relation on the atoms, two atoms get the same label iff they are equivalent.", "quantifier": "every unit cell, primitive matrix and mass list", "why_tests_cant": "the labelling loop mutates labels in a triangular double loop; correctness is for all numbers of atoms", "anchors": ["dynaphopy/atoms.py:Structure.get_atom_type_index", "dynaphopy/atoms.py:Structure.get_number_of_atom_types", "dynaphopy/atoms.py:Structure.get_number_of_primitive_atoms"]}
{"id": "C07", "title": "Atom types do not depend on the call history", "statement": "The labels returned by get_atom_type_index do not depend on whether the first call on the object was made with or without a supercell argument.", "quantifier": "every structure, every supercell, every order of calls", "why_tests_cant": "depends on the order of API calls on a caching object", "anchors": ["dynaphopy/atoms.py:Structure.get_atom_type_index"]}
{"id": "C08", "title": "Setters are visible through getters (Structure)", "statement": "After set_primitive_matrix the primitive cell, the atom types and the number of primitive atoms are those of the new matrix; after set_positions(p), get_positions() returns p; after set_cell the cached positions and scaled positions are consistent with the new cell.", "quantifier": "every history of setter and getter calls on a Structure", "why_tests_cant": "stale caches only appear for particular call orders", "anchors": ["dynaphopy/atoms.py:Structure.set_primitive_matrix", "dynaphopy/atoms.py:Structure.set_positions", "dynaphopy/atoms.py:Structure.set_cell"]}
{"id": "C09", "title": "Element, atomic number and mass inference", "statement": "Building a Structure from element symbols gives, for every atom, the atomic number and the tabulated mass of that symbol; building it from tabulated (non-zero) masses recovers exactly one element per atom, the right one.", "quantifier": "every list of element symbols of the table, in any order and length", "why_tests_cant": "unbounded lists over the full periodic table", "anchors": ["dynaphopy/atoms.py:Structure.__init__", "dynaphopy/atoms.py:atom_data", "dynaphopy/atoms.py:symbol_map"]}
{"id": "C10", "title": "Minimum-image displacement", "statement": "atomic_displacements(trajectory, position, cell) returns for every time step r - r0 - L where L is an integer combination of the cell vectors, and the fractional coordinates of the result all lie in [-1/2, 1/2]; its imaginary part is zero.", "quantifier": "every invertible cell of dimension >= 2, every trajectory and reference position", "why_tests_cant": "must hold for all real cells, including skewed ones, and uses a hand-written C matrix inverse", "anchors": ["c/displacements.c:atomic_displacements", "dynaphopy/dynamics.py:Dynamics.get_relative_trajectory"]}
{"id": "C11", "title": "Hand-written determinant and inverse", "statement": "The C determinant is the mathematical determinant for every n >= 1 and matrix_inverse(a) is the two-sided inverse of a whenever det(a) != 0.", "quantifier": "all square matrices of every size", "why_tests_cant": "recursion over matrix size; all matrices", "anchors": ["c/displacements.c:Determinant", "c/displacements.c:CoFactor", "c/displacements.c:matrix_inverse", "c/displacements.c:matrix_multiplication"]}
{"id": "C12", "title": "Displacements do not depend on periodic images", "statement": "Adding any integer combination of the supercell vectors to any frame of the trajectory does not change the displacement of that frame (ties at exactly half a cell excepted).", "quantifier": "every trajectory, cell, frame and integer translation", "why_tests_cant": "all integer translations and all cells", "anchors": ["c/displacements.c:atomic_displacements"]}
{"id": "C13", "title": "Cropping keeps exactly the last steps of every series", "statement": "Dynamics.crop_trajectory(n) with n > 0 leaves trajectory, velocity, energy and time equal to the last min(n, length) entries of what they were; n None or <= 0 changes nothing; cropping twice with n and m equals cropping once with min(n, m).", "quantifier": "every stored combination of series, every length, every n, every sequence of crops", "why_tests_cant": "all lengths and all sequences of crops", "anchors": ["dynaphopy/dynamics.py:Dynamics.crop_trajectory"]}
{"id": "C14", "title": "Cropping is visible in every derived quantity", "statement": "After crop_trajectory, relative trajectory, velocity, mass weighted velocity, time step average and mean displacement matrix are those of the cropped data, and the call succeeds whatever series were given, with or without memory mapping.", "quantifier": "every history of getter calls before the crop", "why_tests_cant": "stale caches appear only for particular histories", "anchors": ["dynaphopy/dynamics.py:Dynamics.crop_trajectory", "dynaphopy/dynamics.py:Dynamics.get_mean_displacement_matrix"]}
{"id": "C15", "title": "Supercell matrix recovered from the MD cell", "statement": "If the MD cell is diag(n1,n2,n3) times the unit cell (up to a rotation), get_supercell_matrix returns [n1,n2,n3]; if some ratio of cell lengths is not within tolerance of an integer the program stops with a message instead of returning a matrix.", "quantifier": "every unit cell with non-zero vectors, every triple of multiplicities, every MD cell", "why_tests_cant": "all real cells; the mismatch test must catch every mismatch", "anchors": ["dynaphopy/dynamics.py:Dynamics.get_supercell_matrix"]}
{"id": "C16", "title": "Average time step", "statement": "get_time_step_average returns (t_last - t_first)/(n-1) rounded to 8 decimals for every time array with at least two entries; for a uniform grid whose step is a multiple of 1e-8 it is the step itself, also in double precision (the double closest to it) for times up to 10^6 ps, and it stays the same when asked again.", "quantifier": "every time array of every length", "why_tests_cant": "telescoping sum over any length", "anchors": ["dynaphopy/dynamics.py:Dynamics.get_time_step_average"]}
{"id": "C17", "title": "Velocity from coordinates", "statement": "When no velocity is given it is computed by finite differences of the displacements: uniform motion at velocity v gives exactly v at every step (first and last included), a static atom gives 0, for smooth motion the error is bounded by the third derivative times the squared time step over 6 (second derivative times the time step over 2 at the ends), and the result does not depend on periodic wrapping of the trajectory.", "quantifier": "every trajectory length >= 2, every velocity or smooth path, every wrapping", "why_tests_cant": "all lengths and wrappings", "anchors": ["dynaphopy/dynamics.py:Dynamics.velocity"]}
{"id": "C18", "title": "Mass weighting", "statement": "get_velocity_mass_average multiplies the velocity of atom i by the square root of the mass of atom i, so that the squared norm of the result is twice the kinetic energy of every frame.", "quantifier": "every frame, every structure and supercell", "why_tests_cant": "sum over arbitrarily many atoms", "anchors": ["dynaphopy/dynamics.py:Dynamics.get_velocity_mass_average"]}
{"id": "C19", "title": "Average positions", "statement": "average_positions() equals reference position plus mean displacement up to a lattice vector, and lies inside the supercell (fractional coordinates in [0,1]); with to_unit_cell=True the mean is taken over all atoms equivalent to the unit-cell atom.", "quantifier": "every trajectory, structure and supercell", "why_tests_cant": "all sizes; normalisation over equivalent atoms", "anchors": ["dynaphopy/dynamics.py:Dynamics.average_positions"]}
{"id": "C20", "title": "Mean displacement matrix", "statement": "get_mean_displacement_matrix returns for each atom type the average of d^T d over equivalent atoms and steps, a symmetric positive semidefinite matrix; with use_average_positions=True it is the covariance around the average position; the argument of the current call decides which of the two is returned.", "quantifier": "every trajectory, every type, every history of calls", "why_tests_cant": "positivity over all data; depends on call history through a cache", "anchors": ["dynaphopy/dynamics.py:Dynamics.get_mean_displacement_matrix"]}
{"id": "C21", "title": "Memory-mapped objects do not interfere", "statement": "Two Dynamics objects created in the same process with memmap=True keep their own relative trajectory, velocity and mass weighted velocity: computing one does not change what the other returns; deleting an object removes its temporary files and no others.", "quantifier": "every interleaving of operations on several objects", "why_tests_cant": "interleavings of several live objects over shared files", "anchors": ["dynaphopy/dynamics.py:Dynamics.get_relative_trajectory", "dynaphopy/dynamics.py:Dynamics.velocity", "dynaphopy/dynamics.py:Dynamics.__del__"]}
{"id": "C22", "title": "Two implementations of the phonon projection agree", "statement": "project_onto_phonon and project_onto_phonon2 return the same array.", "quantifier": "all velocities and eigenvectors of every shape", "why_tests_cant": "all shapes and all complex data", "anchors": ["dynaphopy/projection.py:project_onto_phonon", "dynaphopy/projection.py:project_onto_phonon2"]}
{"id": "C23", "title": "Phonon projection conserves power", "statement": "If the eigenvectors are orthonormal and complete, at every time step the sum over modes of |vq|^2 equals the sum over atoms and directions of |vc|^2.", "quantifier": "every set of orthonormal eigenvectors, every velocity, every step", "why_tests_cant": "Parseval identity for all dimensions", "anchors": ["dynaphopy/projection.py:project_onto_phonon"]}
{"id": "C24", "title": "Wave-vector projection conserves power", "statement": "Summed over all wave vectors commensurate with the MD supercell, |vc|^2 equals the total squared mass weighted velocity; shifting the origin does not change |vc|^2; the projection is linear in the velocity.", "quantifier": "every supercell size, structure and velocity", "why_tests_cant": "discrete Fourier orthogonality for all sizes", "anchors": ["dynaphopy/projection.py:project_onto_wave_vector"]}
{"id": "C25", "title": "Atom-projected wave-vector projections add up", "statement": "Projecting with project_on_atom = t leaves only type t non-zero, equal to the unrestricted projection, and the sum over all t of the restricted projections is the unrestricted one.", "quantifier": "every structure, type and velocity", "why_tests_cant": "arbitrary number of atoms and types", "anchors": ["dynaphopy/projection.py:project_onto_wave_vector"]}
{"id": "C26", "title": "Commensurate wave vectors", "statement": "check_commensurate(q) accepts every q whose phase factor is 1 on all MD supercell translations; if q passes with exact integer coordinates its phase factor is 1 on all supercell translations; adding a reciprocal lattice vector of the primitive cell does not change the answer. Rounding errors do not matter: in double precision every commensurate vector of ordinary size is accepted, and only vectors within 5.02e-5 of a commensurate one.", "quantifier": "every primitive matrix, supercell and wave vector", "why_tests_cant": "all reals; modular arithmetic", "anchors": ["dynaphopy/__init__.py:Quasiparticle.check_commensurate", "dynaphopy/__init__.py:Quasiparticle.get_q_vector"]}
{"id": "C27", "title": "Division of the data into pieces", "statement": "_division_of_data returns pieces that all have the same length, stay inside [0, number_of_data], start at 0, end at number_of_data and leave no sample out.", "quantifier": "every resolution, data length and time step for which a piece has at least one sample", "why_tests_cant": "all lengths; rounding at every boundary", "anchors": ["dynaphopy/power_spectrum/__init__.py:_division_of_data"]}
{"id": "C28", "title": "Direct Fourier power spectrum", "statement": "correlation_par returns, for every frequency, time_step/(N/step) times the real part of the sum over lags and origins of conj(v[j]) v[j+i] exp(i w t_i); it reads only inside the velocity array and returns for every positive step.", "quantifier": "all velocities, frequencies, steps and lengths", "why_tests_cant": "all data; termination and memory bounds for all sizes", "anchors": ["c/correlation.c:EvaluateCorrelation", "c/correlation.c:correlation_par"]}
{"id": "C29", "title": "Maximum entropy spectrum is non-negative and finite", "statement": "mem.mem returns a finite non-negative power for every frequency: the reflection coefficients are at most 1 in absolute value, the mean square discrepancy is non-negative and non-increasing with the order, and the denominator never vanishes when it is used.", "quantifier": "all data, all numbers of coefficients, all frequencies", "why_tests_cant": "stability of a recursion of any order", "anchors": ["c/mem.c:GetCoefficients", "c/mem.c:FrequencyEvaluation", "c/mem.c:MaximumEntropyMethod"]}
{"id": "C30", "title": "Maximum entropy method uses exactly the given data", "statement": "mem.mem only reads inside its input and work arrays, and its result is a function of the whole velocity series it was given.", "quantifier": "all lengths and numbers of coefficients admitted by get_mem_power_spectra", "why_tests_cant": "out-of-bounds reads do not fail a test; all sizes", "anchors": ["c/mem.c:GetCoefficients", "dynaphopy/power_spectrum/__init__.py:get_mem_power_spectra"]}
{"id": "C31", "title": "FFT spectra", "statement": "The FFT power spectra are non-negative, scale with the square of the velocity, do not change when the velocity is multiplied by a phase, and interpolate between computed frequencies without overshooting.", "quantifier": "all data, lengths, resolutions", "why_tests_cant": "all lengths and data", "anchors": ["dynaphopy/power_spectrum/__init__.py:_numpy_power", "dynaphopy/power_spectrum/__init__.py:_fftw_power", "dynaphopy/power_spectrum/__init__.py:_cuda_power", "dynaphopy/power_spectrum/__init__.py:_cupy_power"]}
{"id": "C32", "title": "Full spectrum: silent mode and partials agree", "statement": "get_power_spectrum_full returns the same curve in silent and non-silent mode, equal to the sum over atoms and directions of the single-column spectra, and to the sum over atoms of get_power_spectrum_partials.", "quantifier": "every number of atoms, every algorithm working column by column", "why_tests_cant": "two separately written accumulation loops for all sizes", "anchors": ["dynaphopy/__init__.py:Quasiparticle.get_power_spectrum_full", "dynaphopy/__init__.py:Quasiparticle.get_power_spectrum_partials"]}
{"id": "C33", "title": "Results always reflect the current settings", "statement": "Whatever sequence of setters (wave vector, algorithm, MEM coefficients, frequency limits, resolution, fitting function, band ranges, NAC, atom projection) and getters was called before, each getter returns what a fresh object with the current settings would return.", "quantifier": "every history of setter and getter calls", "why_tests_cant": "unbounded histories over nine mutually dependent caches", "anchors": ["dynaphopy/__init__.py:Quasiparticle.set_reduced_q_vector", "dynaphopy/__init__.py:Quasiparticle.full_clear", "dynaphopy/__init__.py:Quasiparticle.power_spectra_clear", "dynaphopy/__init__.py:Quasiparticle.force_constants_clear", "dynaphopy/__init__.py:Quasiparticle.bands_clear", "dynaphopy/__init__.py:Quasiparticle.set_projection_onto_atom_type"]}
{"id": "C34", "title": "Getters do not change the settings", "statement": "Computing power spectra (with crystal symmetry) or the commensurate-point data leaves the wave vector the user selected, and the spectra getters leave all settings, unchanged.", "quantifier": "every state and every set of equivalent points", "why_tests_cant": "the wave vector is changed and restored inside loops of any length", "anchors": ["dynaphopy/__init__.py:Quasiparticle.get_power_spectrum_phonon", "dynaphopy/__init__.py:Quasiparticle.get_power_spectrum_wave_vector", "dynaphopy/__init__.py:Quasiparticle.get_commensurate_points_data"]}
{"id": "C35", "title": "Settings of two calculations are independent", "statement": "A new Quasiparticle starts from the default settings, and changing a setting of one object does not change the settings of another.", "quantifier": "every interleaving of operations on several objects", "why_tests_cant": "depends on several live objects", "anchors": ["dynaphopy/parameters.py:Singleton", "dynaphopy/parameters.py:Parameters", "dynaphopy/__init__.py:Quasiparticle.__init__"]}
{"id": "C36", "title": "Commensurate-point data", "statement": "get_commensurate_points_data returns one entry per commensurate point, in order; entry i is the fit at point i or a copy of the entry of an earlier symmetry-equivalent point; at the Gamma point the three acoustic frequencies and linewidths are 0.", "quantifier": "every list of commensurate points and every symmetry relation", "why_tests_cant": "loop with skips over lists of any length", "anchors": ["dynaphopy/__init__.py:Quasiparticle.get_commensurate_points_data", "dynaphopy/__init__.py:_vector_in_list"]}
{"id": "C37", "title": "Degenerate sets", "statement": "degenerate_sets(freqs) covers all branches; for the sorted frequencies returned by phonopy the sets are disjoint, and two branches are in the same set iff they are linked by a chain of gaps below the cutoff.", "quantifier": "every frequency list and cutoff", "why_tests_cant": "all lengths and all gap patterns", "anchors": ["dynaphopy/analysis/fitting/__init__.py:degenerate_sets"]}
{"id": "C38", "title": "Degeneracy averaging", "statement": "average_phonon gives all members of a degenerate set the same curve, leaves non-degenerate branches unchanged and conserves the sum of the curves over all branches.", "quantifier": "every spectrum and every partition into degenerate sets", "why_tests_cant": "all partitions", "anchors": ["dynaphopy/analysis/fitting/__init__.py:average_phonon", "dynaphopy/analysis/fitting/__init__.py:phonon_fitting_analysis"]}
{"id": "C39", "title": "Frequency range", "statement": "set_frequency_limits([a,b]) makes get_frequency_range() an evenly spaced grid with the current resolution that starts at a and covers b with an excess below one step; set_spectra_resolution keeps the start, never loses the upper limit, and repeating it changes nothing.", "quantifier": "all limits and resolutions, every sequence of calls", "why_tests_cant": "all reals; repeated application", "anchors": ["dynaphopy/__init__.py:Quasiparticle.set_frequency_limits", "dynaphopy/__init__.py:Quasiparticle.set_spectra_resolution", "dynaphopy/__init__.py:Quasiparticle._set_frequency_range"]}
{"id": "C40", "title": "Thermodynamic identity", "statement": "get_total_energy = get_free_energy + T * get_entropy for the same density of states.", "quantifier": "every temperature > 0, every positive frequency grid, every density of states", "why_tests_cant": "identity between transcendental functions over all reals", "anchors": ["dynaphopy/analysis/thermal_properties.py:get_total_energy", "dynaphopy/analysis/thermal_properties.py:get_free_energy", "dynaphopy/analysis/thermal_properties.py:get_entropy"]}
{"id": "C41", "title": "Heat capacity and entropy are the temperature derivatives", "statement": "get_cv is the derivative of get_total_energy with respect to temperature and get_entropy is minus the derivative of get_free_energy (mode by mode).", "quantifier": "every temperature > 0 and frequency > 0", "why_tests_cant": "derivative identities over all reals", "anchors": ["dynaphopy/analysis/thermal_properties.py:get_cv", "dynaphopy/analysis/thermal_properties.py:get_entropy", "dynaphopy/analysis/thermal_properties.py:get_free_energy", "dynaphopy/analysis/thermal_properties.py:get_total_energy"]}
{"id": "C42", "title": "Heat capacity and entropy bounds", "statement": "For a non-negative density of states every mode contributes between 0 and k_B to get_cv and a non-negative amount to get_entropy; the two entropy formulas get_entropy and get_entropy2 agree.", "quantifier": "every temperature > 0 and frequency > 0", "why_tests_cant": "inequalities over all reals", "anchors": ["dynaphopy/analysis/thermal_properties.py:get_cv", "dynaphopy/analysis/thermal_properties.py:get_entropy", "dynaphopy/analysis/thermal_properties.py:get_entropy2"]}
{"id": "C43", "title": "Free energy correction", "statement": "get_free_energy_correction_dos is zero when both densities of states coincide, changes sign when they are exchanged and is additive.", "quantifier": "all densities of states", "why_tests_cant": "all inputs", "anchors": ["dynaphopy/analysis/thermal_properties.py:get_free_energy_correction_dos"]}
{"id": "C44", "title": "Lorentzian fit parameters mean what is reported", "statement": "For the fitted Lorentzian the reported position is the maximum, the reported width is the full width at half maximum above the base line, the reported maximum is the height above the base line, and the reported area is the integral of the peak over all frequencies.", "quantifier": "all fit parameters with positive half width and area", "why_tests_cant": "all real parameters; an improper integral", "anchors": ["dynaphopy/analysis/fitting/fitting_functions.py:Lorentzian._function", "dynaphopy/analysis/fitting/fitting_functions.py:Lorentzian.get_fitting"]}
{"id": "C45", "title": "Asymmetric Lorentzian reduces to the Lorentzian", "statement": "With zero asymmetry Lorentzian_asymmetric and Lorentzian are the same function and report the same width at the peak; the asymmetric width is positive and bounded by twice the parameter.", "quantifier": "all parameters and frequencies", "why_tests_cant": "all reals", "anchors": ["dynaphopy/analysis/fitting/fitting_functions.py:Lorentzian_asymmetric._function", "dynaphopy/analysis/fitting/fitting_functions.py:Lorentzian_asymmetric._g_a"]}
{"id": "C46", "title": "Accepted fits have a sensible width", "statement": "Whenever a fit is reported as successful (all_good) the linewidth is non-negative; unsuccessful fits contribute position 0 and width 0 and the output lists have one entry per branch.", "quantifier": "every outcome of the optimiser", "why_tests_cant": "depends on optimiser output, which tests cannot enumerate", "anchors": ["dynaphopy/analysis/fitting/fitting_functions.py:Lorentzian.get_fitting", "dynaphopy/analysis/fitting/fitting_functions.py:Damped_harmonic.get_fitting", "dynaphopy/analysis/fitting/__init__.py:phonon_fitting_analysis"]}
{"id": "C47", "title": "Damped harmonic and Gaussian profiles", "statement": "Damped_harmonic is even in frequency with value area-parameter/(a^2 b^2) above the base line at the position, and its reported width tells exactly where the curve is above half of its peak; Gaussian_function integrates to its area parameter.", "quantifier": "all parameters", "why_tests_cant": "all reals; an improper integral", "anchors": ["dynaphopy/analysis/fitting/fitting_functions.py:Damped_harmonic._function", "dynaphopy/analysis/fitting/fitting_functions.py:Gaussian_function._function"]}
{"id": "C48", "title": "LAMMPS reading window", "statement": "read_lammps_trajectory with initial_cut=a, end_cut=b returns exactly frames a..min(b, last) of the file in order, with their own time stamps times the time step, and the same number of time stamps as frames.", "quantifier": "every file, every window", "why_tests_cant": "all windows and file lengths; skip/continue logic", "anchors": ["dynaphopy/interface/iofile/trajectory_parsers.py:read_lammps_trajectory"]}
{"id": "C49", "title": "XDATCAR reading window", "statement": "read_VASP_XDATCAR with initial_cut=a, end_cut=b returns exactly frames a..min(b, last) with matching time stamps, with or without memory mapping.", "quantifier": "every file, every window, memmap on and off", "why_tests_cant": "all windows and file lengths", "anchors": ["dynaphopy/interface/iofile/trajectory_parsers.py:read_VASP_XDATCAR"]}
{"id": "C50", "title": "OUTCAR reading window", "statement": "read_vasp_trajectory with initial_cut=a, end_cut=b returns exactly frames a..min(b, last) with their energies, the lattice vectors, and the times 0, dt, 2 dt, ... with the time step dt (POTIM) of the file.", "quantifier": "every file, every window", "why_tests_cant": "all windows and file lengths", "anchors": ["dynaphopy/interface/iofile/trajectory_parsers.py:read_vasp_trajectory"]}
{"id": "C51", "title": "Reading limit", "statement": "The trajectory parsers never keep more than limit_number_steps frames in memory.", "quantifier": "every file, window and limit", "why_tests_cant": "boundary off by one over all values", "anchors": ["dynaphopy/interface/iofile/trajectory_parsers.py:read_lammps_trajectory", "dynaphopy/interface/iofile/trajectory_parsers.py:read_VASP_XDATCAR", "dynaphopy/interface/iofile/trajectory_parsers.py:read_vasp_trajectory"]}
{"id": "C52", "title": "HDF5 round trip", "statement": "Loading a file written by save_velocity_hdf5 gives the same trajectory, velocity, time and supercell; with a reading window the trajectory, velocity and time are all cut to the window.", "quantifier": "all data and windows", "why_tests_cant": "all lengths and windows", "anchors": ["dynaphopy/interface/iofile/__init__.py:save_data_hdf5", "dynaphopy/interface/iofile/__init__.py:initialize_from_hdf5_file"]}
{"id": "C53", "title": "concath5 concatenates", "statement": "concath5 writes the concatenation of the velocity (and trajectory) of all input files, each without its first N steps, with a time array of the same length.", "quantifier": "every list of files and every N", "why_tests_cant": "any number of files", "anchors": ["scripts/concath5"]}
{"id": "C54", "title": "Automatic atom order is a permutation", "statement": "get_correct_arrangement returns a permutation of the atoms, and for a supercell whose atoms sit at their lattice positions in any order, applying np.argsort(template) to the frames yields the order of get_positions. Whatever the displacements are, each atom is assigned to the atom of the unit cell closest to it, periodic images included.", "quantifier": "every structure, supercell and permutation of the atoms", "why_tests_cant": "all permutations and sizes", "anchors": ["dynaphopy/interface/iofile/__init__.py:get_correct_arrangement", "dynaphopy/interface/iofile/__init__.py:check_atoms_order", "dynaphopy/interface/iofile/trajectory_parsers.py:read_lammps_trajectory"]}
{"id": "C55", "title": "POSCAR round trip", "statement": "Reading back the POSCAR generated for a structure and supercell gives the same elements in the same order, the same cell and the same positions.", "quantifier": "every structure and supercell", "why_tests_cant": "all orders of elements", "anchors": ["dynaphopy/generate_cell.py:generate_VASP_structure", "dynaphopy/interface/iofile/__init__.py:read_from_file_structure_poscar"]}
{"id": "C56", "title": "LAMMPS data file: atom types and masses", "statement": "In the LAMMPS data file every atom line carries a type between 1 and the number of atom types, equal elements have equal types, different elements different types, and the mass listed for that type is the mass of the atom.", "quantifier": "every structure and supercell", "why_tests_cant": "all orders of elements", "anchors": ["dynaphopy/generate_cell.py:generate_LAMMPS_structure"]}
{"id": "C57", "title": "LAMMPS cell is the same crystal", "statement": "The lower triangular LAMMPS cell has the same lengths and angles (the same Gram matrix) as the supercell, the written box bounds and tilts describe that cell, and the rotated positions keep all mutual distances.", "quantifier": "every non-degenerate cell", "why_tests_cant": "identity over all real cells", "anchors": ["dynaphopy/generate_cell.py:generate_LAMMPS_structure"]}
{"id": "C58", "title": "LAMMPS box bounds", "statement": "The cell that read_lammps_trajectory derives from the BOX BOUNDS lines of a dump is the cell LAMMPS used (lx, ly, lz, xy, xz, yz), for orthogonal and triclinic boxes.", "quantifier": "all boxes and tilts of either sign", "why_tests_cant": "sign cases of the tilts, all reals", "anchors": ["dynaphopy/interface/iofile/trajectory_parsers.py:read_lammps_trajectory"]}
{"id": "C59", "title": "LAMMPS frame rotation", "statement": "If the LAMMPS cell is a rotated integer supercell of the structure cell, the parser rotates the cell and all coordinates back: the cell becomes diag(n) times the unit cell and every atom its position in the orientation of the structure.", "quantifier": "every cell, rotation and supercell", "why_tests_cant": "all rotations", "anchors": ["dynaphopy/interface/iofile/trajectory_parsers.py:read_lammps_trajectory"]}
{"id": "C60", "title": "Trajectory format detection", "statement": "get_trajectory_parser returns a parser only if all its keywords occur in the inspected part of the file, the first such parser in the table, and None iff no parser matches.", "quantifier": "all file contents", "why_tests_cant": "all contents", "anchors": ["dynaphopy/interface/iofile/__init__.py:get_trajectory_parser"]}
{"id": "C61", "title": "Input file", "statement": "read_parameters_from_input_file ignores comment lines, keeps the last value given for a keyword, and defaults the structure file to POSCAR.", "quantifier": "all input files", "why_tests_cant": "all sequences of lines", "anchors": ["dynaphopy/interface/iofile/__init__.py:read_parameters_from_input_file"]}
{"id": "C62", "title": "Parameter setters", "statement": "Assigning any property of Parameters makes the corresponding getter return the assigned value and changes no other property.", "quantifier": "every property, every value, every history", "why_tests_cant": "every property and history", "anchors": ["dynaphopy/parameters.py:Parameters"]}
{"id": "C63", "title": "XSF writer", "statement": "write_xsf_file terminates and writes exactly one atom per atom type, in type order.", "quantifier": "every structure", "why_tests_cant": "while loop that only ends if all labels occur", "anchors": ["dynaphopy/interface/iofile/__init__.py:write_xsf_file"]}
{"id": "C64", "title": "Eigenvector arrangement round trip", "statement": "Rearranging phonopy eigenvectors by atoms and directions and flattening them again in get_renormalized_force_constants returns the original eigenvector matrix; mode i keeps its components.", "quantifier": "all sizes", "why_tests_cant": "index arithmetic for all sizes", "anchors": ["dynaphopy/interface/phonopy_link.py:obtain_eigenvectors_and_frequencies", "dynaphopy/interface/phonopy_link.py:get_renormalized_force_constants"]}
{"id": "C65", "title": "Equivalent q-points", "statement": "get_equivalent_q_points_by_symmetry contains the point itself, contains no duplicates, and every returned point is an image of the point under an operation of the crystal; Gamma is only equivalent to itself.", "quantifier": "all operations and points", "why_tests_cant": "all groups and points", "anchors": ["dynaphopy/interface/phonopy_link.py:get_equivalent_q_points_by_symmetry"]}
{"id": "C66", "title": "Band paths", "statement": "Each band segment is sampled with band_resolution+1 evenly spaced points from its start to its end; with double-precision floats every point is within 1e-15 of that for coordinates between -1 and 1 (the last one may miss the end by the last bits).", "quantifier": "all segments and resolutions", "why_tests_cant": "all reals and resolutions", "anchors": ["dynaphopy/interface/phonopy_link.py:obtain_phonon_dispersion_bands"]}
{"id": "C67", "title": "Anisotropic displacement parameters", "statement": "The crystallographic tensor is the displacement covariance in fractional coordinates, is symmetric positive semidefinite, and for an orthogonal cell the 'uvrs' tensor equals the cartesian one.", "quantifier": "all cells and displacement data", "why_tests_cant": "all reals", "anchors": ["dynaphopy/__init__.py:Quasiparticle.get_anisotropic_displacement_parameters"]}
{"id": "C68", "title": "Band reordering is a permutation", "statement": "Reordering the renormalized bands by eigenvector overlap is a permutation of the branches: no branch is duplicated or lost.", "quantifier": "all eigenvectors", "why_tests_cant": "all unitary matrices", "anchors": ["dynaphopy/__init__.py:Quasiparticle.get_renormalized_phonon_dispersion_bands"]}
{"id": "C69", "title": "fitdata uses all rows", "statement": "fitdata analyses every row of the input file, and averages the columns of each requested group.", "quantifier": "all input files and groups", "why_tests_cant": "all files", "anchors": ["scripts/fitdata"]}
{"id": "C70", "title": "Harmonic test trajectory phase", "statement": "generate_test_trajectory with phase_0 gives all phonons that phase and keeps their amplitude.", "quantifier": "all phases", "why_tests_cant": "all reals", "anchors": ["dynaphopy/interface/iofile/__init__.py:generate_test_trajectory"]}
{"id": "C71", "title": "Displacement distributions", "statement": "trajectory_projection collects for each atom type exactly the displacements of the atoms of that type along the normalised direction, (number of atoms of the type) x (number of steps) values, unchanged by rescaling the direction.", "quantifier": "all trajectories, directions and types", "why_tests_cant": "all sizes", "anchors": ["dynaphopy/analysis/coordinates.py:trajectory_projection", "dynaphopy/__init__.py:Quasiparticle.get_atomic_displacements"]}
{"id": "C72", "title": "Python and C displacement routines agree", "statement": "relativize_trajectory_py gives the same displacements as the C routine.", "quantifier": "all cells and trajectories", "why_tests_cant": "all cells; tests use orthogonal cells", "anchors": ["dynaphopy/analysis/coordinates.py:relativize_trajectory_py", "c/displacements.c:atomic_displacements"]}
{"id": "C73", "title": "Changing the trajectory or the quasi-harmonic force constants refreshes the results", "statement": "After crop_trajectory or set_qha_force_constants on a Quasiparticle, the getters return what a new object would return for the cropped trajectory / the new force constants.", "quantifier": "every state of the object and every change of the data", "why_tests_cant": "unbounded histories", "anchors": ["dynaphopy/__init__.py:Quasiparticle.crop_trajectory", "dynaphopy/__init__.py:Quasiparticle.set_qha_force_constants"]}
{"id": "C74", "title": "Occupation number and temperature of a fitted peak", "statement": "The occupation number and the fit temperature reported for a fitted phonon peak obey the Bose-Einstein relation n = 1/(exp(h*frequency/kT)-1) and reproduce the mode energy.", "quantifier": "all positions and areas of the fitted peak", "why_tests_cant": "all reals", "anchors": ["dynaphopy/analysis/fitting/__init__.py:phonon_fitting_analysis"]}
{"id": "C75", "title": "Thermal properties of a quasiparticle", "statement": "get_thermal_properties returns quantities with U = F + T S (free energy, internal energy, entropy) on the corrected spectrum, a density of states normalised to the number of modes, and harmonic values when the renormalised force constants equal the harmonic ones.", "quantifier": "all spectra, temperatures and force constants", "why_tests_cant": "all reals", "anchors": ["dynaphopy/__init__.py:Quasiparticle.get_thermal_properties"]}
{"id": "C76", "title": "LAMMPS columns", "statement": "read_lammps_trajectory takes the coordinates (velocities) from the columns of the dump that the header calls x, y, z (vx, vy, vz).", "quantifier": "all headers", "why_tests_cant": "all column layouts", "anchors": ["dynaphopy/interface/iofile/trajectory_parsers.py:read_lammps_trajectory"]}
{"id": "C77", "title": "XDATCAR scale factor", "statement": "The supercell read from an XDATCAR file is its lattice vectors times its scale factor, as for POSCAR files.", "quantifier": "all files", "why_tests_cant": "all headers", "anchors": ["dynaphopy/interface/iofile/trajectory_parsers.py:read_VASP_XDATCAR"]}
{"id": "C78", "title": "POSCAR reader", "statement": "Reading a POSCAR file, of the old or the new style, gives the cell (scale factor times the vectors), one atom per coordinate line with the element names repeated as counted, and the positions written: direct coordinates as they are, Cartesian ones times the scale factor (VASP's definition).", "quantifier": "all well-formed files", "why_tests_cant": "all sizes, counts and scale factors", "anchors": ["dynaphopy/interface/iofile/__init__.py:read_from_file_structure_poscar"]}
{"id": "C79", "title": "LAMMPS dumps keep distances", "statement": "The transformation that read_lammps_trajectory applies to the coordinates keeps all distances between atoms.", "quantifier": "every structure cell and every box of the dump", "why_tests_cant": "all cells", "anchors": ["dynaphopy/interface/iofile/trajectory_parsers.py:read_lammps_trajectory"]}
{"id": "C80", "title": "Band path of the input file", "statement": "A BANDS section of the input file defines exactly the segments written in it, in order, whatever section follows it.", "quantifier": "all input files with a BANDS section", "why_tests_cant": "all sequences of lines and orders of sections", "anchors": ["dynaphopy/interface/iofile/__init__.py:read_parameters_from_input_file"]}
{"id": "C81", "title": "Command line options", "statement": "Each option of the dynaphopy command sets the parameter it documents (--silent, --MD_commensurate, --nac, --symprec, --fcsymm: symmetrize force constants, --save_renormalized_frequencies), and the other parameters are those of the input file.", "quantifier": "all values of the options and input files", "why_tests_cant": "all combinations", "anchors": ["scripts/dynaphopy", "dynaphopy/parameters.py:Parameters"]}
{"id": "C82", "title": "Atom types by element", "statement": "After set_atom_type_index_by_element two atoms have the same type iff they are the same element.", "quantifier": "all lists of atoms", "why_tests_cant": "all lists", "anchors": ["dynaphopy/atoms.py:Structure.set_atom_type_index_by_element"]}
{"id": "C83", "title": "Renormalized force constants keep the renormalized frequencies", "statement": "At every commensurate point the dynamical matrix from which get_renormalized_force_constants builds the force constants is Hermitian and has exactly the renormalized frequencies with the harmonic eigenvectors; with unchanged frequencies it is the harmonic dynamical matrix.", "quantifier": "all frequencies (including imaginary), eigenvectors and numbers of atoms", "why_tests_cant": "all unitary matrices and reals", "anchors": ["dynaphopy/interface/phonopy_link.py:get_renormalized_force_constants", "dynaphopy/interface/phonopy_link.py:obtain_eigenvectors_and_frequencies"]}
{"id": "C84", "title": "LOESS smoothing keeps straight lines", "statement": "fitdata --smooth returns straight-line data unchanged, for every set of points and smoothing factor for which the smoothing is defined. A smoothed value is defined exactly if another point lies strictly inside the window of its point; for evenly spaced points all are defined exactly if the window (factor times number of points, rounded up) is at least 3 and less than the number of points.", "quantifier": "all data and factors", "why_tests_cant": "all reals", "anchors": ["scripts/fitdata"]}
{"id": "C85", "title": "LAMMPS trajectories: order of the atoms, times, commands", "statement": "In the trajectory returned by generate_lammps_trajectory, row k of every frame (positions, velocities) is the atom recognised as row k of the structure's supercell, whatever the internal order of LAMMPS; frame i has time i*time_step*sampling_interval and its own energy, the number of frames is the largest that fits into total_time, and the cell is the box of LAMMPS.", "quantifier": "every LAMMPS run, every internal order of the atoms in every frame, all times and intervals", "why_tests_cant": "the internal order changes unpredictably during a run", "anchors": ["dynaphopy/interface/lammps_link.py:generate_lammps_trajectory"]}
{"id": "C86", "title": "Temperature from the velocities", "statement": "get_temperature returns the temperature of the equipartition theorem for the velocities of the trajectory (or the one given to set_temperature, once set), is the same on every later call, and leaves the parameters as they were. The printed numbers belong together: average squared plus deviation squared is three times Boltzmann's constant times the temperature; at least 8/9 of the data lie on the velocity axis of the plot.", "quantifier": "all trajectories, masses and call histories", "why_tests_cant": "a maximum-likelihood identity over all data, and call histories", "anchors": ["dynaphopy/analysis/energy.py:boltzmann_distribution", "dynaphopy/__init__.py:Quasiparticle.get_temperature", "dynaphopy/__init__.py:Quasiparticle.set_temperature"]}
{"id": "C87", "title": "Scan of the number of MEM coefficients", "statement": "mem_coefficient_scan_analysis reports, for each phonon, the numbers of the accepted fit with the smallest error, all of the same number of coefficients; points without a spectrum or a good fit are left out; the estimated width lies between the smallest and the largest accepted width.", "quantifier": "all scan ranges, spectra and fit results", "why_tests_cant": "all sequences of failures", "anchors": ["dynaphopy/power_spectrum/__init__.py:mem_coefficient_scan_analysis"]}
{"id": "C88", "title": "Distribution of atomic displacements", "statement": "get_atomic_displacements returns for each atom type a probability density over bins that cover all samples, and write_atomic_displacements writes it against displacements that belong to the bins.", "quantifier": "all trajectories, directions and numbers of bins", "why_tests_cant": "all data, including data on bin edges", "anchors": ["dynaphopy/__init__.py:Quasiparticle.get_atomic_displacements", "dynaphopy/__init__.py:Quasiparticle.write_atomic_displacements", "dynaphopy/__init__.py:Quasiparticle.plot_trajectory_distribution"]}
{"id": "C89", "title": "Arrows of the phonon modes", "statement": "The arrow plot_phonon_modes draws on each atom is the displacement of that atom in the mode: the real part of its eigenvector times exp(i q r), divided by the root of its mass, times the scale.", "quantifier": "all structures, eigenvectors, wave vectors and scales", "why_tests_cant": "all numbers of atoms and types", "anchors": ["dynaphopy/analysis/modes.py:plot_phonon_modes"]}
{"id": "C90", "title": "Forces used by phonopy", "statement": "Every phonopy calculation on a structure uses forces and a supercell matrix that belong together and that the user gave (force constants if there are any, else force sets); the forces set last are used; force constants passed as an argument are used with their own supercell and leave the structure alone; force sets are refused exactly if their number of atoms is not that of the supercell; get_qha_shift uses the quasi-harmonic force constants and leaves the structure's forces alone.", "quantifier": "all histories of set_force_constants, set_force_set and calculations; all supercell matrices", "why_tests_cant": "depends on the whole call history (produced force constants are stored in the structure)", "anchors": ["dynaphopy/atoms.py:Structure.get_supercell_phonon", "dynaphopy/atoms.py:Structure.get_force_sets", "dynaphopy/atoms.py:Structure.set_force_constants", "dynaphopy/interface/phonopy_link.py:get_phonon", "dynaphopy/__init__.py:Quasiparticle.get_qha_shift"]}
{"id": "C91", "title": "Normalisation to the unit cell", "statement": "obtain_phonopy_dos returns a density of states of 3N states for the N atoms of the unit cell (phonopy: primitive cell), projections add up to the total, atom indices outside the primitive cell are refused; obtain_phonopy_thermal_properties returns phonopy's values at exactly the temperature asked for, per unit cell.", "quantifier": "all unit and primitive cells, spectra, quadratures, temperatures", "why_tests_cant": "must hold for all ratios of unit cell and primitive cell and all spectra", "anchors": ["dynaphopy/interface/phonopy_link.py:obtain_phonopy_dos", "dynaphopy/interface/phonopy_link.py:obtain_phonopy_thermal_properties"]}
{"id": "C92", "title": "Commensurate points of a structure", "statement": "Structure.get_commensurate_points(supercell) returns exactly the wave vectors of the first zone that are periodic in the supercell, each once.", "quantifier": "all supercells and primitive matrices", "why_tests_cant": "unbounded supercell sizes; rounding to five decimals loses points only for some sizes", "anchors": ["dynaphopy/atoms.py:Structure.get_commensurate_points"]}
{"id": "C93", "title": "Band structure data", "statement": "In the data of get_renormalized_phonon_dispersion_bands each segment has its own bounds and labels, branch by branch the shift is renormalized minus harmonic and the linewidth upper minus lower at the same wave vector; connecting the segments makes every branch continuous and only renumbers branches; print_phonon_dispersion_bands prints the bands.", "quantifier": "all paths, any number of segments, points, branches; all eigenvectors", "why_tests_cant": "unbounded number of segments, the renumbering of one segment depends on all before", "anchors": ["dynaphopy/__init__.py:Quasiparticle.get_renormalized_phonon_dispersion_bands", "dynaphopy/__init__.py:Quasiparticle.print_phonon_dispersion_bands", "dynaphopy/interface/iofile/__init__.py:save_bands_data_to_file"]}
{"id": "C94", "title": "Quasiparticle and mesh files", "statement": "Each entry of the file written by write_quasiparticles_data (write_mesh_data) has the wave vector, frequencies, linewidths and shifts of the same commensurate (mesh) point, one entry per point; group velocities are in the file exactly if with_extra is given.", "quantifier": "all histories of files written and of changes of use_MD_cell_commensurate, all sets of points", "why_tests_cant": "depends on the call history: the cached data is changed in place", "anchors": ["dynaphopy/__init__.py:Quasiparticle.write_quasiparticles_data", "dynaphopy/__init__.py:Quasiparticle.get_commensurate_points_properties", "dynaphopy/interface/iofile/__init__.py:save_quasiparticle_data_to_file", "dynaphopy/interface/iofile/__init__.py:save_mesh_data_to_yaml_file"]}
{"id": "C95", "title": "Quasiparticle file read by rfc_calc", "statement": "rfc_calc finds, for every commensurate point, the frequencies that write_quasiparticles_data wrote for it.", "quantifier": "all sets of commensurate points and frequencies", "why_tests_cant": "equality of printed and computed decimals fails only for some points", "anchors": ["scripts/rfc_calc:get_renormalized_constants", "dynaphopy/interface/iofile/__init__.py:save_quasiparticle_data_to_file"]}
{"id": "C96", "title": "Temperature and volume dependent frequencies (qha_quasiparticle)", "statement": "At the reference temperature and a volume of the list the total frequencies are those of the file of that volume; away from it they change with the fitted temperature shift; interpolate_volume interpolates; options with a default can be omitted; temperatures and volumes are paired correctly.", "quantifier": "all sets of data files, temperatures, volumes, orders and options", "why_tests_cant": "quantifies over all data sets and over every fit that numpy may return; a test has one set of files", "anchors": ["scripts/qha_quasiparticle.py:ForceConstantsFitting", "scripts/qha_quasiparticle.py:QuasiparticlesQHA"]}
{"id": "C97", "title": "Data alignment in qha_extract", "statement": "Energies, thermal properties and force constants of the different volumes are used with their own volume, whatever the order of the rows of the volume-energy file and of the files.", "quantifier": "all volume-energy files, thermal properties files and force constants files", "why_tests_cant": "the sample data are sorted; misalignment appears only for other orders", "anchors": ["scripts/qha_extract"]}
{"id": "C98", "title": "Results and settings in the text menus", "statement": "In an interactive session, whatever keys and lines are typed, every result shown or plotted is the one a new calculation with the settings shown on the screen would give; the choices of algorithm and fitting function are always among those offered; each key does what its menu says; the program ends with 0 in the main menu; the list of frequencies shows each frequency once, numbered in order (VIOLATED: the program stops with an error if the list does not fit on the screen, e.g. 20 atoms and 24 lines).", "quantifier": "all sequences of characters typed, all initial settings, all trajectories", "why_tests_cant": "stale results appear only for particular orders of menu options; the number of sessions is unlimited", "anchors": ["dynaphopy/interface/interactive_ui.py:interactive_interface", "dynaphopy/interface/interactive_ui.py:get_param", "dynaphopy/interface/interactive_ui.py:list_on_screen", "dynaphopy/__init__.py:set_reduced_q_vector"]}
{"id": "C99", "title": "Structure read from an OUTCAR file", "statement": "Reading the structure from a VASP OUTCAR file returns the lattice vectors (as rows), the cartesian positions of all ions in the order of the file, and for each ion the mass of its type as listed with the ions per type, whatever other text the file contains between these parts.", "quantifier": "all OUTCAR files: any text between the parts, any number of types and ions", "why_tests_cant": "the reader looks for keywords from the current position in a large text; sample files show one layout only", "anchors": ["dynaphopy/interface/iofile/__init__.py:read_from_file_structure_outcar"]}
{"id": "C100", "title": "A fit object answers consistently", "statement": "Whatever calls are made on a fit object (get_fitting_parameters, get_fitting, get_curve), and in whatever order, each is answered as on a new object with the same data, and the optimiser converges at most once. The drawn curve is the one determined by the reported position, width, maximum or area and base line; the reported maximum is its height at the reported position; a fit that does not converge is always reported as unsuccessful. Branches are fitted starting from the frequency and height of the highest point.", "quantifier": "all histories of calls, all outcomes of the optimiser, all spectra", "why_tests_cant": "histories of a caching object and all outcomes of an external optimiser", "anchors": ["dynaphopy/analysis/fitting/fitting_functions.py:Lorentzian", "dynaphopy/analysis/fitting/fitting_functions.py:Lorentzian_asymmetric", "dynaphopy/analysis/fitting/fitting_functions.py:Damped_harmonic", "dynaphopy/analysis/fitting/fitting_functions.py:Gaussian_function", "dynaphopy/analysis/fitting/__init__.py:phonon_fitting_analysis"]}
{"id": "C101", "title": "Meaning of the reported width", "statement": "The width of an accepted fit is the full width at half maximum of the curve that is drawn, above its base line, whatever spectral function is selected; for the Gaussian fitted to displacement distributions position and width are its mean and standard deviation.", "quantifier": "all parameters the optimiser may return", "why_tests_cant": "all real parameters; improper integrals", "anchors": ["dynaphopy/analysis/fitting/fitting_functions.py:Lorentzian.get_fitting", "dynaphopy/analysis/fitting/fitting_functions.py:Lorentzian_asymmetric.get_fitting", "dynaphopy/analysis/fitting/fitting_functions.py:Damped_harmonic.get_fitting", "dynaphopy/analysis/fitting/fitting_functions.py:Gaussian_function.get_fitting"]}
{"id": "C102", "title": "Results of the command line program", "statement": "On the command line every option takes effect in place of the value of the input file, wherever it stands; the program stops before any result exactly if the fitting function, atom type or algorithm does not exist. There is one result per request, each the value for the settings asked for, whatever else is requested. The plot of the full power spectrum shows the renormalized density of states exactly if -sfc or the renormalized bands are also asked for.", "quantifier": "all option combinations, input settings with a valid frequency range, and numerical routines", "why_tests_cant": "two dozen options can be combined in millions of ways, and results are cached between the calls; tests run one option at a time", "anchors": ["scripts/dynaphopy: Set Parameters ... args.average (297-410)", "dynaphopy/__init__.py: Quasiparticle"]}
{"id": "C103", "title": "Projection onto normal modes", "statement": "If the mass weighted velocities are a superposition of phonon modes of the crystal at wave vectors commensurate with the MD cell, the phonon projection returns exactly the amplitude of each mode (in particular nothing for the absent ones); conversely every velocity is the superposition of its projections, and the squared amplitudes of all modes sum up to twice the kinetic energy.", "quantifier": "all crystals (also with several primitive cells per unit cell), supercells, complete sets of commensurate wave vectors, orthonormal eigenvectors, amplitudes and velocities", "why_tests_cant": "tests compare spectra of one structure with stored numbers; mixing between modes or a wrong normalisation for one supercell shape passes", "anchors": ["dynaphopy/projection.py: project_onto_wave_vector, project_onto_phonon", "dynaphopy/__init__.py: get_vc, get_vq, get_q_vector", "dynaphopy/atoms.py: get_positions, get_atom_type_index"]}
{"id": "C104", "title": "Mode spectra sum up to the full spectrum", "statement": "With the direct Fourier method, at every frequency the phonon spectra of all modes at all commensurate wave vectors sum up to the full power spectrum, and so do the wave-vector projected spectra.", "quantifier": "all trajectories, crystals, supercells, eigenvectors, frequencies, correlation steps and both integration methods", "why_tests_cant": "a double counted or missing wave vector or branch changes total spectra by a few percent and no test sums them", "anchors": ["c/correlation.c: correlation_par, EvaluateCorrelation", "dynaphopy/__init__.py: get_power_spectrum_full, get_power_spectrum_wave_vector, get_power_spectrum_phonon", "dynaphopy/projection.py"]}
{"id": "C105", "title": "Spectra are calculated column by column", "statement": "Every spectrum function returns one row per frequency and one entry per column of the velocity matrix, and the entry depends only on that column, not on its place or on the other columns. Maximum entropy spectra are refused exactly when there are not at least two more time steps than coefficients, unknown algorithms always; otherwise direct Fourier, maximum entropy and fast Fourier transforms return for every matrix, and the last two are non-negative. Numpy and CuPy warn exactly when the requested resolution is finer than the length of the data allows.", "quantifier": "all matrices of velocities, algorithms, frequency ranges and parameters", "why_tests_cant": "an index slip shows only for particular shapes, and a refusal or warning at the wrong size only at the boundary", "anchors": ["dynaphopy/power_spectrum/__init__.py: get_fourier_direct_power_spectra, get_mem_power_spectra, get_fft_numpy_spectra, get_fft_fftw_power_spectra, get_fft_cuda_power_spectra, get_fft_cupy_spectra, power_spectrum_functions"]}
{"id": "C106", "title": "Spectra do not depend on arbitrary choices", "statement": "Multiplying the velocities by a factor multiplies the spectra by its squared absolute value; multiplying eigenvectors by phases leaves the phonon spectra unchanged; mixing degenerate eigenvectors by a unitary matrix leaves the sum of the spectra over the degenerate set unchanged.", "quantifier": "all trajectories, eigenvectors, phases, unitary mixings, frequencies and algorithms", "why_tests_cant": "eigenvector phases and mixings differ between runs, libraries and machines; a test sees one of them", "anchors": ["dynaphopy/power_spectrum/__init__.py: power_spectrum_functions", "c/mem.c: MaximumEntropyMethod", "c/correlation.c", "dynaphopy/projection.py: project_onto_phonon"]}
{"id": "C107", "title": "Zero padding refines the FFT resolution", "statement": "The zero_padding parameter extends the data of the FFT methods and so refines their resolution, as the resolution check assumes.", "quantifier": "all matrices, algorithms and paddings", "why_tests_cant": "the warning text is the only visible effect", "anchors": ["dynaphopy/power_spectrum/__init__.py: get_fft_numpy_spectra, get_fft_cupy_spectra, _numpy_power"]}
{"id": "C108", "title": "A pure oscillation shows up at its frequency", "statement": "The power spectrum of a velocity A exp(2 pi i f t) has its maximum at the requested frequency f (with its sign, if f is on the Fourier grid of the pieces), with a height that only depends on |A|, the time step and the number of samples per piece. In a crystal moving in a superposition of normal modes, the spectrum of every mode peaks at the frequency of that mode, whatever the other modes do, and a mode that is not excited has no spectrum.", "quantifier": "all amplitudes, frequencies, numbers of steps, time steps, frequency ranges, divisions into pieces and algorithms; all crystals, supercells and superpositions of modes", "why_tests_cant": "tests compare the spectra of one trajectory with stored numbers; a shift of the frequency axis, a leak between modes or a length dependent normalisation can pass", "anchors": ["dynaphopy/power_spectrum/__init__.py: _numpy_power, get_fft_numpy_spectra, power_spectrum_functions", "c/correlation.c: EvaluateCorrelation", "c/mem.c: FrequencyEvaluation", "dynaphopy/projection.py"]}
{"id": "C109", "title": "Labels of the plots", "statement": "The dispersion plots have a tick at the start of every segment and at the end of the last one; the outer ticks show the first and last name, an inner tick both names of a jump separated by a slash, or one name if they agree; GAMMA is shown as the Greek letter and every other name unchanged; with too few names the plot fails instead of showing wrong ones. The element named for a projection onto an atom type is that of all atoms of this type.", "quantifier": "all lists of names, numbers of segments and points, all atom types and structures", "why_tests_cant": "tests do not look at plots; an off by one in the names only shows for paths with jumps", "anchors": ["dynaphopy/__init__.py: plot_phonon_dispersion_bands, plot_renormalized_phonon_dispersion_bands, plot_linewidths_and_shifts_bands, replace_list, get_vc", "dynaphopy/atoms.py: get_atomic_elements"]}
{"id": "C110", "title": "Plots and files of the projections", "statement": "The plots of the projected velocities, of the trajectory and of the velocity show the value of every step at the time of that step, for exactly the chosen atoms and coordinates; the files of the projections have one line per step with the three components of the chosen atom, or with all the modes, and an atom that does not exist is refused.", "quantifier": "all numbers of steps, time steps, projections, selections of atoms and coordinates", "why_tests_cant": "a shifted or stretched time axis is invisible for one plot and grows with the number of steps only relatively", "anchors": ["dynaphopy/__init__.py: plot_vq, plot_vc, save_vc, save_vq, plot_trajectory, plot_velocity"]}
{"id": "C111", "title": "Numbers written to a file are read back to the printed precision", "statement": "The numbers in the files that the program writes are read back by its readers to the printed precision, whatever the width of the fields and the white space around them: a whole number exactly; a number with fixed decimals to half a unit of its last digit, exactly if it has no more decimals, and unchanged when written and read again; a number in exponential form to half a unit of its last digit relative to its size. The words of a line come back one by one whatever white space separates them. A field that is not a number is refused, never misread.", "quantifier": "all numbers, widths, numbers of decimals, and amounts of white space", "why_tests_cant": "tests write a few numbers of ordinary size; rounding up to the next power of ten, tiny and huge numbers and numbers wider than their field are not tried", "anchors": ["dynaphopy/generate_cell.py: generate_VASP_structure, generate_LAMMPS_structure", "dynaphopy/interface/iofile/__init__.py: write_curve_to_file, read_from_file_structure_poscar", "scripts/fitdata"]}
{"id": "C112", "title": "Spectra files are read back completely", "statement": "A spectrum written to a text file and analysed with fitdata is the spectrum that was calculated: all rows are there and in order, frequencies to four decimals and different if they were different, and for every group of columns given with -bi the mean of these columns to ten digits; the groups are the ones typed, however they are split into shell words.", "quantifier": "all spectra (any number of rows and columns), all groups", "why_tests_cant": "the writer and the reader are in different programs and are not tested together; a text file is read for every size and sign of the numbers", "anchors": ["dynaphopy/interface/iofile/__init__.py: write_curve_to_file", "scripts/fitdata"]}
{"id": "C113", "title": "An input file is read completely", "statement": "An input file made of sections (structure files, force files, matrices, bands, mesh), comments and other lines, in any order and repeated any number of times, is read without error, and the parameters are exactly those its sections set: the last section of each kind counts, a kind that does not occur keeps its default, matrices, segments and labels are in the order written. (The line after a list of segments must be neither a further line with a colon nor MESH PHONOPY: see C80.)", "quantifier": "all input files: any number, order and repetition of sections, any spacing and form of the numbers", "why_tests_cant": "the reader works line by line with substring tests and a loop that changes the loop variables; only all orders and texts together show that sections do not disturb each other", "anchors": ["dynaphopy/interface/iofile/__init__.py: read_parameters_from_input_file"]}
{"id": "C114", "title": "The LAMMPS data file describes the crystal", "statement": "The text of the LAMMPS data file written for a structure, read by the rules of LAMMPS (first line skipped, blank lines ignored, header lines by their keywords, sections Masses and Atoms), is the same crystal to ten decimals: the number of atoms and of elements, a box and positions that are the cell and positions of the structure turned by one and the same rotation (with an inversion for a left-handed cell), atoms in the order of the structure numbered from 1, types that agree exactly for atoms of the same element and are declared in the Masses section with the mass of that element, and the charges if there are any.", "quantifier": "all structures: any number of atoms, order and repetition of elements, any non-singular cell (left- or right-handed, any skew), with or without charges", "why_tests_cant": "the sections refer to each other (types, masses, counts, rotated positions and box computed from different formulas), so the file is right only if all of them agree for every cell and every order of the elements", "anchors": ["dynaphopy/generate_cell.py: generate_LAMMPS_structure"]}
{"id": "C115", "title": "Spectra do not depend on the scheduling of the threads", "statement": "The parallel loops over the frequencies of the direct Fourier and maximum entropy routines give exactly the spectrum of the sequential program, for every number of threads, every distribution of the frequencies among the threads, every interleaving of their instructions, and whatever was in the private variables and in the uninitialised result array before. Two threads never use the same element of the result, no schedule gets stuck, and all schedules end.", "quantifier": "all teams of threads (any number), all assignments of iterations, all interleavings of single instructions, all inputs, all contents of uninitialised memory", "why_tests_cant": "a test sees one schedule of one machine; a shared temporary would show up only under rare interleavings", "anchors": ["c/mem.c: MaximumEntropyMethod", "c/correlation.c: correlation_par"]}
{"id": "C116", "title": "A saved projected velocity gives the spectra of the calculation that wrote it", "statement": "The file of projected velocities (save_vc_hdf5), written by a calculation after any history of settings and calls, and loaded by another run of the program with any settings and any later calls that keep the wave vector, gives the projected velocity, phonon-projected velocity, phonon spectra and wave-vector spectrum that a new calculation from the trajectory gives with the current settings of the later run, the wave vector and atom projection of the run that wrote it, and no symmetry. The later run never needs a trajectory for them. Time stamps and supercell come back exactly; with -n the later run uses exactly the last n frames of the file.", "quantifier": "all histories before the save, all settings and all histories of calls after the load, all crystals with a diagonal supercell, all frame counts", "why_tests_cant": "the caches of the writing and of the reading calculation can be in any state; a test tries a few orders of calls", "anchors": ["dynaphopy/__init__.py: Quasiparticle.save_vc_hdf5, crop_trajectory, __init__", "dynaphopy/interfaces/iofile/__init__.py: initialize_from_hdf5_file", "scripts/dynaphopy: 288-297"]}
{"id": "C117", "title": "The C routines access only their own memory and give it back", "statement": "For every input the C routines behind relative displacements, the direct Fourier spectrum and the maximum entropy spectrum access only arrays they own, inside their bounds, never after giving them back, never give one back twice, leave everything else in memory unchanged, and return exactly the values of their mathematical description; after the call only the returned array is left. VIOLATED in the last part: each call keeps memory nobody can reach, exactly 2n+2 blocks (2N+2n\u00b2+n numbers) per atom for the displacements, the two input arrays for the direct spectrum, and the copy of the imaginary part plus three work arrays per abandoned fit for maximum entropy.", "quantifier": "all states of the memory before the call, all numbers of frames, dimensions, atoms, frequencies and coefficients, all values", "why_tests_cant": "memory errors depend on sizes and values and often have no visible effect in a test; leaks show only in long runs", "anchors": ["c/displacements.c: atomic_displacements, Determinant, CoFactor, matrix_inverse, matrix_multiplication", "c/correlation.c: correlation_par", "c/mem.c: MaximumEntropyMethod, GetCoefficients, FrequencyEvaluation", "dynaphopy/dynamics.py: Dynamics.get_relative_trajectory"]}
{"id": "C118", "title": "The tables printed on the screen show the values that are returned", "statement": "Each table printed by the Python interface (average positions, anisotropic displacement parameters, thermal properties, fitted peaks) has one row (or block) per atom, quantity or branch, in order, and each row shows, with the right element, label and unit and to the printed number of decimals, the values that the same call computes or returns; a peak whose fit failed prints one warning with its number and gives zeros. VIOLATED by the order of the displacement parameters: rows are grouped by type, so row i need not belong to atom i of the cell.", "quantifier": "all numbers of atoms, branches and types, all symbols without blanks, all real values, with and without occupancies, asymmetries and thermal expansion", "why_tests_cant": "the printed columns are chosen by hand-written argument positions; tests compare returned arrays and no test parses the output", "anchors": ["dynaphopy/__init__.py: Quasiparticle.get_average_atomic_positions, get_anisotropic_displacement_parameters, display_thermal_properties", "dynaphopy/analysis/fitting/__init__.py: phonon_fitting_analysis"]}
{"id": "C119", "title": "Quasi-harmonic script: data given to PhonopyQHA and results at constant pressure", "statement": "The object that fits the quasiparticle data returns, after any sequence of calls, what a new object would return. The arrays given to PhonopyQHA hold, in the row of each temperature and the column of each volume, the thermal properties at that temperature for the frequencies at that temperature and volume, with the volumes and energies of the -ev file; the files saved give the same input when loaded. The volume at a temperature is interpolated linearly between the equilibrium volumes, and the shifts at constant pressure pair each temperature with its own volume and the wave vector asked for. VIOLATED by the option names (files given as documented, -cv_data at constant volume and -ct_data at constant temperature, are exchanged) and by the public attribute ref_temperature (ignored once the volume shifts are cached).", "quantifier": "all data sets, numbers of temperatures, volumes, wave vectors and branches, all sequences of calls, all behaviours of phonopy, polyfit and interp1d (whose errors depend only on the abscissae)", "why_tests_cant": "alignment of three nested loops and transposes with caches; the script has no tests and depends on the order of calls", "anchors": ["scripts/qha_quasiparticle.py: ForceConstantsFitting (get_temperature_range, get_shift_matrix_temperature, get_fitted_shifts_temperature, get_shift_matrix_volume, get_total_shifts, get_total_force_constants, get_thermal_properties)", "scripts/qha_quasiparticle.py: QuasiparticlesQHA.__init__, get_volume_at_temperature, get_total_shift_constant_pressure"]}
{"id": "C120", "title": "Interrupted, repeated and simultaneous runs", "statement": "A run of the command line program touches only the files its options name for results, whatever moment it is killed at: the files written before that moment are complete, at most the one being written is not, the others are as before. The files of a finished run hold the texts of the results asked for and do not depend on earlier runs in the directory, finished or interrupted; repeating an interrupted run gives the directory of an uninterrupted one. Simultaneous runs that do not write each other's files give, in any interleaving, the files they give alone.", "quantifier": "all options and file names, all contents of the directory and of the input files, all moments of interruption, all histories of commands, all interleavings of any number of processes", "why_tests_cant": "needs all crash points, histories and interleavings; tests run one command to its end", "anchors": ["scripts/dynaphopy", "dynaphopy/interface/iofile/__init__.py:write_curve_to_file", "dynaphopy/interface/iofile/__init__.py:save_data_hdf5", "dynaphopy/__init__.py:Quasiparticle.write_quasiparticles_data", "dynaphopy/__init__.py:Quasiparticle.get_commensurate_points_data"]}
{"id": "C121", "title": "The FFT algorithms agree", "statement": "Whichever FFT algorithm is selected (Numpy, FFTW, CUDA, CuPy), the spectra returned for the same data, frequencies and time step are the same, provided the library used computes the autocorrelation, the discrete Fourier transform and the sorting order it documents: one spectrum for each column, one value for each frequency asked for. All of them end for the same data. When the resolution asked for is not available the user is told so and told the largest available one.", "quantifier": "all four algorithms, all libraries computing what they document (whatever algorithm they use), all columns of data, all frequency ranges with increasing first frequencies, positive time steps", "why_tests_cant": "tests can compare two libraries that are installed on some data; this ranges over all data and all libraries that meet their documentation", "anchors": ["dynaphopy/power_spectrum/__init__.py:get_fft_numpy_spectra", "dynaphopy/power_spectrum/__init__.py:get_fft_fftw_power_spectra", "dynaphopy/power_spectrum/__init__.py:get_fft_cuda_power_spectra", "dynaphopy/power_spectrum/__init__.py:get_fft_cupy_spectra"]}
{"id": "C122", "title": "One system of units", "statement": "Energies, temperatures and frequencies reported by different parts of the program refer to the same constants: the occupation numbers of the thermal properties and of the peaks agree, the Boltzmann constant is the same for velocities, test trajectories and molar quantities; an oscillator gets from its power spectrum (in eV ps) the kinetic energy and, in the classical limit, the temperature that it gets from its velocities.", "quantifier": "all temperatures, frequencies, mean square velocities, data and time steps", "why_tests_cant": "a statement about all data; tests with one trajectory compare numbers within the statistical error of a few percent", "anchors": ["dynaphopy/power_spectrum/__init__.py:unit_conversion", "dynaphopy/analysis/fitting/__init__.py:phonon_fitting_analysis", "dynaphopy/analysis/energy.py:boltzmann_distribution", "dynaphopy/analysis/thermal_properties.py", "dynaphopy/interface/iofile/__init__.py:generate_test_trajectory"]}
{"id": "C123", "title": "The drawing of a phonon mode shows the cell and the atoms", "statement": "plot_phonon_modes draws the twelve edges of the cell, each once, and every atom once, at its position, with the size of its element and with the colour that the legend gives to its element; the legend lists every element of the structure exactly once, in alphabetical order, and tells the elements apart. VIOLATED by the code for: more than seven elements (colours repeat), elements of atomic number above 109 and the unknown element X (the drawing stops with an error), elements without a tabulated radius (size 0, invisible), and by_element=False (the legend uses the type as the number of an atom).", "quantifier": "every cell, every list of positions and elements, any number of atoms", "why_tests_cant": "the legend must be right for every structure; a test draws one crystal with one or two elements, for which colours never repeat and every radius is known", "anchors": ["dynaphopy/analysis/modes.py:plot_phonon_modes", "dynaphopy/analysis/modes.py:atom_radius"]}
{"id": "C124", "title": "The harmonic test trajectory is a motion of the crystal", "statement": "For every crystal whose phonons (frequencies and eigenvectors at all commensurate wave vectors) are given, the trajectory of generate_test_trajectory is sampled at 0, dt, 2dt, ... up to total_time, every atom obeys Newton's equation m x'' = -sum K u with the force constants K that have these phonons, the sum of kinetic and potential energy does not change in time, each phonon above minimum_frequency has the same energy, and the projection of the mass weighted velocities onto a phonon (what the analysis does) oscillates with the frequency of this phonon and with an amplitude that is the same for all phonons; phonons below the minimum frequency do not appear. The same holds in all but the first and the last frame for the velocities that the program calculates from the coordinates, where the amplitude is reduced by sin(2 pi f dt)/(2 pi f dt). VIOLATED by the code: the energy reported for the frames is not the energy of the crystal (in three dimensions the crystal has 3/2 of it, so it moves as at 3/2 of the temperature asked for), and in double precision there may be one frame more than total_time/dt.", "quantifier": "every crystal, supercell, set of force constants with stable phonons, temperature, phase, time step and total time", "why_tests_cant": "the equations of motion must hold for every atom at every time and for every crystal; a test compares one trajectory with stored numbers", "anchors": ["dynaphopy/interface/iofile/__init__.py:generate_test_trajectory"]}
{"id": "C125", "title": "Frequencies and linewidths on a mesh belong to the same phonon", "statement": "get_mesh_frequencies_and_linewidths returns for every wave vector of the mesh one row of frequencies and one row of linewidths; at a wave vector that is a commensurate point these are exactly the renormalized frequencies and the linewidths of that point, and equal positions of the two rows belong to the same phonon, so that the points drawn by plot_frequencies_vs_linewidths (and the branches of the mesh file) are (frequency, linewidth) pairs of phonons. VIOLATED by the code: both rows are sorted independently; the pairs are right exactly if a phonon of higher frequency never has a smaller linewidth.", "quantifier": "every crystal, mesh, set of frequencies, eigenvectors and linewidths", "why_tests_cant": "the pairing must hold for every order of the linewidths; for a test crystal with one atom or linewidths growing with frequency the error is invisible", "anchors": ["dynaphopy/__init__.py:Quasiparticle.get_mesh_frequencies_and_linewidths", "dynaphopy/__init__.py:Quasiparticle.plot_frequencies_vs_linewidths", "dynaphopy/interface/phonopy_link.py:obtain_phonopy_mesh_from_force_constants"]}
{"id": "C126", "title": "Integrals over the frequencies", "statement": "The integrals over the frequencies (areas of the spectra, number of states, thermal properties) are sums of the values with weights that depend on the frequencies only; they are exact for constant and linear values for every number of frequencies, exact for parabolas, not negative for non-negative values on evenly spaced frequencies, so that the heat capacity and entropy bounds hold for the integrals that are really calculated; and the result does not depend on the version of SciPy. VIOLATED for the last: for an even number of frequencies the two versions that the code accepts (simps and simpson) differ, and the older one is not exact for parabolas.", "quantifier": "every number of frequencies, every increasing list of frequencies, all values", "why_tests_cant": "holds for all numbers of points (the rule is different for even and odd ones) and all values; a test integrates one spectrum", "anchors": ["dynaphopy/__init__.py:Quasiparticle.plot_power_spectrum_full", "dynaphopy/__init__.py:Quasiparticle.get_thermal_properties", "dynaphopy/analysis/thermal_properties.py"]}
{"id": "C127", "title": "Thermal properties from the power spectrum", "statement": "The density of states that the program derives from the power spectrum has the number of states of the crystal: the reported integral is the kinetic energy of the molecular dynamics divided by that of equipartition, so 1 in equilibrium; with normalisation it integrates to the number of modes (divided by the number of primitive atoms if projected onto one), does not depend on supercell, temperature or the unit of the spectrum, and the heat capacity lies between 0 and 3NR for every non-negative spectrum; Bose-Einstein statistics never give more states than classical ones. VIOLATED: in equipartition the reported integral is 1.0213 instead of 1, for every crystal and temperature (the unit of the spectra, C122).", "quantifier": "all spectra, frequencies, integration weights, temperatures, supercells", "why_tests_cant": "a test compares numbers for one spectrum; this holds for all spectra and temperatures", "anchors": ["dynaphopy/__init__.py:Quasiparticle.display_thermal_properties", "dynaphopy/analysis/thermal_properties.py:get_dos"]}
{"id": "C128", "title": "Curves and names in the plots of the spectra", "statement": "After any history of giving forces, calculating from them, renormalizing and clearing, the plot of the full power spectrum shows the spectrum, the harmonic density of states exactly if forces are known, and the renormalized one exactly if renormalized force constants are there, and the legend gives each curve its own name. The plot of the phonon spectra has one figure for each mode, titled with the number of the mode counted from 1, showing the spectrum of that mode at each frequency.", "quantifier": "all histories, forces, spectra, numbers of modes", "why_tests_cant": "tests do not look at plots; the names are given by position, so a missing curve would shift them", "anchors": ["dynaphopy/__init__.py:Quasiparticle.plot_power_spectrum_full", "dynaphopy/__init__.py:Quasiparticle.plot_power_spectrum_phonon", "dynaphopy/__init__.py:Quasiparticle.get_renormalized_force_constants", "dynaphopy/atoms.py:Structure.forces_available"]}
{"id": "C129", "title": "Averages over equivalent wave vectors", "statement": "With symmetry on, after any history of settings and calculations, the phonon spectra and the wave vector spectrum are the averages, over the equivalent wave vectors of the chosen one, of what new calculations without symmetry give for these. For a chosen wave vector without negative coordinates, every equivalent wave vector in the list has the same list, so that the spectra do not depend on which of them was chosen.", "quantifier": "all histories, all groups of symmetry operations, all primitive matrices, all wave vectors, all numerical routines", "why_tests_cant": "tests use one crystal and one wave vector; the claim is about every group and every history of the caches", "anchors": ["dynaphopy/interface/phonopy_link.py:get_equivalent_q_points_by_symmetry", "dynaphopy/__init__.py:Quasiparticle.get_power_spectrum_phonon", "dynaphopy/__init__.py:Quasiparticle.get_power_spectrum_wave_vector"]}
{"id": "C130", "title": "Plots of the quasi-harmonic script", "statement": "After any calls of the methods of scripts/qha_quasiparticle.py, the plots of the shifts show for each branch asked for (all, or the one with the given number) the differences between the frequencies in the temperature or volume files and the harmonic or reference frequencies, as dots at the temperature or volume of the file, and as lines the fitted or interpolated shifts between the first and the last temperature or volume; the plots of linewidths and shifts stored in the files show these entries of the row of the wave vector; the plot of the total shift shows the total shift at each temperature and the equilibrium volume of that temperature.", "quantifier": "all data files, all histories of calls, all wave vectors and branches, all fitting and interpolation routines", "why_tests_cant": "tests do not look at plots; rows, branches and files are matched by position and the arrays are transposed several times", "anchors": ["scripts/qha_quasiparticle.py:ForceConstantsFitting.plot_fitted_shifts_temperature", "scripts/qha_quasiparticle.py:ForceConstantsFitting.plot_fitted_shifts_volumes", "scripts/qha_quasiparticle.py:ForceConstantsFitting.plot_linewidth_volume", "scripts/qha_quasiparticle.py:ForceConstantsFitting.get_shift_temperature", "scripts/qha_quasiparticle.py:QuasiparticlesQHA.plot_total_shift_constant_pressure"]}
{"id": "C131", "title": "Linewidths and shifts along a band path belong to the phonon of the branch", "statement": "Wherever the path passes through a commensurate wave vector, each branch listed in the band data belongs to one phonon calculated there: its harmonic and renormalized frequencies, its shift, its limits and its linewidth are those of that phonon, and different branches belong to different phonons; the plots show these data with the right names.", "quantifier": "all structures, paths, resolutions and results at the commensurate points, all orders in which phonopy returns the branches, with and without connection of the bands and of the segments", "why_tests_cant": "harmonic bands, renormalized bands and the two limits of the linewidths come from four separate diagonalizations, each with its own order of the branches, and are put together by position", "anchors": ["dynaphopy/__init__.py:Quasiparticle.get_renormalized_phonon_dispersion_bands", "dynaphopy/__init__.py:Quasiparticle.plot_linewidths_and_shifts_bands", "dynaphopy/__init__.py:Quasiparticle.plot_renormalized_phonon_dispersion_bands", "dynaphopy/interface/phonopy_link.py:obtain_phonon_dispersion_bands"]}
{"id": "C132", "title": "Automatic band path", "statement": "When no band path is given, get_path_using_seek_path gives seekpath the crystal (cell, fractional positions, and numbers that are equal exactly for atoms of the same element) and returns, in the order of seekpath, the segments between the coordinates of the two labels of each pair; without seekpath it is one segment from (0,0,0) to (1/2,0,1/2) with these labels. The coordinates stand for the wave vectors that seekpath means. VIOLATED by the code: they are coordinates in the primitive cell of seekpath but are used in the primitive cell of the structure, which is right if and only if the two cells are the same.", "quantifier": "every structure, list of elements and answer of seekpath", "why_tests_cant": "depends on arbitrary crystals, labels and on which primitive cells agree", "anchors": ["dynaphopy/atoms.py:Structure.get_path_using_seek_path", "dynaphopy/__init__.py:Quasiparticle.get_band_ranges_and_labels"]}
{"id": "C133", "title": "Progress bars", "statement": "While spectra are calculated or a test trajectory is generated, and the object is not silent, the line of the terminal shows after each column or frame the label, a bar of 30 characters and the per cent of what is done (to half a character and half of the second decimal), with nothing left of earlier bars; when everything is done there is one finished line with the full bar and Done..., and the cursor is on an empty line. In double precision too, Done... comes exactly with the last column.", "quantifier": "every label, number of columns, total time and time step, every growing sequence of parts, every number of coefficients", "why_tests_cant": "depends on all sequences of bars and on overwriting in the terminal, which tests do not see", "anchors": ["dynaphopy/power_spectrum/__init__.py:_progress_bar", "dynaphopy/analysis/coordinates.py:progress_bar", "dynaphopy/interface/iofile/__init__.py:generate_test_trajectory"]}
{"id": "C134", "title": "Progress of LAMMPS runs and of the scan of coefficients", "statement": "During a LAMMPS run and during the scan of the numbers of MEM coefficients, the bar shows what has been done, and ends with one finished line for the run or column. VIOLATED by the code: in a LAMMPS run a step is shown as done before it is run, and the line is never finished if the total time is not a multiple of the sampling time; in the scan several lines may be finished, or none, and warnings stand behind the bar.", "quantifier": "every total time, time step, sampling interval, every list of numbers of coefficients and every outcome of the fits", "why_tests_cant": "depends on the order of bars and steps and on rare outcomes of the fits", "anchors": ["dynaphopy/interface/lammps_link.py:generate_lammps_trajectory", "dynaphopy/power_spectrum/__init__.py:mem_coefficient_scan_analysis"]}
{"id": "C135", "title": "The script rfc_calc", "statement": "rfc_calc -cp prints the commensurate points of the supercell of --dim, else of the phonon supercell of the input file, else of the unit cell. With a file of frequencies it makes the force constants whose frequencies at each commensurate point are those of the file, with the eigenvectors of the forces of the input file at the same point and for the supercell asked for (--dim or the input file), saves them with -s and draws harmonic and renormalized bands with -p along the ranges of the input file (or the automatic path).", "quantifier": "all input files, arguments, supercell matrices, force constants or force sets, files of frequencies", "why_tests_cant": "depends on the combination of arguments and entries of the input file, and on the order of the entries of the file", "anchors": ["scripts/rfc_calc", "dynaphopy/interface/phonopy_link.py:obtain_phonon_dispersion_bands", "dynaphopy/interface/phonopy_link.py:get_renormalized_force_constants"]}
{"id": "C136", "title": "Bands, densities of states and thermal properties of the quasi-harmonic script", "statement": "After any calls of the methods of scripts/qha_quasiparticle.py, bands and densities of states at a temperature and volume are those of the harmonic frequencies plus the total shift at this temperature and volume; plot_thermal_properties shows free energy, entropy and heat capacity of these at every temperature of the range and the volume asked for; the band plots at constant pressure show, for each temperature asked for, the bands along the path of the input file at the equilibrium volume of that temperature, with or without labels and external data.", "quantifier": "all data files, all histories of calls, all temperatures, volumes, paths and labels, all fitting and interpolation routines", "why_tests_cant": "depends on the call history (caches) and on all data; tests do not look at plots", "anchors": ["scripts/qha_quasiparticle.py:ForceConstantsFitting.get_band_structure", "scripts/qha_quasiparticle.py:ForceConstantsFitting.plot_thermal_properties", "scripts/qha_quasiparticle.py:QuasiparticlesQHA.plot_band_structure_gradient", "scripts/qha_quasiparticle.py:QuasiparticlesQHA.plot_band_structure_constant_pressure"]}
{"id": "C137", "title": "Phonon spectra do not depend on axes, origin and numbering", "statement": "The power spectra of the phonon modes computed from a trajectory do not change if crystal, trajectory and eigenvectors are rotated or reflected, if the origin of the coordinates is moved, or if the atoms of the unit cell (with their images in the trajectory and their eigenvectors) are numbered in another order.", "quantifier": "all crystals, trajectories, wave vectors, eigenvectors, orthogonal matrices, shifts and permutations, every dimension above 1, all power spectrum algorithms", "why_tests_cant": "holds for all rotations, shifts and orders of the atoms and depends on the whole chain from trajectory to spectrum; tests compare one input with stored numbers", "anchors": ["dynaphopy/__init__.py:Quasiparticle.get_power_spectrum_phonon", "dynaphopy/__init__.py:Quasiparticle.get_vq", "dynaphopy/dynamics.py:Dynamics.velocity", "dynaphopy/dynamics.py:Dynamics.get_supercell_matrix", "dynaphopy/projection.py:project_onto_wave_vector", "dynaphopy/projection.py:project_onto_phonon", "dynaphopy/atoms.py:Structure.get_atom_type_index"]}
{"id": "C138", "title": "Spectra at equivalent and opposite wave vectors", "statement": "The phonon spectra at a wave vector and at the same wave vector plus a vector of the reciprocal lattice of the primitive cell are equal (each with its own eigenvectors, which differ by the phases of the atomic positions), with every power spectrum algorithm; the spectra at opposite wave vectors are equal.", "quantifier": "all crystals whose unit cell consists of whole primitive cells, all trajectories, wave vectors, reciprocal lattice vectors and eigenvectors, all algorithms, every dimension", "why_tests_cant": "ranges over all wave vectors and trajectories; a test compares stored numbers at one wave vector", "anchors": ["dynaphopy/__init__.py:Quasiparticle.get_power_spectrum_phonon", "dynaphopy/__init__.py:Quasiparticle.get_q_vector", "dynaphopy/projection.py:project_onto_wave_vector", "dynaphopy/projection.py:project_onto_phonon"]}
{"id": "C139", "title": "Test of the orthonormality of the eigenvectors", "statement": "Asking for the test of orthonormality changes neither the returned eigenvectors of orthonormal modes, whose printed products are the unit matrix, nor their arrangement by atoms and axes; modes that are not normalized are returned normalized; and the unit matrix is printed only if the returned modes are orthonormal.", "quantifier": "all numbers of atoms and dimensions and all complex matrices of eigenvectors", "why_tests_cant": "ranges over all matrices; a test checks one orthonormal set, for which every normalization is the identity", "anchors": ["dynaphopy/interface/phonopy_link.py:obtain_eigenvectors_and_frequencies", "dynaphopy/interface/phonopy_link.py:eigenvectors_normalization"]}
{"id": "C140", "title": "Average positions from random samples", "statement": "average_positions(number_of_samples) averages frames of the trajectory, as many as asked for and at most all of them, whatever the random numbers are: reference position plus mean displacement of the drawn frames, in the cell; the mean has no bias, is exact for atoms that do not move, and is the average over the trajectory if no number is given or if at least as many samples as frames are asked for.", "quantifier": "all trajectories, cells, numbers of samples and sequences of random numbers", "why_tests_cant": "the result depends on a random generator; a test sees one sequence", "anchors": ["dynaphopy/dynamics.py:Dynamics.average_positions"]}
{"id": "C141", "title": "Frequencies of the highest peaks", "statement": "get_frequencies_from_correlation returns one frequency for each branch with peaks: that of the highest of its peaks.", "quantifier": "all spectra (also complex ones), frequency ranges and peak finders", "why_tests_cant": "ranges over all spectra; a test has one", "anchors": ["dynaphopy/analysis/peaksearch.py:get_frequencies_from_correlation"]}
{"id": "C142", "title": "Versions of the libraries", "statement": "The program can be loaded with every version of phonopy and SciPy that offers what is used under one of the names it knows (class of atoms, factor of the frequencies, integration rule), and then uses an object that exists.", "quantifier": "all installations: all assignments of names to modules", "why_tests_cant": "a test runs with the one version that is installed", "anchors": ["dynaphopy/interface/phonopy_link.py", "dynaphopy/__init__.py", "dynaphopy/analysis/thermal_properties.py"]}
{"id": "C143", "title": "Full and wave-vector spectra do not depend on periodic images, origin and axes", "statement": "The full power spectrum, the wave-vector spectrum and the spectra of the modes of a trajectory of coordinates are the same for wrapped and unwrapped trajectories (each atom in each frame may be replaced by any periodic image); the full spectrum does not depend on the origin of the coordinates and the numbering of the atoms; neither it nor the wave-vector spectrum depends on origin and Cartesian axes when crystal and trajectory are rotated together.", "quantifier": "all crystals, MD cells, trajectories, choices of images, rotations and origins, algorithms and parameters", "why_tests_cant": "a test uses one trajectory and one choice of axes", "anchors": ["dynaphopy/__init__.py: get_power_spectrum_full, get_power_spectrum_wave_vector", "dynaphopy/dynamics.py: get_velocity_mass_average, get_relative_trajectory", "dynaphopy/projection.py: project_onto_wave_vector"]}
{"id": "C144", "title": "Masses, structure or times changed after a calculation", "statement": "Masses given with set_masses are returned by get_masses at once, whatever was asked before. Masses set after any history of calls on a trajectory that does not contain get_velocity_mass_average, or before a crop_trajectory that returns, act as if they had been given from the start; set_masses followed by set_primitive_matrix makes all later atom types those of the new masses. Without that, values already computed are not refreshed: once the mass weighted velocities, the displacements or the atom types have been asked for, no change of the masses (or set_structure) has an effect on them. Likewise set_time gives the time step of the new times only if the time step has not been asked for (or was zero).", "quantifier": "all structures, trajectories, masses, structures set later and histories of calls before and after the change", "why_tests_cant": "The state depends on the order of an unbounded history of calls; a test fixes one order.", "anchors": ["dynaphopy/atoms.py: Structure.set_masses, get_masses, get_atom_type_index, set_primitive_matrix", "dynaphopy/dynamics.py: Dynamics.set_structure, get_velocity_mass_average, get_relative_trajectory, crop_trajectory"]}
{"id": "C145", "title": "Full spectrum of one coordinate", "statement": "On a new object that projects onto an atom type, get_power_spectrum_full(projection_on_coordinate=c) is the sum of the spectra of the coordinate c of all atoms of that type; it ends the program exactly if there is no atom of the type or no such coordinate, and a negative coordinate means all coordinates. The spectra of all coordinates add up to that of the type, those of all types and coordinates to the full spectrum. The coordinate should also be respected without an atom type.", "quantifier": "all trajectories, atom types, coordinates, dimensions and power spectrum algorithms", "why_tests_cant": "The sums range over any number of atoms and types.", "anchors": ["dynaphopy/__init__.py: Quasiparticle.get_power_spectrum_full"]}
{"id": "C146", "title": "Saved projections can be read back", "statement": "The files of save_vc and save_vq have one line per time step, and on each line one word per component of the chosen atom (atoms counted from 1) or per phonon mode, in order; Python's complex() reads every word, and both parts agree with the projection to a relative error of 5e-9. save_vc raises an exception exactly for atoms that do not exist.", "quantifier": "all projections (any number of steps, atoms, modes; all values), all atom numbers", "why_tests_cant": "The text depends on the sign, size and rounding of every number.", "anchors": ["dynaphopy/__init__.py: Quasiparticle.save_vc, save_vq"]}
{"id": "C147", "title": "fitdata on files it has saved", "statement": "scripts/fitdata fits every curve (the mean of a group of columns, smoothed on its own with -sm) separately and in order; with -s it writes the curves whenever no fit raises an exception. The saved file is read again with -bi 1,2,...,n as the same n curves, frequencies to four decimals and values to ten digits, and running the script on it and saving again gives the same file character by character. Without -bi the same should hold.", "quantifier": "all input files, groups, smoothing factors, fits and numbers of repeated runs", "why_tests_cant": "The text depends on the rounding of every number; a repeated run feeds the output back in.", "anchors": ["scripts/fitdata: whole script", "dynaphopy/interface/iofile/__init__.py: write_curve_to_file"]}
{"id": "C148", "title": "The XSF file is the crystal", "statement": "write_xsf_file on a structure with computed types always ends and writes one file; a reader of the XSF format finds in it, to four decimals, the primitive vectors (the combinations of the vectors of the cell that the primitive matrix gives), the vectors of the cell, as many atoms as announced, each with the atomic number and the position of an atom of the cell, and for every atom of the cell exactly one equivalent atom.", "quantifier": "all cells, primitive matrices, atomic numbers, positions and equivalences of atoms", "why_tests_cant": "Every number must survive the text, and the atoms must be one per class of equivalent atoms for every arrangement.", "anchors": ["dynaphopy/interface/iofile/__init__.py: write_xsf_file", "dynaphopy/atoms.py: get_primitive_cell, get_atom_type_index, get_number_of_primitive_atoms"]}
{"id": "C149", "title": "The area of the maximum entropy spectrum is the kinetic energy", "statement": "With the maximum entropy method, for any number of coefficients below the length of the data minus one: the spectrum of each component is a continuous, non-negative function of the frequency, and its area from zero to 1/(2 dt) is half the mean square of the component (times the unit conversion, the first row not used, the real and the imaginary part apart), or the spectrum of that part is zero everywhere; so the area of the full spectrum of a real motion is at most the mean kinetic energy of the frames but the first (over the number of frames), and equal to it if the spectrum of no component vanishes: the number of coefficients does not move it.", "quantifier": "all lengths of the data, values, time steps above zero, numbers of coefficients and lists of frequencies", "why_tests_cant": "That the area does not depend on the number of coefficients is an integral over all frequencies of the result of a recursion of any length.", "anchors": ["c/mem.c: GetCoefficients, FrequencyEvaluation", "dynaphopy/power_spectrum/__init__.py: get_mem_power_spectra", "dynaphopy/__init__.py: get_power_spectrum_full"]}
{"id": "C150", "title": "Areas of the maximum entropy spectra: temperature and modes", "statement": "With the maximum entropy method and any number of coefficients below the length of the data minus one: (a) the area from zero to 1/(2 dt) of the full spectrum of a motion is at most three halves of k_B T per atom, T being the temperature that get_temperature finds from the same velocities, and if no component's spectrum is zero everywhere it is that less the kinetic energy of the first frame over the number of frames; (b) the areas of the spectra of the phonons at a wave vector with orthonormal eigenvectors add up to the area of the spectrum of that wave vector, although the spectra do not, if no spectrum is lost (zero at all frequencies though the data are not zero).", "quantifier": "all numbers of atoms and frames, masses, real velocities, time steps, numbers of coefficients, lists of frequencies, orthonormal eigenvectors and trajectories", "why_tests_cant": "The area is an integral over all frequencies of the result of a recursion of any length, compared with the temperature of the best fit among all Maxwell distributions.", "anchors": ["c/mem.c: GetCoefficients, FrequencyEvaluation", "dynaphopy/__init__.py: get_power_spectrum_full, get_power_spectrum_wave_vector, get_power_spectrum_phonon, get_temperature", "dynaphopy/analysis/energy.py: boltzmann_distribution"]}
{"id": "C151", "title": "The direction of time", "statement": "Run backwards (rows in the opposite order, opposite sign and complex conjugate), a motion has the same spectra with the FFT algorithms (2 to 5), if the windows into which the data are divided lie symmetrically: the window has s points (one over resolution and time step, rounded) and the rest of the data is a multiple of the number of windows less one. In particular a trajectory file whose frames are read in the opposite order gives the same full spectrum, for any crystal, and phonon spectra that are those of the original trajectory at the opposite wave vector. With the maximum entropy method and the direct Fourier method this is violated: a motion that starts from rest has another spectrum than the same motion run backwards (ten times as large; zero against positive), because the first (last) data are never read; and with windows that do not lie symmetrically it is violated by the FFT algorithms too.", "quantifier": "all lengths of the data, numbers of columns, complex data, time steps, lists of two or more increasing frequencies, crystals, trajectories, paddings and warnings", "why_tests_cant": "Reversal is checked against every window and every pair of data in the correlation, for data of any length; that the two other methods break it is a claim about the same formula.", "anchors": ["dynaphopy/power_spectrum/__init__.py: _numpy_power, _division_of_data, get_fft_numpy_spectra", "dynaphopy/dynamics.py: velocity", "c/correlation.c: EvaluateCorrelation", "c/mem.c: GetCoefficients"]}
