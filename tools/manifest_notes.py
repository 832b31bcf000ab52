NOTES={
'C01':('proved','For every dimension list (C01_order) and spelled out for 3 dimensions (C01_order_3d).'),
'C02':('proved',''),
'C03':('proved',''),
'C04':('partial','The property is false of the code in general: C04_violated (fcc cell, supercell 2,1,1); C04_iff says exactly when it holds, C04_partial for orthogonal cells and isotropic supercells; C04_diagflat: the formula used by the trajectory readers has the property.'),
'C05':('proved',''),
'C06':('proved',''),
'C07':('partial','False of the code (C07_violated); holds for supercell arguments that do not mix up the masses (C07_partial).'),
'C08':('partial','Primitive matrix part proved; set_positions/set_cell parts are false in the code (violated theorems).'),
'C09':('partial','Explicit elements and tabulated masses proved, also for masses rounded to a few decimals; unknown and zero masses violate it.'),
'C10':('proved','Tie convention as in C round().'),
'C11':('partial','Determinant for all n; inverse for n>=2; for n=1 the C code is wrong (C11_inverse_one_violated).'),
'C12':('proved','Ties excepted; C12_tie shows the exception is needed.'),
'C13':('partial','Proved for every reachable object whose velocity is known and memmap=False (C13_crop_partial, C13_crop_twice_partial); with a velocity still to be computed the claim is false (C13_velocity_violated): for equally spaced times all rows but the first are kept and the first one is the forward difference of the kept positions (C13_unknown_partial).'),
'C14':('partial','Relative trajectory, velocity and mass weighted velocity proved for all histories without memmap; the time step, the mean displacement matrix and memmap clauses are false of the code (violated theorems).'),
'C15':('partial','Exact multiples proved; stopping proved when the deviations have equal sign (C15_stop_partial); false in general because deviations cancel (C15_violated). C15_iff: the program goes on exactly when the signed deviations, added up, are small against the length of the vector of ratios.'),
'C16':('proved','C16_double: all rounding errors of the loop included, for the unbounded exponent range of Model/Double.'),
'C17':('partial','Uniform motion closer than half a cell to the reference position is exact; smooth motion is accurate to second order in the time step inside and first order at the ends (C17_accuracy); oscillations are damped by sin(wh)/(wh) (C17_harmonic). False for atoms that drift further than half a cell (C17_drift_violated).'),
'C18':('proved',''),
'C19':('partial','average_positions proved; to_unit_cell clause violated.'),
'C20':('partial','Average/covariance/PSD proved; the cached result ignores the argument (C20_cache_violated).'),
'C21':('partial','False for two objects of one process (C21_violated); proved for all histories of objects in separate directories or processes (C21_separate_partial).'),
'C22':('proved',''),
'C23':('proved',''),
'C24':('proved','Linearity, origin shift, and conservation of power for every crystal and supercell, also with several primitive cells in the unit cell, over any complete set of commensurate wave vectors (C24_power); C24_power_primitive shows such a set for primitive unit cells.'),
'C25':('proved',''),
'C26':('proved','Exact arithmetic: C26_accepts, C26_phase_iff, C26_reciprocal, C26_accepted_near; double precision: C26_double (entries up to 16, supercells up to 256; the inverse computed by LAPACK is a hypothesis).'),
'C71':('proved',''),
'C72':('partial','Agreement in symmetric (orthogonal) cells away from ties; false in sheared cells (C72_violated). C72_iff: the two agree off the ties exactly when the cell is symmetric.'),

'C27':('partial','Proved in exact arithmetic (C27_division, C27_returns, C27_average_exact). In double precision (Model/Double.lean) two clauses are false: the last sample may be left out (C27_double_violated) and the pieces may differ by one sample, so that the average of the pieces raises an error (C27_ragged_violated); what is left, for up to 2^25 samples: C27_double, C27_double_one, C27_double_size.'),
'C28':('partial','The estimator the code computes is proved to be the stated sum; the intended correlation integral is not what it computes (C28_violated).'),
'C29':('proved',''),
'C30':('partial','All reads stay in bounds with fewer coefficients than data (C30_bounds_partial); with the reported off-by-one the first/last sample and garbage are used (C30_*_violated).'),
'C31':('proved',''),
'C32':('proved',''),
'C33':('partial','Proved for every history without set_projection_onto_atom_type, partial spectra and coordinate projections; those three are false (C33_*_violated).'),
'C34':('partial','Proved for all spectra getters; get_commensurate_points_data restores the wave vector but replaces the frequency range (C34_range_violated).'),
'C35':('partial','False: settings are a process-wide singleton (C35_*_violated). Only the one-object case holds (C35_single_partial).'),
'C36':('proved',''),
'C39':('partial','Proved in exact arithmetic. In double precision C39_double gives the range up to a thousandth of the resolution, for limits up to 10^6 times the resolution; there the number of values may be off by one and repeating set_spectra_resolution may add a value (C39_double_count_violated, C39_double_repeat_violated).'),
'C73':('partial','False (C73_*_violated): no cache is cleared.'),
'C37':('proved','For frequencies in the order given by the code; unsorted lists are a documented counterexample (C37_unsorted_violated).'),
'C38':('proved','Unsorted input counterexample in C38_unsorted_violated.'),
'C40':('partial','U = F + TS for every spectrum whose first sample has frequency 0 or no states, exact defect otherwise (C40_general); the code zeroes the first grid point, so real use starting at a positive frequency is off (C40_violated).'),
'C41':('proved','The entropy = -dF/dT clause is for frequency lists starting at 0 (the code drops the first point of F).'),
'C42':('proved',''),
'C43':('proved',''),
'C44':('proved',''),
'C45':('proved',''),
'C46':('partial','Lists complete (C46_lists); width of the damped oscillator never negative, of Lorentzians only for a non-negative fitted half width (C46_width_partial), otherwise negative widths are accepted (C46_violated).'),
'C47':('partial','Damped oscillator clauses proved; the Gaussian integrates to 2 pi c rather than the reported area (C47_gaussian_violated).'),
'C74':('partial','The relation holds with hbar*position; with the documented quantum h*position it is false (C74_quantum_violated).'),
'C75':('partial','Identity and normalisation proved; harmonic values under the stated grid hypotheses (C75_harmonic_partial), false otherwise (C75_violated).'),
'C48':('partial','Proved for every well formed file and window without memmap (C48_window, C48_to_end, C48_last_steps) and with memmap if the file is long enough (C48_memmap_partial). False with memmap on shorter files (zero frames) and for dumps cut off after an ATOMS header (extra time stamp). C48_text: the characters of the file, for any spacing and number format.'),
'C49':('partial','Frames are right without memmap; time stamps of skipped frames are kept (C49_time_violated); with memmap only the last frame survives (C49_memmap_violated). C49_text_partial: the characters of the file.'),
'C50':('partial','Only initial_cut=1 is right; otherwise the first e+1-i frames are returned (C50_violated, for all files). C50_text_partial and C50_text_violated are about the characters of the file: number of atoms, POTIM, lattice vectors, steps with any lines between them.'),
'C51':('partial','False: limit+2 frames are read (C51_lammps_count, exact for all files; C51_violated).'),
'C76':('partial','Exactly for headers starting with x y z / vx vy vz (C76_iff); otherwise false (C76_id_violated, C76_velocity_violated).'),
'C77':('partial','False: the scale factor is ignored (C77_violated, for all files).'),
'C52':('partial','Round trip proved for all data and supercells in the orientation of the unit cell; the window does not cut the time stamps (C52_time_violated, for all files) and rotated supercells lose their orientation (C52_rotation_violated); read_from 0 reads the last frame only (C52_zero).'),
'C53':('partial','Concatenation of velocity, trajectory, vc proved for any number of files; time stamps are those of the first file, uncut (C53_time_violated, for all inputs).'),
'C54':('partial','Each atom is assigned to the nearest atom of the unit cell, periodic images included (C54_nearest); np.argsort of the template is always a permutation (C54_permutation); the order of get_positions is recovered for displaced, wrapped atoms in any order when the outermost coordinate is in the outer half of the last cell (C54_order_partial); false for structures with all fractional coordinates below 1/2 (C54_violated).'),
'C55':('partial','Cell and coordinates always survive; elements exactly if equal elements are adjacent (C55_elements_iff), so false in general (C55_violated). C55_text_partial: the same character by character, with the decimals of the file.'),
'C56':('partial','Proved for all lists of elements whose masses depend on the element only; false for isotopes (C56_isotopes_violated).'),
'C57':('partial','Gram matrix, box numbers, rotation of the positions proved for every non-singular cell given to the generator; for anisotropic supercells of non-orthogonal cells that cell is wrong (C57_supercell_violated, from C04).'),
'C78':('partial','Both styles and direct coordinates proved, on words and on characters (C78_text_partial); Cartesian coordinates are not multiplied by the scale factor (C78_cartesian_violated, for all files).'),
'C58':('proved','For all boxes, orthogonal and triclinic, tilts of any sign.'),
'C59':('proved','For every non-singular cell, orthogonal matrix and supercell, and for whole trajectories through the reader model (C59_text: from the characters of the file).'),
'C79':('partial','Exactly if the dump has the angles of the structure (C79_iff); false for sheared boxes (C79_sheared_violated).'),
'C60':('proved','All contents and any number of inspected bytes; reading the file itself (mmap, missing file) is outside the model.'),
'C61':('partial','For every file that is read: last value wins, default POSCAR, commented keywords are ignored (C61_last). False that comment lines are always ignored: a comment right after a keyword becomes its value (C61_comment_violated).'),
'C80':('partial','Holds unless the section is directly followed by MESH PHONOPY; then reading raises ValueError (C80_mesh_violated, for all such files).'),
'C62':('partial','Every property but save_renormalized_frequencies, for all histories; that one can never be changed through its setter (C62_save_violated).'),
'C63':('proved','Ends iff all types below the number of types occur (C63_ends_iff), which holds for all types the code computes (C63_computed); not for user-given types (C63_user_types_violated). The text is C148.'),
'C81':('partial','Four options reach the parameters; --fcsymm and --save_renormalized_frequencies never do (C81_ignored_violated).'),
'C82':('partial','Only if the first atoms are one of each element; false otherwise (C82_violated).'),
'C64':('proved','For all sizes and arrays.'),
'C65':('proved','For all operations, primitive matrices and points; the order of the result is not modelled (a Python set).'),
'C66':('proved','For every resolution > 0, over the reals (C66_points) and with every operation rounded to a double (C66_double); C66_double_violated shows that a stronger claim, ending exactly at the end point, fails with floats.'),
'C67':('proved','For all cells and data; C67_trajectory ties it to the mean displacement matrix model of C20.'),
'C68':('partial','Holds if each band keeps a squared overlap above 1/2 along the segment (C68_permutation_partial); false in general: two orthonormal eigenvector sets give the order 1,0,0 (C68_violated).'),
'C69':('partial','With -bi, for all files and groups (C69_groups_partial); without -bi the first row is lost in every file (C69_first_row_violated).'),
'C70':('partial','Phase zero: equal energies, equations of motion, periodicity; any other phase multiplies all displacements by exp(phase_0) (C70_scaled_violated, for all inputs).'),
'C83':('proved','phonopy functions create_dynamical_matrices and the frequency convention are modelled from their documentation, not from the repository; the Fourier transform to real-space force constants is not modelled.'),
'C84':('proved','C84_line wherever a smoothed value exists; C84_defined and C84_even say exactly when; C84_undefined: none exists for a factor of one or more. Negative factors are not modelled.'),
'C85':('partial','Holds if LAMMPS keeps its internal order during the run (C85_frames_partial, C85_order_partial, C85_total_time, C85_setup); exactly which reorderings are survived: C85_reordered_iff; the cell: C85_cell; number of frames in double precision: C85_double (at most one frame is lost; C85_double_violated); false in general (C85_reordered_violated: the id permutation is applied instead of its inverse).'),
'C86':('partial','The equipartition temperature for all trajectories in which no atom is at rest (SciPy: the fit is taken to be a maximum of the likelihood; it exists and is unique, C86_fit); a temperature of 0 that was set is ignored (C86_zero_violated).'),
'C87':('proved','For all ranges, spectra, fits; the bounds of the width for positive errors (a zero error gives nan in the code).'),
'C88':('partial','Densities and plot centres for all data (C88_density_partial, C88_plot_centres); in every file written the displacement of a row is one bin below its bin (C88_file_violated). C88_text: the characters of the file read back give four decimals of the displacement and ten digits of the densities.'),
'C89':('partial','Exactly if the atom numbered by the type has the same mass (C89_iff; primitive cells); false in conventional cells (C89_mass_violated).'),
'C90':('partial','For all histories the forces and supercell belong together (C90_consistent), force constants set last are used (C90_latest_constants), arguments and QHA forces do not touch the structure; false: force sets set after a calculation are ignored (C90_stale_violated, for all inputs), the check of the number of atoms is wrong for non-triangular supercell matrices (C90_check exact, C90_check_false). Phonopy is a parameter.'),
'C91':('proved','For all spectra and cells; phonopy results are arguments of the model.'),
'C92':('partial','What is returned is characterised (C92_sound, C92_double: points of the doubled supercell); the property is false (C92_violated: extra points, 1/3 lost).'),
'C93':('partial','Data and connection proved for all paths; printing the bands always fails unless they are cached (C93_print_violated).'),
'C94':('partial','Rows for all histories with a fixed supercell setting (C94_rows_partial), mesh file (C94_mesh); false: group velocities stay in later files (C94_extra_violated, for all inputs), mixed-up points after changing the setting (C94_switch_violated).'),
'C95':('partial','False: the list written is not the dictionary expected (C95_list_violated, for all files); with a dictionary only for points of at most eight decimals (C95_dict_partial, C95_thirds_violated).'),
'C96':('partial','Reference temperature, polynomial data, ranges and pressure pairs proved for all data; false: interpolate_volume is inverted, no default reference temperature, wave vectors of the other files are ignored, no automatic band path, wrong volumes in the gradient plot.'),
'C97':('partial','Thermal properties aligned for every order (C97_aligned); force constants aligned exactly when the volumes are already ascending (C97_force_constants_iff, C97_force_constants_violated); temperatures of the last file only.'),
'C98':('partial','All sessions (lists of characters): choices, exit, selection proved; results are those of a new object as long as the lines are acceptable (C98_consistent_partial). False: MEM coefficients and a mistyped wave vector leave old results in place (C98_mem_violated, C98_wave_violated, for all routines), NAC menu (C98_nac_violated), thermal table with two ranges (C98_thermal_violated), long lists of frequencies (C98_list_violated). Editing keys inside a prompt and failures inside numerical routines not modelled.'),
'C99':('partial','Proved for all files of the layout VASP writes (C99_read, C99_masses); false for files without a keyword: read from the start of the file without notice (C99_missing_violated). C99_text is about the characters of the file (int, float, split of Python).'),
'C100':('partial','All clauses proved for all histories and optimisers, except that the maximum of a Lorentzian leaves out the base line, unlike that of the other functions (C100_maximum_violated). curve_fit, quad, minimize_scalar are deterministic parameters.'),
'C101':('partial',"Lorentzian and Gaussian proved (C101_lorentzian, C101_gaussian); asymmetric Lorentzian for asymmetry 0 (C101_asymmetric_partial), false for every asymmetry but 0, the reported width then being strictly too large (C101_asymmetric_violated; C101_asymmetric_iff: exact), by any factor (C101_asymmetric_factor); the damped oscillator's width is strictly below the full width at half maximum (C101_damped_violated), by a factor of at most sqrt(1+2(width/position)^2) (C101_damped_partial)."),
'C102':('partial','Proved: options (C102_options), order and value of every result for the model of the program (C102_results), independence of velocity files, force constants, quasiparticle data, mesh and bands from other requests and from -r (C102_renormalized), of all results from other requests if none needs the quasiparticles (C102_independent_partial), the additional curve in the plot (C102_plot). Violated by the code and proved so: with -sfc the saved and drawn spectra ignore -r and use the automatic range (C102_range_violated); the frequency limit of the harmonic column of the thermal properties depends on --thm_reference (C102_thermal_violated). Not modelled: options that use the trajectory only, temperature, QHA force constants, interactive mode.'),
'C103':('proved','Exact arithmetic. Hypotheses: the types are those of a crystal (C06), eigenvectors orthonormal and complete, wave vectors commensurate (C26), pairwise inequivalent and as many as primitive cells.'),
'C104':('proved','For the estimator the C code computes (see C28) in exact arithmetic; the common factor unit_conversion is left out. C104_chain: the same for what the three functions return from structure and trajectory (Model/Chain, Model/ChainFull), unit_conversion included. The FFT and MEM methods are not linear in the correlations and have no such rule.'),
'C105':('proved','Exact arithmetic; the out-of-bounds read of mem.c (C30) is represented by a readable element behind the data, whose content is part of the environment. The progress bars and the shape of a result without columns are not modelled.'),
'C106':('partial','Proved: scale and phase for direct Fourier and all FFT methods, mixing for direct Fourier, scale for MEM with real velocities and factors of at least 1. Violated: MEM depends on the phase of the eigenvectors (it treats real and imaginary part as separate signals) and returns zero for small velocities; the FFT sums depend on the mixing (absolute value of a truncated correlogram).'),
'C107':('partial','Violated for all inputs: no spectrum depends on the padding, it only suppresses the warning (C105_fft_returns states when the warning is printed).'),
'C108':('partial','Proved for the FFT methods (algorithms 2-5), any division into pieces, any position of the requested frequencies, from the trajectory to the spectrum. The direct Fourier method (algorithm 0) violates it: the spectrum of a constant velocity grows with the frequency (C108_fourier_violated). The maximum entropy spectrum is even in the frequency (C108_mem_even), so it cannot tell f from -f; its peak position is not proved.'),
'C109':('proved','The texts and positions handed to matplotlib; what matplotlib draws is not modelled.'),
'C110':('partial','Violated for every number of steps from 2 on: the times are linspace(0, n dt, n), so every point but the first is drawn at a wrong time, the last one a whole step late (C110_times_violated). The selection, the values and the files are proved (C110_curves, C110_trajectory, C110_save_vc, C110_save_vq); an empty selection shows nothing in the plot of the trajectory and atom 0 in that of the velocity (C110_empty_violated).'),
'C111':('proved','Exact numbers instead of floats: the further rounding of a decimal text to the nearest float (relative 1e-16) is not modelled.'),
'C112':('partial','Holds with -bi for frequencies more than 1e-4 apart. Violated (proved): without -bi the first row is lost; frequencies finer than 5e-5 coincide in the file. Columns may be counted from the back (C112_columns). The text of the file is modelled character by character.'),
'C113':('proved',"C113_document for any conversion of numbers, C113_text for the characters of the file with Python's split, strip, int and float."),
'C114':('proved',"C114_file. Masses are assumed to depend on the element only (isotopes: see C56, violated); the cell is the one the structure reports (supercells: see C04/C57). Python's str of a charge is a parameter assumed to read back as the same number. Real arithmetic instead of floats."),
'C115':('proved','C115_schedule for any loop body, C115_mem and C115_fourier for the two routines, C115_race_free, C115_progress, C115_ends, C115_finishes. Sequentially consistent interleaving of loads and stores (what C promises without data races).'),
'C116':('proved','C116_results (results of any loaded calculation), C116_roundtrip (save, load, any calls), C116_last_steps. Symmetry averaging is switched off for loaded files by the program, so the comparison is with a calculation without symmetry; changing the wave vector or asking for the full spectrum needs velocities and is excluded. Python ints for the steps option are naturals.'),
'C117':('partial','C117_displacements, C117_correlation and C117_mem prove safety, values and the exact set of blocks left for all inputs (mem with one readable word behind its arrays, C30 shows it reads one beyond); the leaks violate the rest of the property (C117_relative_violated: growth with the number of atoms; C117_correlation_null: an invalid method keeps three arrays, the third the result itself). Loops over frequencies and frames run one after the other (C115 covers the threads). malloc never fails in the model; numpy references are blocks. Freed blocks are never reused, so an access after free is always an error of the model.'),
'C118':('partial','C118_positions, C118_thermal, C118_phonopy, C118_peaks hold in full for real values (inf and nan not modelled; the titles with the resolution not modelled); C118_lists links the returned lists to C36. C118_adp_partial: the rows are a permutation of one row per atom, grouped by type; C118_adp_order_violated shows Na Cl Na printed as Na Na Cl.'),
'C119':('partial','C119_history, C119_values, C119_script, C119_runs, C119_reload, C119_volume and C119_pressure hold in full; C119_options_violated and C119_reference_violated refute the rest. phonopy, np.polyfit and interp1d are parameters; the yaml files do not change during a run; not modelled: PhonopyQHA itself, read_v_e, plots (their band labels are C109).'),
'C120':('partial',"Proved for all processes, crash points, histories and interleavings, with contents arbitrary while a file is open. The condition that results are not written over input files is needed (C120_overwrite_violated: -sfc FORCE_CONSTANTS), and the names of -sdata, -smesh and of the table of frequencies cannot be chosen, so that two runs in one directory replace each other's results (C120_fixed_names_violated). Not modelled: --run_lammps, --interactive, the temporary files of --memmap (C21), two processes writing the same file at the same time."),
'C121':('partial','Agreement, shape and termination proved for all four routines in exact arithmetic. The warning is proved for Numpy and CuPy; with FFTW and CUDA it is never printed (C121_warning_violated).'),
'C122':('partial','The constants of peaks, thermal properties, velocities and test trajectories agree to 1e-6 and the temperature of a peak tends to the classical one (C122_bose, C122_gas, C122_classical). unit_conversion of the spectra is 2.13 % too large: all areas are too large by that (C122_energy_violated, C122_fft_violated) and the temperatures of the peaks are above those of the velocities (C122_temperature_violated).'),
'C123':('partial','Frame, positions, sizes, colours and legend by elements proved for at most 37 elements with a radius (at most 7 for distinct colours); the other cases are violated (theorems with suffix _violated). matplotlib itself is not modelled: the model is the list of calls.'),
'C124':('partial',"Frames, Newton's equation, conservation of energy, energy for each phonon and the projection onto phonons are proved in full for stable phonons above the minimum frequency; C124_velocity does the same for the velocities that the program calculates from the frames (interior frames; reduced by sin(2 pi f dt)/(2 pi f dt)). The reported energy is d/2 times too small (C124_reported, C124_energy_violated); the number of frames in double precision may be one too large (C124_double, C124_double_violated). phonopy (frequencies, eigenvectors, commensurate points) is an argument of the model."),
'C125':('partial',"Rows, values at commensurate points and points drawn proved; the pairing is proved to be right exactly if the orders agree (C125_pairs_partial, an equivalence) and fails otherwise (C125_pairs_violated). phonopy's interpolation and mesh are arguments of the model; that eigenvalues are given in ascending order (numpy.linalg.eigh) is part of the model."),
'C126':('partial',"Proved for both versions of the rule; the difference between the versions is C126_parabola_violated. SciPy's formulas are modelled (they are not in the repository)."),
'C127':('partial','Integral, scaling, normalisation, bounds and statistics proved (C127_integration, C127_scale, C127_normalized, C127_dulong_petit, C127_bose); the value in equipartition is violated by the unit of the spectra (C127_integration_violated).'),
'C128':('proved','matplotlib is not modelled: a plot is the list of its curves with their names; the densities of states of phonopy are a parameter.'),
'C129':('partial',"violated: if the chosen wave vector has a negative coordinate, it is not in the lists of its equivalents, and equivalent wave vectors with a negative coordinate are always left out; in double precision a coordinate that is exactly 0 may come out as -2.8e-17, and the wave vector is left out. The numerical routines are parameters; spglib's operations are assumed to be a group."),
'C130':('partial','violated: the row of a wave vector is looked up in the first temperature file only, so that files in another order are mixed; the title of the plot of the total shift says relative to the reference temperature, while the shifts are relative to the harmonic frequencies. matplotlib is not modelled: a plot is the list of its curves.'),
'C131':('partial','proved for connected bands whose eigenvectors keep more than half of their weight along the segment, and for different harmonic frequencies at the wave vector. Violated for bands in the order of the frequencies (the plot of the renormalized bands with linewidths): the limits are sorted separately; C131_sorted_partial says exactly when this does no harm. phonopy is a parameter: that it solves the dynamical matrices it is given, and gives back at a commensurate point the matrix that was put in there, are hypotheses.'),
'C132':('partial','Segments, labels, elements and the fallback are proved; the wave vectors are those meant by seekpath exactly when the primitive cells agree (C132_primitive_partial), and not for an fcc crystal given by its cubic cell (C132_primitive_violated). seekpath is a parameter of the model.'),
'C133':('proved','For every label, number of columns, total time and time step, on a terminal of unlimited width; in double precision: Done... exactly with the last column. The other bars are C134.'),
'C134':('partial','One finished line for total times that are multiples of the sampling (C134_lammps_partial) and for scans without failures with steps of two or more (C134_scan_partial); violated otherwise, and the step shown by LAMMPS bars is always one ahead (C134_lammps_violated, C134_scan_violated).'),
'C135':('partial','Holds for -cp, and for the force constants and the bands along the automatic path with the phonon supercell of the input file and a file of frequencies in the format the script expects (C95: not the one dynaphopy writes). Fails: with BANDS in the input file -p always ends with an exception (the dictionary of the input file is passed instead of its ranges); without -cp, --dim changes nothing.'),
'C136':('partial','Holds for bands, densities of states and thermal properties, and for the band plots of a path without labels (with external data for the plot at one temperature). Fails: with labels no band plot is shown (iteritems does not exist in Python 3), and plot_band_structure_constant_pressure fails with its default external_data=None.'),
'C137':('partial','Axes and numbering: all algorithms. Origin: all algorithms but the maximum entropy method (the default), with which moving the origin changes the spectra (C137_mem_origin_violated). The numbering theorem takes atoms that are equivalent or not by more than the tolerance of get_atom_type_index.'),
'C138':('partial',"Reciprocal lattice vectors: all algorithms. Opposite wave vectors: the maximum entropy method (the default); the fast Fourier transforms distinguish the two directions of a travelling wave (C138_opposite_fft_violated). phonopy's choice of phases of the eigenvectors is a hypothesis."),
'C139':('partial','Orthonormal modes: proved. The normalization divides the coordinates and not the modes (C139_scaled_violated), and only the real part of the products is printed (C139_phase_violated); for real eigenvectors the printed test is exact (C139_real).'),
'C140':('partial','All but the last: frames are drawn with repetition, so asking for all frames does not give the average over the trajectory (C140_exhaustive_violated). np.random.random_integers, which recent versions of numpy do not have, is taken as an arbitrary sequence of numbers from 1 to the number of frames.'),
'C141':('partial','C141_highest for spectra with a peak in every branch; one branch without peaks stops the calculation for all (C141_none_violated). find_peaks_cwt of SciPy is an argument.'),
'C142':('partial','C142_link_partial: only with the new module of units; C142_units_violated: the import of the factor from phonopy.units is misspelled (VaspToTHza), so that versions which have it there cannot be used.'),
'C143':('partial','Images: all algorithms (no half-integer fractional distance from the place in the crystal). Origin: all algorithms for the full spectrum (C143_origin_full), all but the maximum entropy method for the wave vector (for which C137_mem_origin_violated shows the dependence for the modes). Axes: C143_axes_fourier for the direct Fourier transform; with the fast Fourier transforms turning the crystal changes the full spectrum (C143_fft_axes_violated). Numbering: C143_numbering_full, all algorithms.'),
'C144':('partial','Proved: C144_masses, C144_late_masses (every history without the mass weighted velocities), C144_after_crop, C144_types_refreshed, C144_set_time. Refuted for all objects: C144_velocity_violated, C144_structure_violated, C144_set_time_violated, C144_types_stale_violated (with a concrete crystal in C144_types_example_violated): cached values are not refreshed.'),
'C145':('partial','All but the last clause: without an atom type the coordinate is ignored, for all inputs (C145_ignored_violated). C33_coordinate_violated: on an object that has a spectrum already the argument is ignored.'),
'C146':('proved','Characters of the files, including the replacement of +- done by np.savetxt. complex() is specified for words a+bj. inf and nan not modelled. plot_vq: C110_vq, C110_default.'),
'C147':('partial','With -bi in full (frequencies not negative for the exact repetition: Python prints a negative zero). Without -bi every further run loses one more row, for all files (C147_again_violated).'),
'C148':('proved',''),
'C149':('proved','The memory that the C routine reads past its arrays is taken to be zero (CleanMemory), as in C30; that the first row is not used is the defect of C30.'),
'C150':('proved','The temperature is that of the best fit of a Maxwell distribution (C86); memory read past the arrays is zero (CleanMemory, see C30); in eV the area is 2.1 % too large (C122).'),
'C151':('partial','C151_backwards, C151_trajectory and C151_phonons hold for the FFT algorithms with symmetric windows; C151_mem_violated and C151_fourier_violated are counterexamples for the other two methods, C151_windows_violated one for the FFT with windows whose distance is not a whole number (their borders are cut towards zero, so the windows of the reversed data are other ones).'),
}
