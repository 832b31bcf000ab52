{
 "claims": [
  {
   "property": "C01",
   "status": "proved",
   "theorems": [
    "Verif.C01_count",
    "Verif.C01_order",
    "Verif.C01_order_3d",
    "Verif.C01_unit"
   ],
   "note": "For every dimension list (C01_order) and spelled out for 3 dimensions (C01_order_3d)."
  },
  {
   "property": "C02",
   "status": "proved",
   "theorems": [
    "Verif.C02_length",
    "Verif.C02_aligned",
    "Verif.C02_block"
   ],
   "note": ""
  },
  {
   "property": "C03",
   "status": "proved",
   "theorems": [
    "Verif.C03_range",
    "Verif.C03_reconstruct",
    "Verif.C03_row",
    "Verif.C03_injective",
    "Verif.C03_decode"
   ],
   "note": ""
  },
  {
   "property": "C04",
   "status": "partial",
   "theorems": [
    "Verif.C04_iff",
    "Verif.C04_partial",
    "Verif.C04_violated",
    "Verif.C04_diagflat"
   ],
   "note": "The property is false of the code in general: C04_violated (fcc cell, supercell 2,1,1); C04_iff says exactly when it holds, C04_partial for orthogonal cells and isotropic supercells; C04_diagflat: the formula used by the trajectory readers has the property."
  },
  {
   "property": "C05",
   "status": "proved",
   "theorems": [
    "Verif.C05_cart_scaled_cart",
    "Verif.C05_scaled_cart_scaled",
    "Verif.C05_supercell"
   ],
   "note": ""
  },
  {
   "property": "C06",
   "status": "proved",
   "theorems": [
    "Verif.C06_rule",
    "Verif.C06_first_occurrence",
    "Verif.C06_labels",
    "Verif.C06_classes",
    "Verif.C06_object"
   ],
   "note": ""
  },
  {
   "property": "C07",
   "status": "partial",
   "theorems": [
    "Verif.C07_partial",
    "Verif.C07_violated"
   ],
   "note": "False of the code (C07_violated); holds for supercell arguments that do not mix up the masses (C07_partial)."
  },
  {
   "property": "C08",
   "status": "partial",
   "theorems": [
    "Verif.C08_set_cell_partial",
    "Verif.C08_primitive_partial",
    "Verif.C08_set_positions_violated",
    "Verif.C08_set_positions_partial",
    "Verif.C08_set_cell_violated"
   ],
   "note": "Primitive matrix part proved; set_positions/set_cell parts are false in the code (violated theorems)."
  },
  {
   "property": "C09",
   "status": "partial",
   "theorems": [
    "Verif.C09_table",
    "Verif.C09_from_elements",
    "Verif.C09_from_masses",
    "Verif.C09_rounded_masses",
    "Verif.C09_explicit",
    "Verif.C09_unknown_mass_violated",
    "Verif.C09_zero_mass_violated"
   ],
   "note": "Explicit elements and tabulated masses proved, also for masses rounded to a few decimals; unknown and zero masses violate it."
  },
  {
   "property": "C10",
   "status": "proved",
   "theorems": [
    "Verif.C10_minimum_image"
   ],
   "note": "Tie convention as in C round()."
  },
  {
   "property": "C11",
   "status": "partial",
   "theorems": [
    "Verif.C11_determinant",
    "Verif.C11_inverse_partial",
    "Verif.C11_inverse_one_violated"
   ],
   "note": "Determinant for all n; inverse for n>=2; for n=1 the C code is wrong (C11_inverse_one_violated)."
  },
  {
   "property": "C12",
   "status": "proved",
   "theorems": [
    "Verif.C12_periodic_images",
    "Verif.C12_tie"
   ],
   "note": "Ties excepted; C12_tie shows the exception is needed."
  },
  {
   "property": "C13",
   "status": "partial",
   "theorems": [
    "Verif.C13_unknown_partial",
    "Verif.C13_noop",
    "Verif.C13_crop_partial",
    "Verif.C13_crop_twice_partial",
    "Verif.C13_velocity_violated"
   ],
   "note": "Proved for every reachable object whose velocity is known and memmap=False (C13_crop_partial, C13_crop_twice_partial); with a velocity still to be computed the claim is false (C13_velocity_violated): for equally spaced times all rows but the first are kept and the first one is the forward difference of the kept positions (C13_unknown_partial)."
  },
  {
   "property": "C14",
   "status": "partial",
   "theorems": [
    "Verif.C14_derived_partial",
    "Verif.C14_time_step_violated",
    "Verif.C14_mean_disp_violated",
    "Verif.C14_memmap_violated"
   ],
   "note": "Relative trajectory, velocity and mass weighted velocity proved for all histories without memmap; the time step, the mean displacement matrix and memmap clauses are false of the code (violated theorems)."
  },
  {
   "property": "C15",
   "status": "partial",
   "theorems": [
    "Verif.C15_exact",
    "Verif.C15_stop_partial",
    "Verif.C15_iff",
    "Verif.C15_violated"
   ],
   "note": "Exact multiples proved; stopping proved when the deviations have equal sign (C15_stop_partial); false in general because deviations cancel (C15_violated). C15_iff: the program goes on exactly when the signed deviations, added up, are small against the length of the vector of ratios."
  },
  {
   "property": "C16",
   "status": "proved",
   "theorems": [
    "Verif.C16_double",
    "Verif.C16_average",
    "Verif.C16_error",
    "Verif.C16_repeat",
    "Verif.C16_uniform"
   ],
   "note": "C16_double: all rounding errors of the loop included, for the unbounded exponent range of Model/Double."
  },
  {
   "property": "C17",
   "status": "partial",
   "theorems": [
    "Verif.C17_uniform_partial",
    "Verif.C17_static",
    "Verif.C17_wrapping",
    "Verif.C17_short",
    "Verif.C17_drift_violated",
    "Verif.C17_accuracy",
    "Verif.C17_harmonic"
   ],
   "note": "Uniform motion closer than half a cell to the reference position is exact; smooth motion is accurate to second order in the time step inside and first order at the ends (C17_accuracy); oscillations are damped by sin(wh)/(wh) (C17_harmonic). False for atoms that drift further than half a cell (C17_drift_violated)."
  },
  {
   "property": "C18",
   "status": "proved",
   "theorems": [
    "Verif.C18_entry",
    "Verif.C18_kinetic"
   ],
   "note": ""
  },
  {
   "property": "C19",
   "status": "partial",
   "theorems": [
    "Verif.C19_average",
    "Verif.C19_unit_cell_partial",
    "Verif.C19_unit_cell_violated"
   ],
   "note": "average_positions proved; to_unit_cell clause violated."
  },
  {
   "property": "C20",
   "status": "partial",
   "theorems": [
    "Verif.C20_average",
    "Verif.C20_covariance",
    "Verif.C20_posSemidef",
    "Verif.C20_first_call_partial",
    "Verif.C20_cache_violated"
   ],
   "note": "Average/covariance/PSD proved; the cached result ignores the argument (C20_cache_violated)."
  },
  {
   "property": "C21",
   "status": "partial",
   "theorems": [
    "Verif.C21_separate_partial",
    "Verif.C21_cleanup",
    "Verif.C21_violated"
   ],
   "note": "False for two objects of one process (C21_violated); proved for all histories of objects in separate directories or processes (C21_separate_partial)."
  },
  {
   "property": "C22",
   "status": "proved",
   "theorems": [
    "Verif.C22_agree"
   ],
   "note": ""
  },
  {
   "property": "C23",
   "status": "proved",
   "theorems": [
    "Verif.C23_power"
   ],
   "note": ""
  },
  {
   "property": "C24",
   "status": "proved",
   "theorems": [
    "Verif.C24_power",
    "Verif.C24_linear",
    "Verif.C24_origin",
    "Verif.C24_power_primitive"
   ],
   "note": "Linearity, origin shift, and conservation of power for every crystal and supercell, also with several primitive cells in the unit cell, over any complete set of commensurate wave vectors (C24_power); C24_power_primitive shows such a set for primitive unit cells."
  },
  {
   "property": "C25",
   "status": "proved",
   "theorems": [
    "Verif.C25_restricted",
    "Verif.C25_sum"
   ],
   "note": ""
  },
  {
   "property": "C26",
   "status": "proved",
   "theorems": [
    "Verif.C26_double",
    "Verif.C26_accepted_near",
    "Verif.C26_reciprocal",
    "Verif.C26_phase_iff",
    "Verif.C26_accepts"
   ],
   "note": "Exact arithmetic: C26_accepts, C26_phase_iff, C26_reciprocal, C26_accepted_near; double precision: C26_double (entries up to 16, supercells up to 256; the inverse computed by LAPACK is a hypothesis)."
  },
  {
   "property": "C27",
   "status": "partial",
   "theorems": [
    "Verif.C27_division",
    "Verif.C27_returns",
    "Verif.C27_double",
    "Verif.C27_double_one",
    "Verif.C27_double_size",
    "Verif.C27_double_violated",
    "Verif.C27_ragged_violated",
    "Verif.C27_average_exact",
    "Verif.C27_length"
   ],
   "note": "Proved in exact arithmetic (C27_division, C27_returns, C27_average_exact). In double precision (Model/Double.lean) two clauses are false: the last sample may be left out (C27_double_violated) and the pieces may differ by one sample, so that the average of the pieces raises an error (C27_ragged_violated); what is left, for up to 2^25 samples: C27_double, C27_double_one, C27_double_size."
  },
  {
   "property": "C28",
   "status": "partial",
   "theorems": [
    "Verif.C28_partial",
    "Verif.C28_returns",
    "Verif.C28_method",
    "Verif.C28_step_zero",
    "Verif.C28_violated",
    "Verif.C28_scale"
   ],
   "note": "The estimator the code computes is proved to be the stated sum; the intended correlation integral is not what it computes (C28_violated)."
  },
  {
   "property": "C29",
   "status": "proved",
   "theorems": [
    "Verif.C29_coefficients",
    "Verif.C29_monotone",
    "Verif.C29_nonneg"
   ],
   "note": ""
  },
  {
   "property": "C30",
   "status": "partial",
   "theorems": [
    "Verif.C30_violated",
    "Verif.C30_bounds_partial",
    "Verif.C30_garbage_violated",
    "Verif.C30_first_violated"
   ],
   "note": "All reads stay in bounds with fewer coefficients than data (C30_bounds_partial); with the reported off-by-one the first/last sample and garbage are used (C30_*_violated)."
  },
  {
   "property": "C31",
   "status": "proved",
   "theorems": [
    "Verif.C31_scale",
    "Verif.C31_phase",
    "Verif.C31_nonneg",
    "Verif.C31_no_overshoot",
    "Verif.C31_grid",
    "Verif.C31_correlogram",
    "Verif.C31_total"
   ],
   "note": ""
  },
  {
   "property": "C32",
   "status": "proved",
   "theorems": [
    "Verif.C32_selected",
    "Verif.C32_silent",
    "Verif.C32_partials",
    "Verif.C32_projected"
   ],
   "note": ""
  },
  {
   "property": "C33",
   "status": "partial",
   "theorems": [
    "Verif.C33_partial",
    "Verif.C33_values",
    "Verif.C33_settings",
    "Verif.C33_projection_violated",
    "Verif.C33_partials_violated",
    "Verif.C33_coordinate_violated"
   ],
   "note": "Proved for every history without set_projection_onto_atom_type, partial spectra and coordinate projections; those three are false (C33_*_violated)."
  },
  {
   "property": "C34",
   "status": "partial",
   "theorems": [
    "Verif.C34_getters",
    "Verif.C34_commensurate",
    "Verif.C34_range_violated"
   ],
   "note": "Proved for all spectra getters; get_commensurate_points_data restores the wave vector but replaces the frequency range (C34_range_violated)."
  },
  {
   "property": "C35",
   "status": "partial",
   "theorems": [
    "Verif.C35_process_shared_violated",
    "Verif.C35_process_default_violated",
    "Verif.C35_process_assign_violated",
    "Verif.C35_process_single_partial",
    "Verif.C35_defaults_violated",
    "Verif.C35_shared_violated",
    "Verif.C35_single_partial",
    "Verif.C35_all_share"
   ],
   "note": "False: settings are a process-wide singleton (C35_*_violated). Only the one-object case holds (C35_single_partial)."
  },
  {
   "property": "C36",
   "status": "proved",
   "theorems": [
    "Verif.C36_entries",
    "Verif.C36_gamma"
   ],
   "note": ""
  },
  {
   "property": "C37",
   "status": "proved",
   "theorems": [
    "Verif.C37_cover",
    "Verif.C37_partition",
    "Verif.C37_linked",
    "Verif.C37_unsorted_violated"
   ],
   "note": "For frequencies in the order given by the code; unsorted lists are a documented counterexample (C37_unsorted_violated)."
  },
  {
   "property": "C38",
   "status": "proved",
   "theorems": [
    "Verif.C38_average",
    "Verif.C38_equal",
    "Verif.C38_single",
    "Verif.C38_sum",
    "Verif.C38_unsorted_violated"
   ],
   "note": "Unsorted input counterexample in C38_unsorted_violated."
  },
  {
   "property": "C39",
   "status": "partial",
   "theorems": [
    "Verif.C39_double",
    "Verif.C39_double_resolution",
    "Verif.C39_double_repeat_violated",
    "Verif.C39_double_count_violated",
    "Verif.C39_limits",
    "Verif.C39_resolution",
    "Verif.C39_repeat",
    "Verif.C39_empty_violated"
   ],
   "note": "Proved in exact arithmetic. In double precision C39_double gives the range up to a thousandth of the resolution, for limits up to 10^6 times the resolution; there the number of values may be off by one and repeating set_spectra_resolution may add a value (C39_double_count_violated, C39_double_repeat_violated)."
  },
  {
   "property": "C40",
   "status": "partial",
   "theorems": [
    "Verif.C40_general",
    "Verif.C40_partial",
    "Verif.C40_violated"
   ],
   "note": "U = F + TS for every spectrum whose first sample has frequency 0 or no states, exact defect otherwise (C40_general); the code zeroes the first grid point, so real use starting at a positive frequency is off (C40_violated)."
  },
  {
   "property": "C41",
   "status": "proved",
   "theorems": [
    "Verif.C41_cv",
    "Verif.C41_entropy"
   ],
   "note": "The entropy = -dF/dT clause is for frequency lists starting at 0 (the code drops the first point of F)."
  },
  {
   "property": "C42",
   "status": "proved",
   "theorems": [
    "Verif.C42_bounds",
    "Verif.C42_modes",
    "Verif.C42_entropy2"
   ],
   "note": ""
  },
  {
   "property": "C43",
   "status": "proved",
   "theorems": [
    "Verif.C43_correction",
    "Verif.C43_energy",
    "Verif.C43_shift",
    "Verif.C43_shift_energy"
   ],
   "note": ""
  },
  {
   "property": "C44",
   "status": "proved",
   "theorems": [
    "Verif.C44_maximum",
    "Verif.C44_width",
    "Verif.C44_area"
   ],
   "note": ""
  },
  {
   "property": "C45",
   "status": "proved",
   "theorems": [
    "Verif.C45_symmetric",
    "Verif.C45_width",
    "Verif.C45_fit",
    "Verif.C45_report"
   ],
   "note": ""
  },
  {
   "property": "C46",
   "status": "partial",
   "theorems": [
    "Verif.C46_width_partial",
    "Verif.C46_violated",
    "Verif.C46_failed",
    "Verif.C46_lists"
   ],
   "note": "Lists complete (C46_lists); width of the damped oscillator never negative, of Lorentzians only for a non-negative fitted half width (C46_width_partial), otherwise negative widths are accepted (C46_violated)."
  },
  {
   "property": "C47",
   "status": "partial",
   "theorems": [
    "Verif.C47_damped",
    "Verif.C47_damped_peak",
    "Verif.C47_damped_width",
    "Verif.C47_gaussian_value",
    "Verif.C47_gaussian_violated"
   ],
   "note": "Damped oscillator clauses proved; the Gaussian integrates to 2 pi c rather than the reported area (C47_gaussian_violated)."
  },
  {
   "property": "C48",
   "status": "partial",
   "theorems": [
    "Verif.C48_window",
    "Verif.C48_to_end",
    "Verif.C48_last_steps",
    "Verif.C48_last_zero_violated",
    "Verif.C48_memmap_partial",
    "Verif.C48_memmap_violated",
    "Verif.C48_memmap_empty",
    "Verif.C48_truncated_violated",
    "Verif.C48_text"
   ],
   "note": "Proved for every well formed file and window without memmap (C48_window, C48_to_end, C48_last_steps) and with memmap if the file is long enough (C48_memmap_partial). False with memmap on shorter files (zero frames) and for dumps cut off after an ATOMS header (extra time stamp). C48_text: the characters of the file, for any spacing and number format."
  },
  {
   "property": "C49",
   "status": "partial",
   "theorems": [
    "Verif.C49_partial",
    "Verif.C49_frames_partial",
    "Verif.C49_time_violated",
    "Verif.C49_memmap_violated",
    "Verif.C49_memmap_empty",
    "Verif.C49_text_partial"
   ],
   "note": "Frames are right without memmap; time stamps of skipped frames are kept (C49_time_violated); with memmap only the last frame survives (C49_memmap_violated). C49_text_partial: the characters of the file."
  },
  {
   "property": "C50",
   "status": "partial",
   "theorems": [
    "Verif.C50_text_partial",
    "Verif.C50_text_violated",
    "Verif.C50_partial",
    "Verif.C50_violated",
    "Verif.C50_example_violated"
   ],
   "note": "Only initial_cut=1 is right; otherwise the first e+1-i frames are returned (C50_violated, for all files). C50_text_partial and C50_text_violated are about the characters of the file: number of atoms, POTIM, lattice vectors, steps with any lines between them."
  },
  {
   "property": "C51",
   "status": "partial",
   "theorems": [
    "Verif.C51_lammps_count",
    "Verif.C51_violated"
   ],
   "note": "False: limit+2 frames are read (C51_lammps_count, exact for all files; C51_violated)."
  },
  {
   "property": "C52",
   "status": "partial",
   "theorems": [
    "Verif.C52_roundtrip",
    "Verif.C52_velocity_only",
    "Verif.C52_window_partial",
    "Verif.C52_zero",
    "Verif.C52_time_violated",
    "Verif.C52_rotation_violated"
   ],
   "note": "Round trip proved for all data and supercells in the orientation of the unit cell; the window does not cut the time stamps (C52_time_violated, for all files) and rotated supercells lose their orientation (C52_rotation_violated); read_from 0 reads the last frame only (C52_zero)."
  },
  {
   "property": "C53",
   "status": "partial",
   "theorems": [
    "Verif.C53_concat_partial",
    "Verif.C53_success",
    "Verif.C53_time_violated",
    "Verif.C53_example_violated"
   ],
   "note": "Concatenation of velocity, trajectory, vc proved for any number of files; time stamps are those of the first file, uncut (C53_time_violated, for all inputs)."
  },
  {
   "property": "C54",
   "status": "partial",
   "theorems": [
    "Verif.C54_permutation",
    "Verif.C54_nearest",
    "Verif.C54_order_partial",
    "Verif.C54_violated"
   ],
   "note": "Each atom is assigned to the nearest atom of the unit cell, periodic images included (C54_nearest); np.argsort of the template is always a permutation (C54_permutation); the order of get_positions is recovered for displaced, wrapped atoms in any order when the outermost coordinate is in the outer half of the last cell (C54_order_partial); false for structures with all fractional coordinates below 1/2 (C54_violated)."
  },
  {
   "property": "C55",
   "status": "partial",
   "theorems": [
    "Verif.C55_roundtrip_partial",
    "Verif.C55_elements_iff",
    "Verif.C55_violated",
    "Verif.C55_supercell_partial",
    "Verif.C55_text_partial",
    "Verif.C55_text_stable"
   ],
   "note": "Cell and coordinates always survive; elements exactly if equal elements are adjacent (C55_elements_iff), so false in general (C55_violated). C55_text_partial: the same character by character, with the decimals of the file."
  },
  {
   "property": "C56",
   "status": "partial",
   "theorems": [
    "Verif.C56_types",
    "Verif.C56_isotopes_violated"
   ],
   "note": "Proved for all lists of elements whose masses depend on the element only; false for isotopes (C56_isotopes_violated)."
  },
  {
   "property": "C57",
   "status": "partial",
   "theorems": [
    "Verif.C57_gram",
    "Verif.C57_rotation",
    "Verif.C57_box",
    "Verif.C57_supercell_violated",
    "Verif.C57_supercell_partial"
   ],
   "note": "Gram matrix, box numbers, rotation of the positions proved for every non-singular cell given to the generator; for anisotropic supercells of non-orthogonal cells that cell is wrong (C57_supercell_violated, from C04)."
  },
  {
   "property": "C58",
   "status": "proved",
   "theorems": [
    "Verif.C58_triclinic",
    "Verif.C58_orthogonal",
    "Verif.C58_lines"
   ],
   "note": "For all boxes, orthogonal and triclinic, tilts of any sign."
  },
  {
   "property": "C59",
   "status": "proved",
   "theorems": [
    "Verif.C59_geometry",
    "Verif.C59_trajectory",
    "Verif.C59_text"
   ],
   "note": "For every non-singular cell, orthogonal matrix and supercell, and for whole trajectories through the reader model (C59_text: from the characters of the file)."
  },
  {
   "property": "C60",
   "status": "proved",
   "theorems": [
    "Verif.C60_first",
    "Verif.C60_lammps",
    "Verif.C60_default"
   ],
   "note": "All contents and any number of inspected bytes; reading the file itself (mmap, missing file) is outside the model."
  },
  {
   "property": "C61",
   "status": "partial",
   "theorems": [
    "Verif.C61_last",
    "Verif.C61_matrix",
    "Verif.C61_comment_violated",
    "Verif.C61_comment_example_violated"
   ],
   "note": "For every file that is read: last value wins, default POSCAR, commented keywords are ignored (C61_last). False that comment lines are always ignored: a comment right after a keyword becomes its value (C61_comment_violated)."
  },
  {
   "property": "C62",
   "status": "partial",
   "theorems": [
    "Verif.C62_set_partial",
    "Verif.C62_save_violated",
    "Verif.C62_default",
    "Verif.C62_dict"
   ],
   "note": "Every property but save_renormalized_frequencies, for all histories; that one can never be changed through its setter (C62_save_violated)."
  },
  {
   "property": "C63",
   "status": "proved",
   "theorems": [
    "Verif.C63_ends_iff",
    "Verif.C63_computed",
    "Verif.C63_user_types_violated"
   ],
   "note": "Ends iff all types below the number of types occur (C63_ends_iff), which holds for all types the code computes (C63_computed); not for user-given types (C63_user_types_violated). The text is C148."
  },
  {
   "property": "C64",
   "status": "proved",
   "theorems": [
    "Verif.C64_roundtrip"
   ],
   "note": "For all sizes and arrays."
  },
  {
   "property": "C65",
   "status": "proved",
   "theorems": [
    "Verif.C65_points",
    "Verif.C65_gamma"
   ],
   "note": "For all operations, primitive matrices and points; the order of the result is not modelled (a Python set)."
  },
  {
   "property": "C66",
   "status": "proved",
   "theorems": [
    "Verif.C66_double",
    "Verif.C66_double_violated",
    "Verif.C66_points"
   ],
   "note": "For every resolution > 0, over the reals (C66_points) and with every operation rounded to a double (C66_double); C66_double_violated shows that a stronger claim, ending exactly at the end point, fails with floats."
  },
  {
   "property": "C67",
   "status": "proved",
   "theorems": [
    "Verif.C67_fractional",
    "Verif.C67_posSemidef",
    "Verif.C67_orthogonal",
    "Verif.C67_scale",
    "Verif.C67_trajectory"
   ],
   "note": "For all cells and data; C67_trajectory ties it to the mean displacement matrix model of C20."
  },
  {
   "property": "C68",
   "status": "partial",
   "theorems": [
    "Verif.C68_permutation_partial",
    "Verif.C68_violated"
   ],
   "note": "Holds if each band keeps a squared overlap above 1/2 along the segment (C68_permutation_partial); false in general: two orthonormal eigenvector sets give the order 1,0,0 (C68_violated)."
  },
  {
   "property": "C69",
   "status": "partial",
   "theorems": [
    "Verif.C69_groups_defined",
    "Verif.C69_columns_defined",
    "Verif.C69_groups_partial",
    "Verif.C69_first_row_violated"
   ],
   "note": "With -bi, for all files and groups (C69_groups_partial); without -bi the first row is lost in every file (C69_first_row_violated)."
  },
  {
   "property": "C70",
   "status": "partial",
   "theorems": [
    "Verif.C70_scaled_violated",
    "Verif.C70_amplitude_violated",
    "Verif.C70_harmonic_partial",
    "Verif.C70_periodic_partial",
    "Verif.C70_equipartition_violated"
   ],
   "note": "Phase zero: equal energies, equations of motion, periodicity; any other phase multiplies all displacements by exp(phase_0) (C70_scaled_violated, for all inputs)."
  },
  {
   "property": "C71",
   "status": "proved",
   "theorems": [
    "Verif.C71_values",
    "Verif.C71_count",
    "Verif.C71_scale"
   ],
   "note": ""
  },
  {
   "property": "C72",
   "status": "partial",
   "theorems": [
    "Verif.C72_partial",
    "Verif.C72_iff",
    "Verif.C72_violated"
   ],
   "note": "Agreement in symmetric (orthogonal) cells away from ties; false in sheared cells (C72_violated). C72_iff: the two agree off the ties exactly when the cell is symmetric."
  },
  {
   "property": "C73",
   "status": "partial",
   "theorems": [
    "Verif.C73_crop_violated",
    "Verif.C73_qha_violated"
   ],
   "note": "False (C73_*_violated): no cache is cleared."
  },
  {
   "property": "C74",
   "status": "partial",
   "theorems": [
    "Verif.C74_bose_einstein",
    "Verif.C74_energy",
    "Verif.C74_quantum_violated"
   ],
   "note": "The relation holds with hbar*position; with the documented quantum h*position it is false (C74_quantum_violated)."
  },
  {
   "property": "C75",
   "status": "partial",
   "theorems": [
    "Verif.C75_projected",
    "Verif.C75_identity",
    "Verif.C75_normalized",
    "Verif.C75_harmonic_partial",
    "Verif.C75_violated"
   ],
   "note": "Identity and normalisation proved; harmonic values under the stated grid hypotheses (C75_harmonic_partial), false otherwise (C75_violated)."
  },
  {
   "property": "C76",
   "status": "partial",
   "theorems": [
    "Verif.C76_partial",
    "Verif.C76_id_violated",
    "Verif.C76_iff",
    "Verif.C76_velocity_violated"
   ],
   "note": "Exactly for headers starting with x y z / vx vy vz (C76_iff); otherwise false (C76_id_violated, C76_velocity_violated)."
  },
  {
   "property": "C77",
   "status": "partial",
   "theorems": [
    "Verif.C77_lines",
    "Verif.C77_violated"
   ],
   "note": "False: the scale factor is ignored (C77_violated, for all files)."
  },
  {
   "property": "C78",
   "status": "partial",
   "theorems": [
    "Verif.C78_poscar_partial",
    "Verif.C78_truncated",
    "Verif.C78_cartesian_violated",
    "Verif.C78_text_partial"
   ],
   "note": "Both styles and direct coordinates proved, on words and on characters (C78_text_partial); Cartesian coordinates are not multiplied by the scale factor (C78_cartesian_violated, for all files)."
  },
  {
   "property": "C79",
   "status": "partial",
   "theorems": [
    "Verif.C79_distances_partial",
    "Verif.C79_iff",
    "Verif.C79_sheared_violated"
   ],
   "note": "Exactly if the dump has the angles of the structure (C79_iff); false for sheared boxes (C79_sheared_violated)."
  },
  {
   "property": "C80",
   "status": "partial",
   "theorems": [
    "Verif.C80_bands_partial",
    "Verif.C80_labels_partial",
    "Verif.C80_labels_violated",
    "Verif.C80_mesh_violated",
    "Verif.C80_example_violated"
   ],
   "note": "Holds unless the section is directly followed by MESH PHONOPY; then reading raises ValueError (C80_mesh_violated, for all such files)."
  },
  {
   "property": "C81",
   "status": "partial",
   "theorems": [
    "Verif.C81_options_partial",
    "Verif.C81_ignored_violated"
   ],
   "note": "Four options reach the parameters; --fcsymm and --save_renormalized_frequencies never do (C81_ignored_violated)."
  },
  {
   "property": "C82",
   "status": "partial",
   "theorems": [
    "Verif.C82_element_partial",
    "Verif.C82_violated"
   ],
   "note": "Only if the first atoms are one of each element; false otherwise (C82_violated)."
  },
  {
   "property": "C83",
   "status": "proved",
   "theorems": [
    "Verif.C83_frequencies",
    "Verif.C83_harmonic"
   ],
   "note": "phonopy functions create_dynamical_matrices and the frequency convention are modelled from their documentation, not from the repository; the Fourier transform to real-space force constants is not modelled."
  },
  {
   "property": "C84",
   "status": "proved",
   "theorems": [
    "Verif.C84_line",
    "Verif.C84_local",
    "Verif.C84_window",
    "Verif.C84_undefined",
    "Verif.C84_defined",
    "Verif.C84_least_squares",
    "Verif.C84_even"
   ],
   "note": "C84_line wherever a smoothed value exists; C84_defined and C84_even say exactly when; C84_undefined: none exists for a factor of one or more. Negative factors are not modelled."
  },
  {
   "property": "C85",
   "status": "partial",
   "theorems": [
    "Verif.C85_runs",
    "Verif.C85_double",
    "Verif.C85_double_violated",
    "Verif.C85_frames_partial",
    "Verif.C85_reordered_iff",
    "Verif.C85_order_partial",
    "Verif.C85_total_time",
    "Verif.C85_setup",
    "Verif.C85_cell",
    "Verif.C85_reordered_violated"
   ],
   "note": "Holds if LAMMPS keeps its internal order during the run (C85_frames_partial, C85_order_partial, C85_total_time, C85_setup); exactly which reorderings are survived: C85_reordered_iff; the cell: C85_cell; number of frames in double precision: C85_double (at most one frame is lost; C85_double_violated); false in general (C85_reordered_violated: the id permutation is applied instead of its inverse)."
  },
  {
   "property": "C86",
   "status": "partial",
   "theorems": [
    "Verif.C86_fit",
    "Verif.C86_equipartition",
    "Verif.C86_printed",
    "Verif.C86_cache",
    "Verif.C86_zero_violated"
   ],
   "note": "The equipartition temperature for all trajectories in which no atom is at rest (SciPy: the fit is taken to be a maximum of the likelihood; it exists and is unique, C86_fit); a temperature of 0 that was set is ignored (C86_zero_violated)."
  },
  {
   "property": "C87",
   "status": "proved",
   "theorems": [
    "Verif.C87_best",
    "Verif.C87_width"
   ],
   "note": "For all ranges, spectra, fits; the bounds of the width for positive errors (a zero error gives nan in the code)."
  },
  {
   "property": "C88",
   "status": "partial",
   "theorems": [
    "Verif.C88_density_partial",
    "Verif.C88_plot_centres",
    "Verif.C88_file_violated",
    "Verif.C88_file_defined",
    "Verif.C88_text"
   ],
   "note": "Densities and plot centres for all data (C88_density_partial, C88_plot_centres); in every file written the displacement of a row is one bin below its bin (C88_file_violated). C88_text: the characters of the file read back give four decimals of the displacement and ten digits of the densities."
  },
  {
   "property": "C89",
   "status": "partial",
   "theorems": [
    "Verif.C89_arrow_partial",
    "Verif.C89_iff",
    "Verif.C89_mass_violated"
   ],
   "note": "Exactly if the atom numbered by the type has the same mass (C89_iff; primitive cells); false in conventional cells (C89_mass_violated)."
  },
  {
   "property": "C90",
   "status": "partial",
   "theorems": [
    "Verif.C90_given",
    "Verif.C90_consistent",
    "Verif.C90_latest_constants",
    "Verif.C90_force_sets",
    "Verif.C90_stale_violated",
    "Verif.C90_latest_sets_false",
    "Verif.C90_no_forces",
    "Verif.C90_supercell_none",
    "Verif.C90_repeat",
    "Verif.C90_supercell",
    "Verif.C90_check",
    "Verif.C90_check_false",
    "Verif.C90_qha"
   ],
   "note": "For all histories the forces and supercell belong together (C90_consistent), force constants set last are used (C90_latest_constants), arguments and QHA forces do not touch the structure; false: force sets set after a calculation are ignored (C90_stale_violated, for all inputs), the check of the number of atoms is wrong for non-triangular supercell matrices (C90_check exact, C90_check_false). Phonopy is a parameter."
  },
  {
   "property": "C91",
   "status": "proved",
   "theorems": [
    "Verif.C91_total",
    "Verif.C91_projected",
    "Verif.C91_projected_sum",
    "Verif.C91_thermal",
    "Verif.C91_extensive"
   ],
   "note": "For all spectra and cells; phonopy results are arguments of the model."
  },
  {
   "property": "C92",
   "status": "partial",
   "theorems": [
    "Verif.C92_sound",
    "Verif.C92_double",
    "Verif.C92_violated"
   ],
   "note": "What is returned is characterised (C92_sound, C92_double: points of the doubled supercell); the property is false (C92_violated: extra points, 1/3 lost)."
  },
  {
   "property": "C93",
   "status": "partial",
   "theorems": [
    "Verif.C93_connected",
    "Verif.C93_dictionary",
    "Verif.C93_print_violated"
   ],
   "note": "Data and connection proved for all paths; printing the bands always fails unless they are cached (C93_print_violated)."
  },
  {
   "property": "C94",
   "status": "partial",
   "theorems": [
    "Verif.C94_rows_partial",
    "Verif.C94_extra_violated",
    "Verif.C94_switch_violated",
    "Verif.C94_mesh"
   ],
   "note": "Rows for all histories with a fixed supercell setting (C94_rows_partial), mesh file (C94_mesh); false: group velocities stay in later files (C94_extra_violated, for all inputs), mixed-up points after changing the setting (C94_switch_violated)."
  },
  {
   "property": "C95",
   "status": "partial",
   "theorems": [
    "Verif.C95_list_violated",
    "Verif.C95_decimals",
    "Verif.C95_file",
    "Verif.C95_dict_partial",
    "Verif.C95_thirds_violated"
   ],
   "note": "False: the list written is not the dictionary expected (C95_list_violated, for all files); with a dictionary only for points of at most eight decimals (C95_dict_partial, C95_thirds_violated)."
  },
  {
   "property": "C96",
   "status": "partial",
   "theorems": [
    "Verif.C96_pressure_all",
    "Verif.C96_gradient_all",
    "Verif.C96_range_defined",
    "Verif.C96_reference",
    "Verif.C96_polynomial",
    "Verif.C96_default_volume",
    "Verif.C96_interpolate_violated",
    "Verif.C96_no_reference_violated",
    "Verif.C96_wave_vectors_violated",
    "Verif.C96_range",
    "Verif.C96_bands_violated",
    "Verif.C96_bands",
    "Verif.C96_pressure_pairs",
    "Verif.C96_gradient_violated",
    "Verif.C96_index"
   ],
   "note": "Reference temperature, polynomial data, ranges and pressure pairs proved for all data; false: interpolate_volume is inverted, no default reference temperature, wave vectors of the other files are ignored, no automatic band path, wrong volumes in the gradient plot."
  },
  {
   "property": "C97",
   "status": "partial",
   "theorems": [
    "Verif.C97_aligned",
    "Verif.C97_force_constants_iff",
    "Verif.C97_force_constants_violated",
    "Verif.C97_temperatures_violated"
   ],
   "note": "Thermal properties aligned for every order (C97_aligned); force constants aligned exactly when the volumes are already ascending (C97_force_constants_iff, C97_force_constants_violated); temperatures of the last file only."
  },
  {
   "property": "C98",
   "status": "partial",
   "theorems": [
    "Verif.C98_consistent_partial",
    "Verif.C98_choice",
    "Verif.C98_select",
    "Verif.C98_other_keys",
    "Verif.C98_long_line",
    "Verif.C98_prompts",
    "Verif.C98_keys",
    "Verif.C98_exit",
    "Verif.C98_mem_violated",
    "Verif.C98_wave_violated",
    "Verif.C98_nac_violated",
    "Verif.C98_thermal_violated",
    "Verif.C98_list",
    "Verif.C98_list_fails",
    "Verif.C98_list_violated"
   ],
   "note": "All sessions (lists of characters): choices, exit, selection proved; results are those of a new object as long as the lines are acceptable (C98_consistent_partial). False: MEM coefficients and a mistyped wave vector leave old results in place (C98_mem_violated, C98_wave_violated, for all routines), NAC menu (C98_nac_violated), thermal table with two ranges (C98_thermal_violated), long lists of frequencies (C98_list_violated). Editing keys inside a prompt and failures inside numerical routines not modelled."
  },
  {
   "property": "C99",
   "status": "partial",
   "theorems": [
    "Verif.C99_read",
    "Verif.C99_masses",
    "Verif.C99_missing_violated",
    "Verif.C99_text"
   ],
   "note": "Proved for all files of the layout VASP writes (C99_read, C99_masses); false for files without a keyword: read from the start of the file without notice (C99_missing_violated). C99_text is about the characters of the file (int, float, split of Python)."
  },
  {
   "property": "C100",
   "status": "partial",
   "theorems": [
    "Verif.C100_guess_defined",
    "Verif.C100_history",
    "Verif.C100_once",
    "Verif.C100_retry",
    "Verif.C100_failure",
    "Verif.C100_start",
    "Verif.C100_lorentzian_curve",
    "Verif.C100_damped_curve",
    "Verif.C100_gaussian_curve",
    "Verif.C100_maximum",
    "Verif.C100_maximum_violated",
    "Verif.C100_area",
    "Verif.C100_error",
    "Verif.C100_drawn",
    "Verif.C100_guess"
   ],
   "note": "All clauses proved for all histories and optimisers, except that the maximum of a Lorentzian leaves out the base line, unlike that of the other functions (C100_maximum_violated). curve_fit, quad, minimize_scalar are deterministic parameters."
  },
  {
   "property": "C101",
   "status": "partial",
   "theorems": [
    "Verif.C101_asymmetric_violated",
    "Verif.C101_asymmetric_iff",
    "Verif.C101_asymmetric_factor",
    "Verif.C101_lorentzian",
    "Verif.C101_damped_partial",
    "Verif.C101_damped_violated",
    "Verif.C101_gaussian",
    "Verif.C101_asymmetric_partial"
   ],
   "note": "Lorentzian and Gaussian proved (C101_lorentzian, C101_gaussian); asymmetric Lorentzian for asymmetry 0 (C101_asymmetric_partial), false for every asymmetry but 0, the reported width then being strictly too large (C101_asymmetric_violated; C101_asymmetric_iff: exact), by any factor (C101_asymmetric_factor); the damped oscillator's width is strictly below the full width at half maximum (C101_damped_violated), by a factor of at most sqrt(1+2(width/position)^2) (C101_damped_partial)."
  },
  {
   "property": "C102",
   "status": "partial",
   "theorems": [
    "Verif.C102_options",
    "Verif.C102_results",
    "Verif.C102_renormalized",
    "Verif.C102_independent_partial",
    "Verif.C102_range_violated",
    "Verif.C102_plot",
    "Verif.C102_thermal_violated",
    "Verif.C102_runs"
   ],
   "note": "Proved: options (C102_options), order and value of every result for the model of the program (C102_results), independence of velocity files, force constants, quasiparticle data, mesh and bands from other requests and from -r (C102_renormalized), of all results from other requests if none needs the quasiparticles (C102_independent_partial), the additional curve in the plot (C102_plot). Violated by the code and proved so: with -sfc the saved and drawn spectra ignore -r and use the automatic range (C102_range_violated); the frequency limit of the harmonic column of the thermal properties depends on --thm_reference (C102_thermal_violated). Not modelled: options that use the trajectory only, temperature, QHA force constants, interactive mode."
  },
  {
   "property": "C103",
   "status": "proved",
   "theorems": [
    "Verif.C103_amplitudes",
    "Verif.C103_complete",
    "Verif.C103_energy"
   ],
   "note": "Exact arithmetic. Hypotheses: the types are those of a crystal (C06), eigenvectors orthonormal and complete, wave vectors commensurate (C26), pairwise inequivalent and as many as primitive cells."
  },
  {
   "property": "C104",
   "status": "proved",
   "theorems": [
    "Verif.C104_chain",
    "Verif.C104_sum"
   ],
   "note": "For the estimator the C code computes (see C28) in exact arithmetic; the common factor unit_conversion is left out. C104_chain: the same for what the three functions return from structure and trajectory (Model/Chain, Model/ChainFull), unit_conversion included. The FFT and MEM methods are not linear in the correlations and have no such rule."
  },
  {
   "property": "C105",
   "status": "proved",
   "theorems": [
    "Verif.C105_shape",
    "Verif.C105_independent",
    "Verif.C105_values",
    "Verif.C105_coefficients",
    "Verif.C105_fourier_returns",
    "Verif.C105_fft_returns",
    "Verif.C105_algorithm",
    "Verif.C105_nonneg"
   ],
   "note": "Exact arithmetic; the out-of-bounds read of mem.c (C30) is represented by a readable element behind the data, whose content is part of the environment. The progress bars and the shape of a result without columns are not modelled."
  },
  {
   "property": "C106",
   "status": "partial",
   "theorems": [
    "Verif.C106_scale",
    "Verif.C106_phase",
    "Verif.C106_mixing",
    "Verif.C106_mem_scale_partial",
    "Verif.C106_mem_small_violated",
    "Verif.C106_mem_phase_violated",
    "Verif.C106_fft_mixing_violated"
   ],
   "note": "Proved: scale and phase for direct Fourier and all FFT methods, mixing for direct Fourier, scale for MEM with real velocities and factors of at least 1. Violated: MEM depends on the phase of the eigenvectors (it treats real and imaginary part as separate signals) and returns zero for small velocities; the FFT sums depend on the mixing (absolute value of a truncated correlogram)."
  },
  {
   "property": "C107",
   "status": "partial",
   "theorems": [
    "Verif.C107_padding_violated"
   ],
   "note": "Violated for all inputs: no spectrum depends on the padding, it only suppresses the warning (C105_fft_returns states when the warning is printed)."
  },
  {
   "property": "C108",
   "status": "partial",
   "theorems": [
    "Verif.C108_line",
    "Verif.C108_peak",
    "Verif.C108_absent",
    "Verif.C108_fourier_violated",
    "Verif.C108_mem_even",
    "Verif.C108_normal_modes",
    "Verif.C108_other_modes"
   ],
   "note": "Proved for the FFT methods (algorithms 2-5), any division into pieces, any position of the requested frequencies, from the trajectory to the spectrum. The direct Fourier method (algorithm 0) violates it: the spectrum of a constant velocity grows with the frequency (C108_fourier_violated). The maximum entropy spectrum is even in the frequency (C108_mem_even), so it cannot tell f from -f; its peak position is not proved."
  },
  {
   "property": "C109",
   "status": "proved",
   "theorems": [
    "Verif.C109_plain",
    "Verif.C109_gamma",
    "Verif.C109_ticks",
    "Verif.C109_missing",
    "Verif.C109_element"
   ],
   "note": "The texts and positions handed to matplotlib; what matplotlib draws is not modelled."
  },
  {
   "property": "C110",
   "status": "partial",
   "theorems": [
    "Verif.C110_curves_defined",
    "Verif.C110_times_violated",
    "Verif.C110_curves",
    "Verif.C110_save_vc",
    "Verif.C110_save_vq",
    "Verif.C110_vq",
    "Verif.C110_default",
    "Verif.C110_trajectory",
    "Verif.C110_empty_violated"
   ],
   "note": "Violated for every number of steps from 2 on: the times are linspace(0, n dt, n), so every point but the first is drawn at a wrong time, the last one a whole step late (C110_times_violated). The selection, the values and the files are proved (C110_curves, C110_trajectory, C110_save_vc, C110_save_vq); an empty selection shows nothing in the plot of the trajectory and atom 0 in that of the velocity (C110_empty_violated)."
  },
  {
   "property": "C111",
   "status": "proved",
   "theorems": [
    "Verif.C111_words",
    "Verif.C111_nat",
    "Verif.C111_fixed_eq",
    "Verif.C111_fixed",
    "Verif.C111_exp",
    "Verif.C111_exp_stable",
    "Verif.C111_fixed_stable",
    "Verif.C111_int",
    "Verif.C111_float"
   ],
   "note": "Exact numbers instead of floats: the further rounding of a decimal text to the nearest float (relative 1e-16) is not modelled."
  },
  {
   "property": "C112",
   "status": "partial",
   "theorems": [
    "Verif.C112_read",
    "Verif.C112_fine_violated",
    "Verif.C112_first_row_violated",
    "Verif.C112_short",
    "Verif.C112_groups",
    "Verif.C112_columns"
   ],
   "note": "Holds with -bi for frequencies more than 1e-4 apart. Violated (proved): without -bi the first row is lost; frequencies finer than 5e-5 coincide in the file. Columns may be counted from the back (C112_columns). The text of the file is modelled character by character."
  },
  {
   "property": "C113",
   "status": "proved",
   "theorems": [
    "Verif.C113_document",
    "Verif.C113_text"
   ],
   "note": "C113_document for any conversion of numbers, C113_text for the characters of the file with Python's split, strip, int and float."
  },
  {
   "property": "C114",
   "status": "proved",
   "theorems": [
    "Verif.C114_file"
   ],
   "note": "C114_file. Masses are assumed to depend on the element only (isotopes: see C56, violated); the cell is the one the structure reports (supercells: see C04/C57). Python's str of a charge is a parameter assumed to read back as the same number. Real arithmetic instead of floats."
  },
  {
   "property": "C115",
   "status": "proved",
   "theorems": [
    "Verif.C115_schedule",
    "Verif.C115_race_free",
    "Verif.C115_progress",
    "Verif.C115_ends",
    "Verif.C115_finishes",
    "Verif.C115_fourier",
    "Verif.C115_mem"
   ],
   "note": "C115_schedule for any loop body, C115_mem and C115_fourier for the two routines, C115_race_free, C115_progress, C115_ends, C115_finishes. Sequentially consistent interleaving of loads and stores (what C promises without data races)."
  },
  {
   "property": "C116",
   "status": "proved",
   "theorems": [
    "Verif.C116_results",
    "Verif.C116_roundtrip",
    "Verif.C116_last_steps"
   ],
   "note": "C116_results (results of any loaded calculation), C116_roundtrip (save, load, any calls), C116_last_steps. Symmetry averaging is switched off for loaded files by the program, so the comparison is with a calculation without symmetry; changing the wave vector or asking for the full spectrum needs velocities and is excluded. Python ints for the steps option are naturals."
  },
  {
   "property": "C117",
   "status": "partial",
   "theorems": [
    "Verif.C117_displacements",
    "Verif.C117_relative_violated",
    "Verif.C117_correlation",
    "Verif.C117_correlation_null",
    "Verif.C117_mem"
   ],
   "note": "C117_displacements, C117_correlation and C117_mem prove safety, values and the exact set of blocks left for all inputs (mem with one readable word behind its arrays, C30 shows it reads one beyond); the leaks violate the rest of the property (C117_relative_violated: growth with the number of atoms; C117_correlation_null: an invalid method keeps three arrays, the third the result itself). Loops over frequencies and frames run one after the other (C115 covers the threads). malloc never fails in the model; numpy references are blocks. Freed blocks are never reused, so an access after free is always an error of the model."
  },
  {
   "property": "C118",
   "status": "partial",
   "theorems": [
    "Verif.C118_positions",
    "Verif.C118_adp_partial",
    "Verif.C118_adp_order_violated",
    "Verif.C118_thermal",
    "Verif.C118_phonopy",
    "Verif.C118_peaks",
    "Verif.C118_lists"
   ],
   "note": "C118_positions, C118_thermal, C118_phonopy, C118_peaks hold in full for real values (inf and nan not modelled; the titles with the resolution not modelled); C118_lists links the returned lists to C36. C118_adp_partial: the rows are a permutation of one row per atom, grouped by type; C118_adp_order_violated shows Na Cl Na printed as Na Na Cl."
  },
  {
   "property": "C119",
   "status": "partial",
   "theorems": [
    "Verif.C119_pressure_defined",
    "Verif.C119_history",
    "Verif.C119_values",
    "Verif.C119_reference_violated",
    "Verif.C119_script",
    "Verif.C119_runs",
    "Verif.C119_reload",
    "Verif.C119_options_violated",
    "Verif.C119_volume",
    "Verif.C119_pressure"
   ],
   "note": "C119_history, C119_values, C119_script, C119_runs, C119_reload, C119_volume and C119_pressure hold in full; C119_options_violated and C119_reference_violated refute the rest. phonopy, np.polyfit and interp1d are parameters; the yaml files do not change during a run; not modelled: PhonopyQHA itself, read_v_e, plots (their band labels are C109)."
  },
  {
   "property": "C120",
   "status": "partial",
   "theorems": [
    "Verif.C120_other_files",
    "Verif.C120_any_moment",
    "Verif.C120_history",
    "Verif.C120_repeat",
    "Verif.C120_simultaneous",
    "Verif.C120_contents",
    "Verif.C120_frequencies",
    "Verif.C120_overwrite_violated",
    "Verif.C120_fixed_names_violated"
   ],
   "note": "Proved for all processes, crash points, histories and interleavings, with contents arbitrary while a file is open. The condition that results are not written over input files is needed (C120_overwrite_violated: -sfc FORCE_CONSTANTS), and the names of -sdata, -smesh and of the table of frequencies cannot be chosen, so that two runs in one directory replace each other's results (C120_fixed_names_violated). Not modelled: --run_lammps, --interactive, the temporary files of --memmap (C21), two processes writing the same file at the same time."
  },
  {
   "property": "C121",
   "status": "partial",
   "theorems": [
    "Verif.C121_column",
    "Verif.C121_same",
    "Verif.C121_shape",
    "Verif.C121_ends",
    "Verif.C121_warning",
    "Verif.C121_warning_violated"
   ],
   "note": "Agreement, shape and termination proved for all four routines in exact arithmetic. The warning is proved for Numpy and CuPy; with FFTW and CUDA it is never printed (C121_warning_violated)."
  },
  {
   "property": "C122",
   "status": "partial",
   "theorems": [
    "Verif.C122_bose",
    "Verif.C122_gas",
    "Verif.C122_energy_violated",
    "Verif.C122_fft_violated",
    "Verif.C122_classical",
    "Verif.C122_temperature_violated"
   ],
   "note": "The constants of peaks, thermal properties, velocities and test trajectories agree to 1e-6 and the temperature of a peak tends to the classical one (C122_bose, C122_gas, C122_classical). unit_conversion of the spectra is 2.13 % too large: all areas are too large by that (C122_energy_violated, C122_fft_violated) and the temperatures of the peaks are above those of the velocities (C122_temperature_violated)."
  },
  {
   "property": "C123",
   "status": "partial",
   "theorems": [
    "Verif.C123_frame",
    "Verif.C123_colours",
    "Verif.C123_radii",
    "Verif.C123_heavy_violated",
    "Verif.C123_invisible_violated",
    "Verif.C123_many_violated",
    "Verif.C123_types_violated"
   ],
   "note": "Frame, positions, sizes, colours and legend by elements proved for at most 37 elements with a radius (at most 7 for distinct colours); the other cases are violated (theorems with suffix _violated). matplotlib itself is not modelled: the model is the list of calls."
  },
  {
   "property": "C124",
   "status": "partial",
   "theorems": [
    "Verif.C124_frames",
    "Verif.C124_motion",
    "Verif.C124_energy",
    "Verif.C124_projection",
    "Verif.C124_reported",
    "Verif.C124_energy_violated",
    "Verif.C124_double",
    "Verif.C124_double_violated",
    "Verif.C124_velocity"
   ],
   "note": "Frames, Newton's equation, conservation of energy, energy for each phonon and the projection onto phonons are proved in full for stable phonons above the minimum frequency; C124_velocity does the same for the velocities that the program calculates from the frames (interior frames; reduced by sin(2 pi f dt)/(2 pi f dt)). The reported energy is d/2 times too small (C124_reported, C124_energy_violated); the number of frames in double precision may be one too large (C124_double, C124_double_violated). phonopy (frequencies, eigenvectors, commensurate points) is an argument of the model."
  },
  {
   "property": "C125",
   "status": "partial",
   "theorems": [
    "Verif.C125_rows",
    "Verif.C125_pairs_partial",
    "Verif.C125_plot",
    "Verif.C125_pairs_violated"
   ],
   "note": "Rows, values at commensurate points and points drawn proved; the pairing is proved to be right exactly if the orders agree (C125_pairs_partial, an equivalence) and fails otherwise (C125_pairs_violated). phonopy's interpolation and mesh are arguments of the model; that eigenvalues are given in ascending order (numpy.linalg.eigh) is part of the model."
  },
  {
   "property": "C126",
   "status": "partial",
   "theorems": [
    "Verif.C126_weights",
    "Verif.C126_nonneg",
    "Verif.C126_weights_nonneg",
    "Verif.C126_parabola",
    "Verif.C126_line",
    "Verif.C126_parabola_violated",
    "Verif.C126_thermal"
   ],
   "note": "Proved for both versions of the rule; the difference between the versions is C126_parabola_violated. SciPy's formulas are modelled (they are not in the repository)."
  },
  {
   "property": "C127",
   "status": "partial",
   "theorems": [
    "Verif.C127_integration",
    "Verif.C127_scale",
    "Verif.C127_normalized",
    "Verif.C127_dulong_petit",
    "Verif.C127_integration_violated",
    "Verif.C127_bose"
   ],
   "note": "Integral, scaling, normalisation, bounds and statistics proved (C127_integration, C127_scale, C127_normalized, C127_dulong_petit, C127_bose); the value in equipartition is violated by the unit of the spectra (C127_integration_violated)."
  },
  {
   "property": "C128",
   "status": "proved",
   "theorems": [
    "Verif.C128_full_defined",
    "Verif.C128_full",
    "Verif.C128_phonon"
   ],
   "note": "matplotlib is not modelled: a plot is the list of its curves with their names; the densities of states of phonopy are a parameter."
  },
  {
   "property": "C129",
   "status": "partial",
   "theorems": [
    "Verif.C129_star",
    "Verif.C129_average",
    "Verif.C129_choice",
    "Verif.C129_negative_violated",
    "Verif.C129_missing_violated",
    "Verif.C129_double_violated",
    "Verif.C129_double"
   ],
   "note": "violated: if the chosen wave vector has a negative coordinate, it is not in the lists of its equivalents, and equivalent wave vectors with a negative coordinate are always left out; in double precision a coordinate that is exactly 0 may come out as -2.8e-17, and the wave vector is left out. The numerical routines are parameters; spglib's operations are assumed to be a group."
  },
  {
   "property": "C130",
   "status": "partial",
   "theorems": [
    "Verif.C130_total_defined",
    "Verif.C130_temperature_defined",
    "Verif.C130_temperature",
    "Verif.C130_volume",
    "Verif.C130_files",
    "Verif.C130_drawn",
    "Verif.C130_total",
    "Verif.C130_title_violated",
    "Verif.C130_order_violated"
   ],
   "note": "violated: the row of a wave vector is looked up in the first temperature file only, so that files in another order are mixed; the title of the plot of the total shift says relative to the reference temperature, while the shifts are relative to the harmonic frequencies. matplotlib is not modelled: a plot is the list of its curves."
  },
  {
   "property": "C131",
   "status": "partial",
   "theorems": [
    "Verif.C131_modes_partial",
    "Verif.C131_sorted_partial",
    "Verif.C131_unconnected_violated",
    "Verif.C131_figures",
    "Verif.C131_areas",
    "Verif.C131_legend",
    "Verif.C131_drawn"
   ],
   "note": "proved for connected bands whose eigenvectors keep more than half of their weight along the segment, and for different harmonic frequencies at the wave vector. Violated for bands in the order of the frequencies (the plot of the renormalized bands with linewidths): the limits are sorted separately; C131_sorted_partial says exactly when this does no harm. phonopy is a parameter: that it solves the dynamical matrices it is given, and gives back at a commensurate point the matrix that was put in there, are hypotheses."
  },
  {
   "property": "C132",
   "status": "partial",
   "theorems": [
    "Verif.C132_species",
    "Verif.C132_path",
    "Verif.C132_fallback",
    "Verif.C132_primitive_partial",
    "Verif.C132_primitive_violated"
   ],
   "note": "Segments, labels, elements and the fallback are proved; the wave vectors are those meant by seekpath exactly when the primitive cells agree (C132_primitive_partial), and not for an fcc crystal given by its cubic cell (C132_primitive_violated). seekpath is a parameter of the model."
  },
  {
   "property": "C133",
   "status": "proved",
   "theorems": [
    "Verif.C133_screen",
    "Verif.C133_spectra",
    "Verif.C133_test",
    "Verif.C133_double"
   ],
   "note": "For every label, number of columns, total time and time step, on a terminal of unlimited width; in double precision: Done... exactly with the last column. The other bars are C134."
  },
  {
   "property": "C134",
   "status": "partial",
   "theorems": [
    "Verif.C134_lammps_partial",
    "Verif.C134_scan_partial",
    "Verif.C134_lammps_violated",
    "Verif.C134_scan_violated"
   ],
   "note": "One finished line for total times that are multiples of the sampling (C134_lammps_partial) and for scans without failures with steps of two or more (C134_scan_partial); violated otherwise, and the step shown by LAMMPS bars is always one ahead (C134_lammps_violated, C134_scan_violated)."
  },
  {
   "property": "C135",
   "status": "partial",
   "theorems": [
    "Verif.C135_points",
    "Verif.C135_saved_partial",
    "Verif.C135_bands_violated",
    "Verif.C135_dim_violated"
   ],
   "note": "Holds for -cp, and for the force constants and the bands along the automatic path with the phonon supercell of the input file and a file of frequencies in the format the script expects (C95: not the one dynaphopy writes). Fails: with BANDS in the input file -p always ends with an exception (the dictionary of the input file is passed instead of its ranges); without -cp, --dim changes nothing."
  },
  {
   "property": "C136",
   "status": "partial",
   "theorems": [
    "Verif.C136_density_defined",
    "Verif.C136_thermal_defined",
    "Verif.C136_pressure_defined",
    "Verif.C136_state",
    "Verif.C136_density",
    "Verif.C136_thermal",
    "Verif.C136_gradient_partial",
    "Verif.C136_gradient_shown",
    "Verif.C136_pressure_partial",
    "Verif.C136_labels_violated",
    "Verif.C136_external_violated"
   ],
   "note": "Holds for bands, densities of states and thermal properties, and for the band plots of a path without labels (with external data for the plot at one temperature). Fails: with labels no band plot is shown (iteritems does not exist in Python 3), and plot_band_structure_constant_pressure fails with its default external_data=None."
  },
  {
   "property": "C137",
   "status": "partial",
   "theorems": [
    "Verif.C137_axes",
    "Verif.C137_origin",
    "Verif.C137_mem_origin_violated",
    "Verif.C137_numbering"
   ],
   "note": "Axes and numbering: all algorithms. Origin: all algorithms but the maximum entropy method (the default), with which moving the origin changes the spectra (C137_mem_origin_violated). The numbering theorem takes atoms that are equivalent or not by more than the tolerance of get_atom_type_index."
  },
  {
   "property": "C138",
   "status": "partial",
   "theorems": [
    "Verif.C138_reciprocal",
    "Verif.C138_opposite_mem",
    "Verif.C138_opposite_fft_violated"
   ],
   "note": "Reciprocal lattice vectors: all algorithms. Opposite wave vectors: the maximum entropy method (the default); the fast Fourier transforms distinguish the two directions of a travelling wave (C138_opposite_fft_violated). phonopy's choice of phases of the eigenvectors is a hypothesis."
  },
  {
   "property": "C139",
   "status": "partial",
   "theorems": [
    "Verif.C139_orthonormal",
    "Verif.C139_components",
    "Verif.C139_trace",
    "Verif.C139_real",
    "Verif.C139_scaled_violated",
    "Verif.C139_phase_violated"
   ],
   "note": "Orthonormal modes: proved. The normalization divides the coordinates and not the modes (C139_scaled_violated), and only the real part of the products is printed (C139_phase_violated); for real eigenvectors the printed test is exact (C139_real)."
  },
  {
   "property": "C140",
   "status": "partial",
   "theorems": [
    "Verif.C140_all",
    "Verif.C140_samples",
    "Verif.C140_static",
    "Verif.C140_unbiased",
    "Verif.C140_exhaustive_violated"
   ],
   "note": "All but the last: frames are drawn with repetition, so asking for all frames does not give the average over the trajectory (C140_exhaustive_violated). np.random.random_integers, which recent versions of numpy do not have, is taken as an arbitrary sequence of numbers from 1 to the number of frames."
  },
  {
   "property": "C141",
   "status": "partial",
   "theorems": [
    "Verif.C141_highest",
    "Verif.C141_none_violated"
   ],
   "note": "C141_highest for spectra with a peak in every branch; one branch without peaks stops the calculation for all (C141_none_violated). find_peaks_cwt of SciPy is an argument."
  },
  {
   "property": "C142",
   "status": "partial",
   "theorems": [
    "Verif.C142_link_partial",
    "Verif.C142_units_violated",
    "Verif.C142_simps"
   ],
   "note": "C142_link_partial: only with the new module of units; C142_units_violated: the import of the factor from phonopy.units is misspelled (VaspToTHza), so that versions which have it there cannot be used."
  },
  {
   "property": "C143",
   "status": "partial",
   "theorems": [
    "Verif.C143_fft_axes_violated",
    "Verif.C143_images",
    "Verif.C143_origin_full",
    "Verif.C143_axes_fourier",
    "Verif.C143_origin_wave",
    "Verif.C143_numbering_full"
   ],
   "note": "Images: all algorithms (no half-integer fractional distance from the place in the crystal). Origin: all algorithms for the full spectrum (C143_origin_full), all but the maximum entropy method for the wave vector (for which C137_mem_origin_violated shows the dependence for the modes). Axes: C143_axes_fourier for the direct Fourier transform; with the fast Fourier transforms turning the crystal changes the full spectrum (C143_fft_axes_violated). Numbering: C143_numbering_full, all algorithms."
  },
  {
   "property": "C144",
   "status": "partial",
   "theorems": [
    "Verif.C144_late_masses",
    "Verif.C144_after_crop",
    "Verif.C144_velocity_violated",
    "Verif.C144_structure_violated",
    "Verif.C144_masses",
    "Verif.C144_types_refreshed",
    "Verif.C144_types_stale_violated",
    "Verif.C144_types_example_violated",
    "Verif.C144_set_time",
    "Verif.C144_set_time_violated"
   ],
   "note": "Proved: C144_masses, C144_late_masses (every history without the mass weighted velocities), C144_after_crop, C144_types_refreshed, C144_set_time. Refuted for all objects: C144_velocity_violated, C144_structure_violated, C144_set_time_violated, C144_types_stale_violated (with a concrete crystal in C144_types_example_violated): cached values are not refreshed."
  },
  {
   "property": "C145",
   "status": "partial",
   "theorems": [
    "Verif.C145_coordinate",
    "Verif.C145_negative",
    "Verif.C145_complete",
    "Verif.C145_ignored_violated"
   ],
   "note": "All but the last clause: without an atom type the coordinate is ignored, for all inputs (C145_ignored_violated). C33_coordinate_violated: on an object that has a spectrum already the argument is ignored."
  },
  {
   "property": "C146",
   "status": "proved",
   "theorems": [
    "Verif.C146_save_vc",
    "Verif.C146_save_vq"
   ],
   "note": "Characters of the files, including the replacement of +- done by np.savetxt. complex() is specified for words a+bj. inf and nan not modelled. plot_vq: C110_vq, C110_default."
  },
  {
   "property": "C147",
   "status": "partial",
   "theorems": [
    "Verif.C147_saved",
    "Verif.C147_smoothed",
    "Verif.C147_repeat",
    "Verif.C147_again_violated"
   ],
   "note": "With -bi in full (frequencies not negative for the exact repetition: Python prints a negative zero). Without -bi every further run loses one more row, for all files (C147_again_violated)."
  },
  {
   "property": "C148",
   "status": "proved",
   "theorems": [
    "Verif.C148_file"
   ],
   "note": ""
  },
  {
   "property": "C149",
   "status": "proved",
   "theorems": [
    "Verif.C149_area",
    "Verif.C149_kinetic"
   ],
   "note": "The memory that the C routine reads past its arrays is taken to be zero (CleanMemory), as in C30; that the first row is not used is the defect of C30."
  },
  {
   "property": "C150",
   "status": "proved",
   "theorems": [
    "Verif.C150_areas",
    "Verif.C150_modes",
    "Verif.C150_temperature"
   ],
   "note": "The temperature is that of the best fit of a Maxwell distribution (C86); memory read past the arrays is zero (CleanMemory, see C30); in eV the area is 2.1 % too large (C122)."
  },
  {
   "property": "C151",
   "status": "partial",
   "theorems": [
    "Verif.C151_backwards",
    "Verif.C151_trajectory",
    "Verif.C151_phonons",
    "Verif.C151_mem_violated",
    "Verif.C151_fourier_violated",
    "Verif.C151_windows_violated"
   ],
   "note": "C151_backwards, C151_trajectory and C151_phonons hold for the FFT algorithms with symmetric windows; C151_mem_violated and C151_fourier_violated are counterexamples for the other two methods, C151_windows_violated one for the FFT with windows whose distance is not a whole number (their borders are cut towards zero, so the windows of the reversed data are other ones)."
  }
 ]
}