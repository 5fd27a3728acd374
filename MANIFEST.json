{
 "claims": [
  {
   "property": "C01",
   "status": "proved",
   "theorems": [
    "DefDAP.C01_flood_fill_safe",
    "DefDAP.C01_height_one_leaves_map",
    "DefDAP.C01_width_one_leaves_map"
   ],
   "note": "Holds for maps of at least 2x2; the failure on maps one pixel wide or high is proved as well, as the property says."
  },
  {
   "property": "C02",
   "status": "proved",
   "theorems": [
    "DefDAP.C02_flood_fill_region"
   ],
   "note": ""
  },
  {
   "property": "C03",
   "status": "proved",
   "theorems": [
    "DefDAP.C03_partition"
   ],
   "note": "For maps of at least 2x2 pixels."
  },
  {
   "property": "C04",
   "status": "proved",
   "theorems": [
    "DefDAP.C04_numbering"
   ],
   "note": "For maps of at least 2x2 pixels."
  },
  {
   "property": "C05",
   "status": "proved",
   "theorems": [
    "DefDAP.C05_single_phase"
   ],
   "note": "Uses the boundary images of the boundary finder, including the empty-set reading of C10, which only adds boundaries."
  },
  {
   "property": "C06",
   "status": "proved",
   "theorems": [
    "DefDAP.C06_views_disjoint",
    "DefDAP.C06_views_stable"
   ],
   "note": ""
  },
  {
   "property": "C07",
   "status": "proved",
   "theorems": [
    "DefDAP.C07_failure"
   ],
   "note": ""
  },
  {
   "property": "C08",
   "status": "proved",
   "theorems": [
    "DefDAP.C08_grains_nested",
    "DefDAP.C08_splits_grains",
    "DefDAP.C08_tolerance_monotone"
   ],
   "note": "Boundary sets: C08_tolerance_monotone. Regions: C08_grains_nested is an equivalence with the exception the property names; C08_splits_grains shows what it does to grain finding."
  },
  {
   "property": "C09",
   "status": "proved",
   "theorems": [
    "DefDAP.C09_boundaries_faithful",
    "DefDAP.C09_phase_boundaries"
   ],
   "note": ""
  },
  {
   "property": "C10",
   "status": "proved",
   "theorems": [
    "DefDAP.C10_empty_set_reads_back_full",
    "DefDAP.C10_image_round_trip",
    "DefDAP.C10_points",
    "DefDAP.C10_single_crystal_has_no_grain"
   ],
   "note": "C10_image_round_trip and C10_points for all images, the exception included; C10_empty_set_reads_back_full and C10_single_crystal_has_no_grain give its consequences."
  },
  {
   "property": "C11",
   "status": "proved",
   "theorems": [
    "DefDAP.C11_lines",
    "DefDAP.C11_lines_one_kind"
   ],
   "note": ""
  },
  {
   "property": "C12",
   "status": "proved",
   "theorems": [
    "DefDAP.C12_flood_fill_dic"
   ],
   "note": ""
  },
  {
   "property": "C13",
   "status": "proved",
   "theorems": [
    "DefDAP.C13_failure",
    "DefDAP.C13_no_boundaries_fails",
    "DefDAP.C13_numbering",
    "DefDAP.C13_partition"
   ],
   "note": ""
  },
  {
   "property": "C14",
   "status": "proved",
   "theorems": [
    "DefDAP.C14_grains",
    "DefDAP.C14_relabel"
   ],
   "note": ""
  },
  {
   "property": "C15",
   "status": "proved",
   "theorems": [
    "DefDAP.C15_missing",
    "DefDAP.C15_network",
    "DefDAP.C15_order"
   ],
   "note": ""
  },
  {
   "property": "C16",
   "status": "proved",
   "theorems": [
    "DefDAP.C16_from_segments",
    "DefDAP.C16_pairs",
    "DefDAP.C16_points"
   ],
   "note": ""
  },
  {
   "property": "C17",
   "status": "proved",
   "theorems": [
    "DefDAP.C17_grain_data",
    "DefDAP.C17_image",
    "DefDAP.C17_outline",
    "DefDAP.C17_roundtrip"
   ],
   "note": ""
  },
  {
   "property": "C18",
   "status": "proved",
   "theorems": [
    "DefDAP.C18_bounding_box"
   ],
   "note": ""
  },
  {
   "property": "C19",
   "status": "proved",
   "theorems": [
    "DefDAP.C19_box_centre",
    "DefDAP.C19_com_centre",
    "DefDAP.C19_other"
   ],
   "note": ""
  },
  {
   "property": "C20",
   "status": "proved",
   "theorems": [
    "DefDAP.C20_average",
    "DefDAP.C20_paint",
    "DefDAP.C20_paint_all",
    "DefDAP.C20_paint_average",
    "DefDAP.C20_paint_one"
   ],
   "note": ""
  },
  {
   "property": "C21",
   "status": "proved",
   "theorems": [
    "DefDAP.C21_coarse_bounds",
    "DefDAP.C21_coarse_mean"
   ],
   "note": ""
  },
  {
   "property": "C22",
   "status": "proved",
   "theorems": [
    "DefDAP.C22_order_and_batch",
    "DefDAP.C22_proxigram",
    "DefDAP.C22_zero_batch"
   ],
   "note": "For batch sizes of at least one; batch size zero fails, proved too."
  },
  {
   "property": "C23",
   "status": "proved",
   "theorems": [
    "DefDAP.C23_keys",
    "DefDAP.C23_last_write",
    "DefDAP.C23_read",
    "DefDAP.C23_reject"
   ],
   "note": "For items no callable given to the store writes directly and no generator makes (those are C24). Key listing: stores without derivatives and failed generator registrations (see C25, C26)."
  },
  {
   "property": "C24",
   "status": "proved",
   "theorems": [
    "DefDAP.C24_first_read",
    "DefDAP.C24_generate_stores",
    "DefDAP.C24_once"
   ],
   "note": "Outputs that are None or marked not to be saved are outside; that they are generated again is shown by examples."
  },
  {
   "property": "C25",
   "status": "proved",
   "theorems": [
    "DefDAP.C25_clash",
    "DefDAP.C25_clash_leaves_keys",
    "DefDAP.C25_failed",
    "DefDAP.C25_first_clash",
    "DefDAP.C25_generator_error",
    "DefDAP.C25_wrong_count"
   ],
   "note": "Registration: C25_failed for every failure in all stores, C25_clash for which keys are left (stores without derivatives), C25_first_clash for the first key. Generation: the other theorems."
  },
  {
   "property": "C26",
   "status": "proved",
   "theorems": [
    "DefDAP.C26_lists",
    "DefDAP.C26_reset",
    "DefDAP.C26_terminates"
   ],
   "note": "Termination and the guard: every network with finitely many groups. What is listed: networks without longer chains of derivatives. The guard is left set after listing a store that derives from its own group (C26_reset says exactly when)."
  },
  {
   "property": "C27",
   "status": "proved",
   "theorems": [
    "DefDAP.C27_add_derivative",
    "DefDAP.C27_counterexample",
    "DefDAP.C27_first_derivative",
    "DefDAP.C27_listed",
    "DefDAP.C27_other_derivatives"
   ],
   "note": "C27_listed covers every listed key, with C27_first_derivative and C27_other_derivatives."
  },
  {
   "property": "C28",
   "status": "proved",
   "theorems": [
    "DefDAP.C28_chain",
    "DefDAP.C28_default",
    "DefDAP.C28_derived",
    "DefDAP.C28_no_derivatives"
   ],
   "note": "C28_default, C28_derived and C28_chain; the exception is C28_no_derivatives."
  },
  {
   "property": "C29",
   "status": "proved",
   "theorems": [
    "DefDAP.C29_history",
    "DefDAP.C29_pixels",
    "DefDAP.C29_read",
    "DefDAP.C29_stale_mask"
   ],
   "note": "C29_read and C29_history for items that are not masked; C82_masked_read for masked ones; C29_stale_mask proves the exception."
  },
  {
   "property": "C30",
   "status": "proved",
   "theorems": [
    "DefDAP.C30_crop",
    "DefDAP.C30_shape"
   ],
   "note": "For crops that leave at least one pixel, as the property says; an example shows the disagreement of shape and data otherwise."
  },
  {
   "property": "C31",
   "status": "proved",
   "theorems": [
    "DefDAP.C31_points_fixed"
   ],
   "note": ""
  },
  {
   "property": "C32",
   "status": "proved",
   "theorems": [
    "DefDAP.C32_all_lost",
    "DefDAP.C32_all_points",
    "DefDAP.C32_one_point"
   ],
   "note": "Includes the failure the property names (C32_all_lost)."
  },
  {
   "property": "C33",
   "status": "proved",
   "theorems": [
    "DefDAP.C33_errors",
    "DefDAP.C33_forward",
    "DefDAP.C33_reverse"
   ],
   "note": "The estimators of scikit-image are parameters."
  },
  {
   "property": "C34",
   "status": "proved",
   "theorems": [
    "DefDAP.C34_compose",
    "DefDAP.C34_conjugate",
    "DefDAP.C34_product"
   ],
   "note": "Norm and hemisphere for all quaternions; the action on vectors for northern factors, which the constructor gives (see C35 for southern ones)."
  },
  {
   "property": "C35",
   "status": "proved",
   "theorems": [
    "DefDAP.C35_isometry",
    "DefDAP.C35_sign"
   ],
   "note": "Includes the failure for southern quaternions, which the property names."
  },
  {
   "property": "C36",
   "status": "proved",
   "theorems": [
    "DefDAP.C36_agrees",
    "DefDAP.C36_rotation"
   ],
   "note": "Includes the sign for southern quaternions."
  },
  {
   "property": "C37",
   "status": "proved",
   "theorems": [
    "DefDAP.C37_many",
    "DefDAP.C37_range",
    "DefDAP.C37_roundtrip",
    "DefDAP.C37_unit"
   ],
   "note": "Real arithmetic; arctan2 is the argument of a complex number."
  },
  {
   "property": "C38",
   "status": "proved",
   "theorems": [
    "DefDAP.C38_axis",
    "DefDAP.C38_reverse",
    "DefDAP.C38_rodrigues",
    "DefDAP.C38_scale",
    "DefDAP.C38_unit"
   ],
   "note": "The full action on vectors (Rodrigues) is proved too."
  },
  {
   "property": "C39",
   "status": "proved",
   "theorems": [
    "DefDAP.C39_cube",
    "DefDAP.C39_group",
    "DefDAP.C39_prism"
   ],
   "note": "All pairs of operators, computed exactly in Q(sqrt 2) and Q(sqrt 3) by the kernel and carried over to the reals. C39_cube and C39_prism compare the tables with a specification by matrices."
  },
  {
   "property": "C40",
   "status": "proved",
   "theorems": [
    "DefDAP.C40_angle",
    "DefDAP.C40_range",
    "DefDAP.C40_same_as_boundaries",
    "DefDAP.C40_symmetric",
    "DefDAP.C40_variants"
   ],
   "note": "C40_angle states the angle by rotation matrices, with the rotations of the cube or prism from a separate specification."
  },
  {
   "property": "C41",
   "status": "proved",
   "theorems": [
    "DefDAP.C41_variant"
   ],
   "note": ""
  },
  {
   "property": "C42",
   "status": "proved",
   "theorems": [
    "DefDAP.C42_table"
   ],
   "note": ""
  },
  {
   "property": "C43",
   "status": "proved",
   "theorems": [
    "DefDAP.C43_close",
    "DefDAP.C43_copies",
    "DefDAP.C43_not_close",
    "DefDAP.C43_unit"
   ],
   "note": "C43_unit (the first orientation strictly northern; otherwise the sum can be zero and the code divides by zero), C43_copies, C43_close; C43_not_close proves the exception."
  },
  {
   "property": "C44",
   "status": "proved",
   "theorems": [
    "DefDAP.C44_list"
   ],
   "note": ""
  },
  {
   "property": "C45",
   "status": "proved",
   "theorems": [
    "DefDAP.C45_cube_axis",
    "DefDAP.C45_cubic",
    "DefDAP.C45_hexagonal",
    "DefDAP.C45_hexagonal_axis",
    "DefDAP.C45_unknown_triangle"
   ],
   "note": "Over the reals. C45_cubic and C45_cube_axis for cubic crystals (the search is never widened: every direction has at least three trial poles), C45_hexagonal and C45_hexagonal_axis for both hexagonal triangles. Symmetric equivalent means an image under an operator of the table proved to be the rotation group in C37/C38, or its opposite."
  },
  {
   "property": "C46",
   "status": "proved",
   "theorems": [
    "DefDAP.C46_arguments",
    "DefDAP.C46_disc",
    "DefDAP.C46_injective",
    "DefDAP.C46_lambert",
    "DefDAP.C46_lambert_radius",
    "DefDAP.C46_scale",
    "DefDAP.C46_stereo"
   ],
   "note": "Over the reals, for unit directions other than straight down where the stereographic radius is infinite."
  },
  {
   "property": "C47",
   "status": "proved",
   "theorems": [
    "DefDAP.C47_hexagonal",
    "DefDAP.C47_hkl_equal_edges",
    "DefDAP.C47_hkl_false",
    "DefDAP.C47_tsl",
    "DefDAP.C47_unknown"
   ],
   "note": "exact lengths and angles for the TSL convention (all cells), for HKL when a = b, a counterexample for HKL with a != b, hexagonal cells in both conventions, unknown conventions refused"
  },
  {
   "property": "C48",
   "status": "proved",
   "theorems": [
    "DefDAP.C48_dual",
    "DefDAP.C48_left_handed",
    "DefDAP.C48_project"
   ],
   "note": "duality for right-handed matrices, sign flip for left-handed ones, projected plane normals perpendicular to directions in the plane for the hexagonal cell"
  },
  {
   "property": "C49",
   "status": "proved",
   "theorems": [
    "DefDAP.C49_dir_roundtrip",
    "DefDAP.C49_dir_roundtrip4",
    "DefDAP.C49_errors",
    "DefDAP.C49_overflow",
    "DefDAP.C49_plane_roundtrip",
    "DefDAP.C49_plane_roundtrip4",
    "DefDAP.C49_zone"
   ],
   "note": "round trips in both directions, zone law, the error cases, and the 8-bit wrap-around as a theorem"
  },
  {
   "property": "C50",
   "status": "proved",
   "theorems": [
    "DefDAP.C50_canonical",
    "DefDAP.C50_defined",
    "DefDAP.C50_invariant",
    "DefDAP.C50_same_line"
   ],
   "note": "defined exactly for non-zero lists"
  },
  {
   "property": "C51",
   "status": "proved",
   "theorems": [
    "DefDAP.C51_lowest_exists",
    "DefDAP.C51_overflow",
    "DefDAP.C51_parallel",
    "DefDAP.C51_reduced",
    "DefDAP.C51_small"
   ],
   "note": "the 8-bit wrap-around outside the range is proved as a counterexample"
  },
  {
   "property": "C52",
   "status": "proved",
   "theorems": [
    "DefDAP.C52_fails",
    "DefDAP.C52_overflow",
    "DefDAP.C52_succeeds",
    "DefDAP.C52_value"
   ],
   "note": "numpy rounding to even is modelled; values beyond 8 bits wrap, proved as C52_overflow"
  },
  {
   "property": "C53",
   "status": "proved",
   "theorems": [
    "DefDAP.C53_ambiguous",
    "DefDAP.C53_labels",
    "DefDAP.C53_text"
   ],
   "note": "C53_labels, C53_ambiguous, C53_text."
  },
  {
   "property": "C54",
   "status": "proved",
   "theorems": [
    "DefDAP.C54_equal",
    "DefDAP.C54_equivalence",
    "DefDAP.C54_hash"
   ],
   "note": "stated on the indices; the hash is modelled as the pair of canonical index tuples which the code hashes"
  },
  {
   "property": "C55",
   "status": "proved",
   "theorems": [
    "DefDAP.C55_defined",
    "DefDAP.C55_partition"
   ],
   "note": "permutation of the input, order kept within groups and between first members, same group iff planes agree up to sign; the empty list raises"
  },
  {
   "property": "C56",
   "status": "proved",
   "theorems": [
    "DefDAP.C56_bcc",
    "DefDAP.C56_consistent"
   ],
   "note": "for five of the six files, on the loaded systems; cubic_bcc is proved to violate both parts, as the statement says"
  },
  {
   "property": "C57",
   "status": "proved",
   "theorems": [
    "DefDAP.C57_family",
    "DefDAP.C57_same"
   ],
   "note": "For all cubic systems with indices not all zero and at most 127 in size (8-bit cast)."
  },
  {
   "property": "C58",
   "status": "proved",
   "theorems": [
    "DefDAP.C58_exceeds",
    "DefDAP.C58_range",
    "DefDAP.C58_rotation",
    "DefDAP.C58_signs",
    "DefDAP.C58_value"
   ],
   "note": "range, value in the sample frame, sign independence for equal slip systems, invariance under common rotation; C58_exceeds is the out-of-plane counterexample"
  },
  {
   "property": "C59",
   "status": "proved",
   "theorems": [
    "DefDAP.C59_groups",
    "DefDAP.C59_inclination",
    "DefDAP.C59_sign",
    "DefDAP.C59_trace"
   ],
   "note": "planes parallel to the surface excluded, where the code divides zero by zero"
  },
  {
   "property": "C60",
   "status": "proved",
   "theorems": [
    "DefDAP.C60_affine",
    "DefDAP.C60_between",
    "DefDAP.C60_quadratic",
    "DefDAP.C60_small",
    "DefDAP.C60_translation"
   ],
   "note": "Displacements in pixels of the correlated images, spacing h; maps at least 2x2; smaller maps are a ValueError (C60_small). C60_quadratic and C60_between for fields that are not affine."
  },
  {
   "property": "C61",
   "status": "proved",
   "theorems": [
    "DefDAP.C61_axes",
    "DefDAP.C61_green",
    "DefDAP.C61_largest",
    "DefDAP.C61_nonneg",
    "DefDAP.C61_objective",
    "DefDAP.C61_rigid",
    "DefDAP.C61_symmetric"
   ],
   "note": "In-plane 2x2 strain. C61_largest is the least upper bound that is attained."
  },
  {
   "property": "C62",
   "status": "proved",
   "theorems": [
    "DefDAP.C62_bent",
    "DefDAP.C62_border",
    "DefDAP.C62_not_both",
    "DefDAP.C62_tensor",
    "DefDAP.C62_value",
    "DefDAP.C62_x_ignored",
    "DefDAP.C62_zero"
   ],
   "note": "The property is false, and its negation is proved: the x gradient never enters (C62_x_ignored), density zero for every map bent along x only (C62_bent), witness C62_not_both. C62_zero and C62_tensor say exactly what is computed."
  },
  {
   "property": "C63",
   "status": "proved",
   "theorems": [
    "DefDAP.C63_range",
    "DefDAP.C63_rotated",
    "DefDAP.C63_small",
    "DefDAP.C63_uniform",
    "DefDAP.C63_value",
    "DefDAP.C63_zero"
   ],
   "note": "Values for unit orientations; floats are reals."
  },
  {
   "property": "C64",
   "status": "proved",
   "theorems": [
    "DefDAP.C64_accessed",
    "DefDAP.C64_failed",
    "DefDAP.C64_fresh",
    "DefDAP.C64_history",
    "DefDAP.C64_read",
    "DefDAP.C64_twice_accessed",
    "DefDAP.C64_twice_fresh"
   ],
   "note": "First sentence holds if orientations were not read before (C64_fresh); its negation otherwise (C64_accessed, C64_history); rotating twice C64_twice_accessed / C64_twice_fresh; error case C64_failed."
  },
  {
   "property": "C65",
   "status": "proved",
   "theorems": [
    "DefDAP.C65_acquisition",
    "DefDAP.C65_existing",
    "DefDAP.C65_lattice",
    "DefDAP.C65_no_phases",
    "DefDAP.C65_round_trip"
   ],
   "note": "C65_round_trip: shape, names and Laue groups exact, step rounded to 0.0001, lengths to 0.001, angles and Euler angles to 0.001 degrees; C65_lattice: exact if given to that precision. C65_no_phases: a map without phases cannot be loaded. C65_acquisition: the acquisition rotation is lost too. Decimal text is exact; float32 rounding not modelled. Names without tabs and line breaks."
  },
  {
   "property": "C66",
   "status": "proved",
   "theorems": [
    "DefDAP.C66_layout",
    "DefDAP.C66_unknown_followed",
    "DefDAP.C66_unknown_last",
    "DefDAP.C66_unknown_silent"
   ],
   "note": "C66_layout when all fields are known (including EDX windows), C66_unknown_last when only the last is unknown; where it is false: C66_unknown_followed (error) and C66_unknown_silent (wrong values without an error). Values are the raw bytes."
  },
  {
   "property": "C67",
   "status": "proved",
   "theorems": [
    "DefDAP.C67_no_heading",
    "DefDAP.C67_parse",
    "DefDAP.C67_repeated"
   ],
   "note": "For every text built from comments, blank lines, headings and key=value lines (C67_parse without repeated names, C67_repeated with); a text that starts with another line is an AttributeError (C67_no_heading). Text without carriage returns; ASCII white space."
  },
  {
   "property": "C68",
   "status": "proved",
   "theorems": [
    "DefDAP.C68_next",
    "DefDAP.C68_read"
   ],
   "note": "C68_read gives the lines returned and the position, C68_next that the next read starts at the terminator. Lines are list elements; positions count lines."
  },
  {
   "property": "C69",
   "status": "proved",
   "theorems": [
    "DefDAP.C69_data",
    "DefDAP.C69_file",
    "DefDAP.C69_refused",
    "DefDAP.C69_strict",
    "DefDAP.C69_symmetry",
    "DefDAP.C69_zero"
   ],
   "note": "C69_file: every file with a well-formed header loads with the phases, step and shape of its header; C69_refused, C69_symmetry: what is refused; C69_data for every file that loads with an older numpy: phases shifted, angles shifted and reduced to [0, 2pi); C69_zero: a pixel is non-indexed exactly for phase 255; C69_strict: nothing loads when numpy checks the number of columns. Decimal text exact; float32 rounding not modelled."
  },
  {
   "property": "C70",
   "status": "proved",
   "theorems": [
    "DefDAP.C70_accept",
    "DefDAP.C70_array_shape",
    "DefDAP.C70_davis",
    "DefDAP.C70_sound",
    "DefDAP.C70_thin"
   ],
   "note": "C70_accept (iff), C70_thin, C70_sound for any data, C70_davis for the DaVis loader; C70_array_shape is a witness that the array shape is not checked. Floats are rationals."
  },
  {
   "property": "C71",
   "status": "proved",
   "theorems": [
    "DefDAP.C71_ascending",
    "DefDAP.C71_binary",
    "DefDAP.C71_descending",
    "DefDAP.C71_reversed"
   ],
   "note": "C71_reversed for any text file that loads; C71_descending and C71_ascending for all grids of window centres; C71_binary for arrays."
  },
  {
   "property": "C72",
   "status": "proved",
   "theorems": [
    "DefDAP.C72_off_grid",
    "DefDAP.C72_placed",
    "DefDAP.C72_windows"
   ],
   "note": "C72_placed for coordinates on the grid, C72_windows in general, C72_off_grid a witness of a misplaced row."
  },
  {
   "property": "C73",
   "status": "proved",
   "theorems": [
    "DefDAP.C73_direction",
    "DefDAP.C73_range",
    "DefDAP.C73_symmetric",
    "DefDAP.C73_vertical"
   ],
   "note": "C73_range, C73_direction and C73_symmetric over the reals for all pairs of points; C73_vertical proves the exception."
  },
  {
   "property": "C74",
   "status": "proved",
   "theorems": [
    "DefDAP.C74_groups",
    "DefDAP.C74_history",
    "DefDAP.C74_mean",
    "DefDAP.C74_planes",
    "DefDAP.C74_rdr",
    "DefDAP.C74_stale_added",
    "DefDAP.C74_stale_removed",
    "DefDAP.C74_wrap"
   ],
   "note": "C74_groups and C74_history over every history; C74_mean under the condition that no line changes group, C74_stale_removed and C74_stale_added refute it in general by reachable histories; C74_planes, C74_rdr, C74_wrap for the planes and RDR."
  },
  {
   "property": "C75",
   "status": "proved",
   "theorems": [
    "DefDAP.C75_doubled",
    "DefDAP.C75_fresh",
    "DefDAP.C75_numpy2",
    "DefDAP.C75_round_trip",
    "DefDAP.C75_shared_group",
    "DefDAP.C75_too_small"
   ],
   "note": "C75_round_trip for every content of every map, over any float text with float(repr(x)) == x; C75_fresh and C75_doubled are its cases. C75_numpy2 and C75_shared_group: from numpy 2 on the file of any grain with two lines in one group cannot be loaded. C75_too_small for a map without grains."
  },
  {
   "property": "C76",
   "status": "proved",
   "theorems": [
    "DefDAP.C76_grains",
    "DefDAP.C76_links",
    "DefDAP.C76_make",
    "DefDAP.C76_reference",
    "DefDAP.C76_refound",
    "DefDAP.C76_tool"
   ],
   "note": "C76_links and C76_tool over all histories, C76_grains without finding grains again and C76_refound a witness with; C76_make for one call; C76_reference for the reference orientations."
  },
  {
   "property": "C77",
   "status": "proved",
   "theorems": [
    "DefDAP.C77_finished",
    "DefDAP.C77_other",
    "DefDAP.C77_percents",
    "DefDAP.C77_transparent"
   ],
   "note": "C77_transparent for every terminating generator over any state; C77_other a witness for other reports; C77_percents and C77_finished describe what is printed."
  },
  {
   "property": "C78",
   "status": "proved",
   "theorems": [
    "DefDAP.C78_link",
    "DefDAP.C78_wrong_grain"
   ],
   "note": "C78_link gives the link for every most common label, grain or not; C78_wrong_grain is the exception for label 0."
  },
  {
   "property": "C79",
   "status": "proved",
   "theorems": [
    "DefDAP.C79_highlight"
   ],
   "note": ""
  },
  {
   "property": "C80",
   "status": "proved",
   "theorems": [
    "DefDAP.C80_scalar_image",
    "DefDAP.C80_vector_image"
   ],
   "note": "C80_scalar_image for scalar maps; C80_vector_image gives the whole image for maps with components, where the property fails."
  },
  {
   "property": "C81",
   "status": "proved",
   "theorems": [
    "DefDAP.C81_known_types",
    "DefDAP.C81_piecewise_affine"
   ],
   "note": "Includes the failure for piecewiseAffine, which the property names."
  },
  {
   "property": "C82",
   "status": "proved",
   "theorems": [
    "DefDAP.C82_dilation",
    "DefDAP.C82_masked_read",
    "DefDAP.C82_pixels",
    "DefDAP.C82_read_pixels",
    "DefDAP.C82_set_mask"
   ],
   "note": "Dilation is modelled with the default cross of scipy."
  },
  {
   "property": "C83",
   "status": "proved",
   "theorems": [
    "DefDAP.C83_warp_lines"
   ],
   "note": "The transform is a parameter; coordinates are rationals."
  },
  {
   "property": "C84",
   "status": "proved",
   "theorems": [
    "DefDAP.C84_bcc",
    "DefDAP.C84_colours"
   ],
   "note": "true for four files, false for the two body-centred files, as the statement says"
  },
  {
   "property": "C85",
   "status": "proved",
   "theorems": [
    "DefDAP.C85_phase",
    "DefDAP.C85_single_row"
   ],
   "note": ""
  },
  {
   "property": "C86",
   "status": "proved",
   "theorems": [
    "DefDAP.C86_rdr",
    "DefDAP.C86_sign"
   ],
   "note": ""
  },
  {
   "property": "C87",
   "status": "proved",
   "theorems": [
    "DefDAP.C87_directions_ignored",
    "DefDAP.C87_maximum",
    "DefDAP.C87_range"
   ],
   "note": "the case of directions without planes is proved to be ignored"
  },
  {
   "property": "C88",
   "status": "proved",
   "theorems": [
    "DefDAP.C88_axis",
    "DefDAP.C88_grod",
    "DefDAP.C88_list",
    "DefDAP.C88_reference"
   ],
   "note": "for a zero deviation the axis is nan in the code"
  },
  {
   "property": "C89",
   "status": "proved",
   "theorems": [
    "DefDAP.C89_family",
    "DefDAP.C89_not_reduced",
    "DefDAP.C89_reduced",
    "DefDAP.C89_same"
   ],
   "note": "For indices with differences of at most 42 in size, below the 8-bit overflow of the code. C89_not_reduced: (0002)[11-20] is not in its own family."
  },
  {
   "property": "C90",
   "status": "proved",
   "theorems": [
    "DefDAP.C90_cubic",
    "DefDAP.C90_hexagonal"
   ],
   "note": "Two theorems, one for each crystal system."
  },
  {
   "property": "C91",
   "status": "proved",
   "theorems": [
    "DefDAP.C91_cube_axis",
    "DefDAP.C91_cubic_corners",
    "DefDAP.C91_cubic_variants",
    "DefDAP.C91_hexagonal_axis",
    "DefDAP.C91_hexagonal_corners",
    "DefDAP.C91_hexagonal_variants",
    "DefDAP.C91_range",
    "DefDAP.C91_sides"
   ],
   "note": "C91_range, C91_sides, C91_cubic_corners, C91_hexagonal_axis, C91_hexagonal_corners, C91_cubic_variants, C91_hexagonal_variants over the reals; C91_cube_axis proves the orange exception. The hexagonal variants and the two corners away from the c axis are stated for directions not along it (the axis itself is C91_hexagonal_axis)."
  },
  {
   "property": "C92",
   "status": "proved",
   "theorems": [
    "DefDAP.C92_black",
    "DefDAP.C92_euler",
    "DefDAP.C92_integer_background",
    "DefDAP.C92_invalid_id",
    "DefDAP.C92_ipf",
    "DefDAP.C92_negative_id"
   ],
   "note": "C92_euler, C92_ipf, C92_black, C92_invalid_id for every map; C92_integer_background and C92_negative_id prove the two exceptions."
  },
  {
   "property": "C93",
   "status": "proved",
   "theorems": [
    "DefDAP.C93_component",
    "DefDAP.C93_default",
    "DefDAP.C93_grain",
    "DefDAP.C93_grain_colours",
    "DefDAP.C93_int",
    "DefDAP.C93_ipf_names",
    "DefDAP.C93_label",
    "DefDAP.C93_magnitude",
    "DefDAP.C93_names",
    "DefDAP.C93_negative",
    "DefDAP.C93_negative_label",
    "DefDAP.C93_norm",
    "DefDAP.C93_params",
    "DefDAP.C93_refused"
   ],
   "note": "All choices of component over data of any number of axes; C93_grain_colours, C93_negative_label and C93_magnitude prove the three exceptions. Array values are a function of the index, plotting itself is not modelled."
  },
  {
   "property": "C94",
   "status": "proved",
   "theorems": [
    "DefDAP.C94_append_only",
    "DefDAP.C94_array",
    "DefDAP.C94_close",
    "DefDAP.C94_grain",
    "DefDAP.C94_pixel",
    "DefDAP.C94_saved",
    "DefDAP.C94_selected"
   ],
   "note": "C94_selected, C94_saved, C94_append_only by induction over sessions; C94_array and C94_pixel prove the two exceptions."
  },
  {
   "property": "C95",
   "status": "proved",
   "theorems": [
    "DefDAP.C95_colours_changed",
    "DefDAP.C95_default",
    "DefDAP.C95_fewer",
    "DefDAP.C95_highlight",
    "DefDAP.C95_neighbour_colours",
    "DefDAP.C95_neighbours",
    "DefDAP.C95_no_second",
    "DefDAP.C95_whole_map"
   ],
   "note": "C95_highlight, C95_default, C95_neighbours, C95_neighbour_colours; C95_fewer, C95_whole_map, C95_colours_changed, C95_no_second prove the exceptions. matplotlib Normalize and ListedColormap are modelled from their documentation."
  },
  {
   "property": "C96",
   "status": "proved",
   "theorems": [
    "DefDAP.C96_line",
    "DefDAP.C96_lines",
    "DefDAP.C96_profile",
    "DefDAP.C96_row",
    "DefDAP.C96_stale",
    "DefDAP.C96_values"
   ],
   "note": "C96_lines by induction over sessions, C96_stale proves the exception; C96_line (points, distances and values without reference to helpers of the model), C96_profile, C96_values, C96_row for the profile. skimage profile_line and linear interpolation are modelled from their documentation."
  },
  {
   "property": "C97",
   "status": "proved",
   "theorems": [
    "DefDAP.C97_border",
    "DefDAP.C97_choice",
    "DefDAP.C97_edges",
    "DefDAP.C97_signs",
    "DefDAP.C97_small",
    "DefDAP.C97_tolerance",
    "DefDAP.C97_zero"
   ],
   "note": "C97_choice, C97_border, C97_tolerance, C97_edges, C97_small for every map; C97_zero and C97_signs prove the exceptions. A nan orientation is none."
  },
  {
   "property": "C98",
   "status": "proved",
   "theorems": [
    "DefDAP.C98_exact",
    "DefDAP.C98_left_edge",
    "DefDAP.C98_measured",
    "DefDAP.C98_negative",
    "DefDAP.C98_refused",
    "DefDAP.C98_right_edge",
    "DefDAP.C98_saved",
    "DefDAP.C98_shift",
    "DefDAP.C98_theory"
   ],
   "note": "C98_exact, C98_shift, C98_theory, C98_measured, C98_saved, C98_refused; C98_left_edge, C98_right_edge, C98_negative prove the exceptions. The slope of scipy linregress is the least squares formula; the pixels of a line come from skimage and are arbitrary."
  },
  {
   "property": "C99",
   "status": "proved",
   "theorems": [
    "DefDAP.C99_orientations",
    "DefDAP.C99_report"
   ],
   "note": "C99_report for every list of grains, C99_orientations proves the exception."
  },
  {
   "property": "C100",
   "status": "proved",
   "theorems": [
    "DefDAP.C100_ebsd",
    "DefDAP.C100_elongated",
    "DefDAP.C100_inside",
    "DefDAP.C100_lost",
    "DefDAP.C100_other",
    "DefDAP.C100_points",
    "DefDAP.C100_turned"
   ],
   "note": "C100_points, C100_inside, C100_other, C100_ebsd; C100_lost, C100_elongated, C100_turned prove the exceptions. Interpolation and thinning (scikit-image) are arbitrary functions; transforms are real."
  },
  {
   "property": "C101",
   "status": "proved",
   "theorems": [
    "DefDAP.C101_failed",
    "DefDAP.C101_history",
    "DefDAP.C101_increment",
    "DefDAP.C101_iter",
    "DefDAP.C101_new",
    "DefDAP.C101_refused"
   ],
   "note": "C101_new, C101_increment, C101_refused, C101_iter, C101_history; C101_failed proves the exception."
  },
  {
   "property": "C102",
   "status": "proved",
   "theorems": [
    "DefDAP.C102_bare",
    "DefDAP.C102_capitals",
    "DefDAP.C102_dic",
    "DefDAP.C102_dict",
    "DefDAP.C102_dots",
    "DefDAP.C102_extension",
    "DefDAP.C102_save_type",
    "DefDAP.C102_saved",
    "DefDAP.C102_type"
   ],
   "note": "C102_extension, C102_bare, C102_type, C102_saved, C102_dic; C102_dots, C102_capitals, C102_dict, C102_save_type prove the exceptions. Names are the last component of a path."
  },
  {
   "property": "C103",
   "status": "proved",
   "theorems": [
    "DefDAP.C103_common_factor",
    "DefDAP.C103_cubic",
    "DefDAP.C103_errors",
    "DefDAP.C103_hexagonal"
   ],
   "note": "C103_cubic, C103_hexagonal, C103_errors; C103_common_factor proves the exception. Indices up to 127 in size (8-bit integers)."
  },
  {
   "property": "C104",
   "status": "proved",
   "theorems": [
    "DefDAP.C104_axis",
    "DefDAP.C104_labels_cubic",
    "DefDAP.C104_labels_hexagonal",
    "DefDAP.C104_line",
    "DefDAP.C104_own_label",
    "DefDAP.C104_points",
    "DefDAP.C104_projection",
    "DefDAP.C104_sym_line",
    "DefDAP.C104_sym_line_false",
    "DefDAP.C104_triangle_cubic",
    "DefDAP.C104_triangle_hexagonal",
    "DefDAP.C104_triangle_tsl"
   ],
   "note": "C104_labels_cubic, C104_labels_hexagonal, C104_own_label, C104_line, C104_sym_line, C104_triangle_cubic, C104_triangle_hexagonal, C104_axis, C104_points, C104_projection; C104_sym_line_false and C104_triangle_tsl prove exceptions, the others are clauses of these theorems. Drawing itself is not modelled."
  },
  {
   "property": "C105",
   "status": "proved",
   "theorems": [
    "DefDAP.C105_cubic",
    "DefDAP.C105_edges",
    "DefDAP.C105_faces",
    "DefDAP.C105_hexagonal",
    "DefDAP.C105_option",
    "DefDAP.C105_symmetric"
   ],
   "note": "C105_cubic, C105_hexagonal, C105_symmetric, C105_faces, C105_edges; C105_option proves the exception. Only the points of the drawing are modelled."
  },
  {
   "property": "C106",
   "status": "proved",
   "theorems": [
    "DefDAP.C106_bands",
    "DefDAP.C106_below",
    "DefDAP.C106_dic",
    "DefDAP.C106_lines",
    "DefDAP.C106_no_colours",
    "DefDAP.C106_planes",
    "DefDAP.C106_recalculated",
    "DefDAP.C106_stored"
   ],
   "note": "C106_lines, C106_planes, C106_recalculated, C106_dic, C106_bands, C106_no_colours; C106_below, C106_stored prove the exceptions. Width and length of the arrows are not modelled."
  },
  {
   "property": "C107",
   "status": "proved",
   "theorems": [
    "DefDAP.C107_bars",
    "DefDAP.C107_clear",
    "DefDAP.C107_create",
    "DefDAP.C107_create_existing",
    "DefDAP.C107_highlights",
    "DefDAP.C107_history",
    "DefDAP.C107_numbers",
    "DefDAP.C107_points"
   ],
   "note": "C107_history, C107_points, C107_highlights, C107_numbers, C107_clear, C107_create; C107_bars, C107_create_existing prove the exceptions. Layers carry arbitrary data."
  },
  {
   "property": "C108",
   "status": "proved",
   "theorems": [
    "DefDAP.C108_boundary_map",
    "DefDAP.C108_four_lines",
    "DefDAP.C108_kind",
    "DefDAP.C108_lines",
    "DefDAP.C108_phase_map",
    "DefDAP.C108_pixels"
   ],
   "note": "C108_lines, C108_pixels, C108_kind, C108_phase_map; C108_four_lines, C108_boundary_map prove the exceptions. Dilation is the default one of scipy."
  },
  {
   "property": "C109",
   "status": "proved",
   "theorems": [
    "DefDAP.C109_angle",
    "DefDAP.C109_axis",
    "DefDAP.C109_no_phase",
    "DefDAP.C109_stored"
   ],
   "note": "C109_angle, C109_axis, C109_no_phase; C109_stored proves the exception."
  },
  {
   "property": "C110",
   "status": "proved",
   "theorems": [
    "DefDAP.C110_assoc",
    "DefDAP.C110_equal",
    "DefDAP.C110_hash",
    "DefDAP.C110_history",
    "DefDAP.C110_normalise",
    "DefDAP.C110_not_assoc",
    "DefDAP.C110_set_item",
    "DefDAP.C110_sum"
   ],
   "note": "C110_equal (with the half turns), C110_hash, C110_assoc, C110_sum, C110_history, C110_normalise; C110_not_assoc, C110_set_item prove exceptions."
  },
  {
   "property": "C111",
   "status": "proved",
   "theorems": [
    "DefDAP.C111_angles",
    "DefDAP.C111_bounded",
    "DefDAP.C111_nan",
    "DefDAP.C111_no_data",
    "DefDAP.C111_scale",
    "DefDAP.C111_sign",
    "DefDAP.C111_uniform"
   ],
   "note": "C111_sign, C111_nan, C111_scale, C111_angles, C111_uniform, C111_bounded; C111_no_data proves the exception. The Radon transform and the peak finder are parameters."
  },
  {
   "property": "C112",
   "status": "proved",
   "theorems": [
    "DefDAP.C112_bins",
    "DefDAP.C112_counts",
    "DefDAP.C112_density",
    "DefDAP.C112_documented",
    "DefDAP.C112_options",
    "DefDAP.C112_reversed"
   ],
   "note": "C112_bins, C112_counts, C112_density, C112_options, C112_reversed; C112_documented (and C112_bins for the number of bins) proves the exceptions."
  },
  {
   "property": "C113",
   "status": "proved",
   "theorems": [
    "DefDAP.C113_attributes",
    "DefDAP.C113_hidden",
    "DefDAP.C113_joined",
    "DefDAP.C113_length",
    "DefDAP.C113_priority",
    "DefDAP.C113_separate",
    "DefDAP.C113_shared",
    "DefDAP.C113_update"
   ],
   "note": "C113_update, C113_priority, C113_separate, C113_attributes; C113_joined, C113_shared, C113_hidden, C113_length prove the exceptions."
  },
  {
   "property": "C114",
   "status": "proved",
   "theorems": [
    "DefDAP.C114_before_first",
    "DefDAP.C114_edits",
    "DefDAP.C114_fails",
    "DefDAP.C114_no_grain",
    "DefDAP.C114_nothing_drawn",
    "DefDAP.C114_selected"
   ],
   "note": "C114_selected, C114_edits, C114_nothing_drawn; C114_fails, C114_before_first, C114_no_grain prove the exceptions."
  },
  {
   "property": "C115",
   "status": "proved",
   "theorems": [
    "DefDAP.C115_corr",
    "DefDAP.C115_corr_kept",
    "DefDAP.C115_corr_size",
    "DefDAP.C115_no_pattern",
    "DefDAP.C115_pattern",
    "DefDAP.C115_scale"
   ],
   "note": "C115_pattern, C115_no_pattern, C115_scale, C115_corr; C115_corr_kept, C115_corr_size prove the exceptions."
  },
  {
   "property": "C116",
   "status": "proved",
   "theorems": [
    "DefDAP.C116_index",
    "DefDAP.C116_monotone",
    "DefDAP.C116_no_data",
    "DefDAP.C116_percentile",
    "DefDAP.C116_points",
    "DefDAP.C116_table",
    "DefDAP.C116_unknown"
   ],
   "note": "C116_index, C116_table, C116_unknown, C116_percentile, C116_monotone, C116_points; C116_no_data proves the exception. The printed format of numbers is left out."
  },
  {
   "property": "C117",
   "status": "proved",
   "theorems": [
    "DefDAP.C117_consistent",
    "DefDAP.C117_dic",
    "DefDAP.C117_dic_crop",
    "DefDAP.C117_dict",
    "DefDAP.C117_dict_errors",
    "DefDAP.C117_history",
    "DefDAP.C117_phases",
    "DefDAP.C117_stale",
    "DefDAP.C117_unchecked"
   ],
   "note": "C117_dict, C117_dict_errors, C117_history, C117_consistent, C117_phases, C117_dic; C117_stale, C117_unchecked, C117_dic_crop prove the exceptions."
  },
  {
   "property": "C118",
   "status": "proved",
   "theorems": [
    "DefDAP.C118_count",
    "DefDAP.C118_labels",
    "DefDAP.C118_line",
    "DefDAP.C118_no_schmid",
    "DefDAP.C118_text"
   ],
   "note": "C118_line, C118_text, C118_labels; C118_count, C118_no_schmid prove the exceptions."
  },
  {
   "property": "C119",
   "status": "proved",
   "theorems": [
    "DefDAP.C119_arguments",
    "DefDAP.C119_ipf",
    "DefDAP.C119_ipf_values",
    "DefDAP.C119_map",
    "DefDAP.C119_map_all",
    "DefDAP.C119_no_orientation",
    "DefDAP.C119_one_grain"
   ],
   "note": "C119_map, C119_map_all, C119_arguments, C119_ipf, C119_ipf_values; C119_one_grain, C119_no_orientation prove the exceptions."
  },
  {
   "property": "C120",
   "status": "proved",
   "theorems": [
    "DefDAP.C120_emptied",
    "DefDAP.C120_ignored",
    "DefDAP.C120_keeps",
    "DefDAP.C120_more_windows",
    "DefDAP.C120_popup",
    "DefDAP.C120_profile",
    "DefDAP.C120_reused",
    "DefDAP.C120_select",
    "DefDAP.C120_taken_origin"
   ],
   "note": "C120_select, C120_ignored, C120_popup, C120_keeps, C120_profile, C120_taken_origin; C120_reused, C120_more_windows, C120_emptied prove the exceptions."
  },
  {
   "property": "C121",
   "status": "proved",
   "theorems": [
    "DefDAP.C121_last_grain",
    "DefDAP.C121_neighbours",
    "DefDAP.C121_network",
    "DefDAP.C121_no_boundaries"
   ],
   "note": "C121_network, C121_neighbours; C121_last_grain, C121_no_boundaries prove the exceptions."
  },
  {
   "property": "C122",
   "status": "proved",
   "theorems": [
    "DefDAP.C122_last",
    "DefDAP.C122_map",
    "DefDAP.C122_map_errors",
    "DefDAP.C122_rdr",
    "DefDAP.C122_rdr_no_orientation",
    "DefDAP.C122_schmid",
    "DefDAP.C122_stale"
   ],
   "note": "C122_schmid, C122_last, C122_rdr, C122_map, C122_map_errors; C122_stale, C122_rdr_no_orientation prove the exceptions."
  },
  {
   "property": "C123",
   "status": "proved",
   "theorems": [
    "DefDAP.C123_labels",
    "DefDAP.C123_listing",
    "DefDAP.C123_no_factors",
    "DefDAP.C123_no_systems",
    "DefDAP.C123_other_systems",
    "DefDAP.C123_str",
    "DefDAP.C123_str_ambiguous",
    "DefDAP.C123_traces"
   ],
   "note": "C123_labels, C123_str, C123_listing, C123_no_systems, C123_traces, C123_no_factors; C123_str_ambiguous, C123_other_systems prove the exceptions."
  },
  {
   "property": "C124",
   "status": "proved",
   "theorems": [
    "DefDAP.C124_direct_boundaries",
    "DefDAP.C124_direct_grains",
    "DefDAP.C124_direct_mixed",
    "DefDAP.C124_network",
    "DefDAP.C124_one_search",
    "DefDAP.C124_order",
    "DefDAP.C124_settings",
    "DefDAP.C124_stale_boundaries",
    "DefDAP.C124_stale_example",
    "DefDAP.C124_stale_grains",
    "DefDAP.C124_stale_network"
   ],
   "note": "C124_order, C124_settings, C124_one_search, C124_network; C124_stale_boundaries, C124_stale_example, C124_stale_grains, C124_stale_network, C124_direct_boundaries, C124_direct_grains, C124_direct_mixed prove the exceptions. The single calculations are arbitrary functions here."
  },
  {
   "property": "C125",
   "status": "proved",
   "theorems": [
    "DefDAP.C125_crop_after",
    "DefDAP.C125_crop_error",
    "DefDAP.C125_direct",
    "DefDAP.C125_links",
    "DefDAP.C125_not_linked",
    "DefDAP.C125_one_map",
    "DefDAP.C125_one_search",
    "DefDAP.C125_other_map",
    "DefDAP.C125_values"
   ],
   "note": "C125_links, C125_one_map, C125_one_search, C125_not_linked, C125_values; C125_other_map, C125_crop_after, C125_crop_error, C125_direct prove the exceptions. The search and the warp are arbitrary functions here."
  },
  {
   "property": "C126",
   "status": "proved",
   "theorems": [
    "DefDAP.C126_after_clear",
    "DefDAP.C126_left_over",
    "DefDAP.C126_missing",
    "DefDAP.C126_no_error",
    "DefDAP.C126_shown"
   ],
   "note": "C126_shown, C126_no_error; C126_after_clear, C126_missing, C126_left_over prove the exceptions. That removing an object that is not drawn raises is matplotlib's behaviour, modelled as an error."
  },
  {
   "property": "C127",
   "status": "proved",
   "theorems": [
    "DefDAP.C127_dilated",
    "DefDAP.C127_lines",
    "DefDAP.C127_map",
    "DefDAP.C127_one_phase"
   ],
   "note": "C127_map, C127_dilated, C127_lines; C127_one_phase proves the exception (the image is indexed with an empty tuple of points)."
  },
  {
   "property": "C128",
   "status": "proved",
   "theorems": [
    "DefDAP.C128_boundary",
    "DefDAP.C128_found",
    "DefDAP.C128_grains",
    "DefDAP.C128_invariant",
    "DefDAP.C128_invariant_grains",
    "DefDAP.C128_no_boundary",
    "DefDAP.C128_other_crystal"
   ],
   "note": "C128_boundary, C128_grains, C128_found, C128_invariant, C128_invariant_grains; C128_no_boundary, C128_other_crystal prove the exceptions. From the quaternions to the list of grains; exact reals, so a misorientation that rounds above one (the code fills these with a maximum) does not occur."
  },
  {
   "property": "C129",
   "status": "proved",
   "theorems": [
    "DefDAP.C129_bcc",
    "DefDAP.C129_chosen",
    "DefDAP.C129_largest",
    "DefDAP.C129_ratios",
    "DefDAP.C129_schmid",
    "DefDAP.C129_traces"
   ],
   "note": "C129_schmid, C129_largest, C129_ratios, C129_traces; C129_bcc, C129_chosen prove the exceptions."
  },
  {
   "property": "C130",
   "status": "proved",
   "theorems": [
    "DefDAP.C130_found",
    "DefDAP.C130_last_break",
    "DefDAP.C130_loaded",
    "DefDAP.C130_refused",
    "DefDAP.C130_shipped",
    "DefDAP.C130_written"
   ],
   "note": "C130_written, C130_last_break, C130_loaded, C130_found, C130_shipped, C130_refused. Numbers that are not whole or have more than 8 bits, which numpy reads through floats with a deprecation warning, are errors in the model; file system errors other than a missing file are not modelled."
  },
  {
   "property": "C131",
   "status": "proved",
   "theorems": [
    "DefDAP.C131_invariant",
    "DefDAP.C131_limit"
   ],
   "note": "C131_invariant; C131_limit is the counterexample at 30 degrees (only one of two equivalents equally far away can be the first found)."
  },
  {
   "property": "C132",
   "status": "proved",
   "theorems": [
    "DefDAP.C132_average",
    "DefDAP.C132_order",
    "DefDAP.C132_turned"
   ],
   "note": "C132_average, C132_order, C132_turned."
  },
  {
   "property": "C133",
   "status": "proved",
   "theorems": [
    "DefDAP.C133_moved",
    "DefDAP.C133_rigid",
    "DefDAP.C133_scaled",
    "DefDAP.C133_shear"
   ],
   "note": "C133_moved, C133_rigid, C133_shear, C133_scaled."
  },
  {
   "property": "C134",
   "status": "proved",
   "theorems": [
    "DefDAP.C134_rotated",
    "DefDAP.C134_turned"
   ],
   "note": "C134_turned, C134_rotated."
  },
  {
   "property": "C135",
   "status": "proved",
   "theorems": [
    "DefDAP.C135_about",
    "DefDAP.C135_colours",
    "DefDAP.C135_half",
    "DefDAP.C135_traces"
   ],
   "note": "C135_traces, C135_colours, C135_about, C135_half. A trace angle of 0 may become 180 degrees and conversely: the same trace."
  },
  {
   "property": "C136",
   "status": "proved",
   "theorems": [
    "DefDAP.C136_grod",
    "DefDAP.C136_list",
    "DefDAP.C136_reference",
    "DefDAP.C136_turned",
    "DefDAP.C136_turned_mean"
   ],
   "note": "C136_reference, C136_grod, C136_list, C136_turned, C136_turned_mean. The orientations are taken away from the border between the hemispheres (see C43)."
  },
  {
   "property": "C137",
   "status": "proved",
   "theorems": [
    "DefDAP.C137_linked",
    "DefDAP.C137_nothing",
    "DefDAP.C137_same"
   ],
   "note": "C137_linked, C137_nothing, C137_same. The transform is any function from DIC to EBSD coordinates; order 0 interpolation takes the nearest pixel."
  },
  {
   "property": "C138",
   "status": "proved",
   "theorems": [
    "DefDAP.C138_misorientation",
    "DefDAP.C138_saved",
    "DefDAP.C138_stable"
   ],
   "note": "C138_misorientation, C138_stable, C138_saved."
  },
  {
   "property": "C139",
   "status": "proved",
   "theorems": [
    "DefDAP.C139_grain",
    "DefDAP.C139_largest",
    "DefDAP.C139_reference",
    "DefDAP.C139_symmetric",
    "DefDAP.C139_triangle",
    "DefDAP.C139_zero"
   ],
   "note": "C139_zero, C139_symmetric, C139_triangle, C139_largest (sharp for both groups), C139_grain, C139_reference."
  },
  {
   "property": "C140",
   "status": "proved",
   "theorems": [
    "DefDAP.C140_cut",
    "DefDAP.C140_last_break"
   ],
   "note": "C140_cut, C140_last_break. The last column (band slope) is always written as 0, so a cut last row has lost a column, which loadtxt refuses; fewer rows do not fit the size given in the header."
  },
  {
   "property": "C141",
   "status": "proved",
   "theorems": [
    "DefDAP.C141_cut",
    "DefDAP.C141_unnoticed"
   ],
   "note": "C141_cut, C141_unnoticed. Groups are lists, as those the inspector makes (C31); under numpy 2 as in C75."
  },
  {
   "property": "C142",
   "status": "proved",
   "theorems": [
    "DefDAP.C142_crc",
    "DefDAP.C142_davis",
    "DefDAP.C142_edax",
    "DefDAP.C142_openpiv",
    "DefDAP.C142_openpiv_up",
    "DefDAP.C142_pyvale"
   ],
   "note": "C142_crc, C142_openpiv, C142_openpiv_up, C142_pyvale, C142_davis, C142_edax. DIC files from the numbers in them on, line by line; EDAX files with a readable header (C69), by characters; a CPR list with only known fields."
  },
  {
   "property": "C143",
   "status": "proved",
   "theorems": [
    "DefDAP.C143_dic",
    "DefDAP.C143_ebsd"
   ],
   "note": "C143_ebsd, C143_dic. The pixels of a grain are compared as sets without repetition: their order inside a grain may depend on the minimum size."
  },
  {
   "property": "C144",
   "status": "proved",
   "theorems": [
    "DefDAP.C144_at_most",
    "DefDAP.C144_equivalents",
    "DefDAP.C144_isolated",
    "DefDAP.C144_turned"
   ],
   "note": "C144_at_most, C144_isolated, C144_turned; C144_equivalents proves the exception. Exact arithmetic."
  },
  {
   "property": "C145",
   "status": "proved",
   "theorems": [
    "DefDAP.C145_min_size",
    "DefDAP.C145_turned",
    "DefDAP.C145_turned_false"
   ],
   "note": "C145_min_size, C145_turned; C145_turned_false proves the exception for every map of at least three by three pixels."
  },
  {
   "property": "C146",
   "status": "proved",
   "theorems": [
    "DefDAP.C146_cut",
    "DefDAP.C146_digits",
    "DefDAP.C146_fields",
    "DefDAP.C146_needed",
    "DefDAP.C146_space"
   ],
   "note": "C146_cut, C146_needed; C146_fields, C146_space and C146_digits prove the exceptions."
  },
  {
   "property": "C147",
   "status": "proved",
   "theorems": [
    "DefDAP.C147_order",
    "DefDAP.C147_values"
   ],
   "note": "C147_values, C147_order."
  },
  {
   "property": "C148",
   "status": "proved",
   "theorems": [
    "DefDAP.C148_bound",
    "DefDAP.C148_step"
   ],
   "note": "C148_bound, C148_step."
  },
  {
   "property": "C149",
   "status": "proved",
   "theorems": [
    "DefDAP.C149_name",
    "DefDAP.C149_number",
    "DefDAP.C149_other",
    "DefDAP.C149_saved",
    "DefDAP.C149_session"
   ],
   "note": "C149_number, C149_other, C149_session, C149_name, C149_saved."
  },
  {
   "property": "C150",
   "status": "proved",
   "theorems": [
    "DefDAP.C150_bcc",
    "DefDAP.C150_cubic",
    "DefDAP.C150_cubic_least",
    "DefDAP.C150_half",
    "DefDAP.C150_noca",
    "DefDAP.C150_withca"
   ],
   "note": "C150_cubic, C150_cubic_least, C150_half, C150_bcc, C150_noca, C150_withca."
  },
  {
   "property": "C151",
   "status": "proved",
   "theorems": [
    "DefDAP.C151_columns",
    "DefDAP.C151_pyvale",
    "DefDAP.C151_same"
   ],
   "note": "C151_same, C151_pyvale, C151_columns. The exception for OpenPIV is C71_ascending."
  },
  {
   "property": "C152",
   "status": "proved",
   "theorems": [
    "DefDAP.C152_beside",
    "DefDAP.C152_least",
    "DefDAP.C152_more",
    "DefDAP.C152_none",
    "DefDAP.C152_smooth",
    "DefDAP.C152_tolerance"
   ],
   "note": "C152_smooth, C152_least, C152_more, C152_tolerance, C152_beside, C152_none."
  },
  {
   "property": "C153",
   "status": "proved",
   "theorems": [
    "DefDAP.C153_read",
    "DefDAP.C153_same",
    "DefDAP.C153_sign"
   ],
   "note": "C153_read, C153_same, C153_sign."
  },
  {
   "property": "C154",
   "status": "proved",
   "theorems": [
    "DefDAP.C154_average",
    "DefDAP.C154_factor",
    "DefDAP.C154_grain",
    "DefDAP.C154_largest",
    "DefDAP.C154_misori"
   ],
   "note": "C154_factor, C154_largest, C154_misori, C154_grain, C154_average."
  },
  {
   "property": "C155",
   "status": "proved",
   "theorems": [
    "DefDAP.C155_local",
    "DefDAP.C155_noise",
    "DefDAP.C155_part",
    "DefDAP.C155_step",
    "DefDAP.C155_strain"
   ],
   "note": "C155_local, C155_noise, C155_strain, C155_part, C155_step."
  },
  {
   "property": "C156",
   "status": "proved",
   "theorems": [
    "DefDAP.C156_boundaries",
    "DefDAP.C156_kept",
    "DefDAP.C156_split",
    "DefDAP.C156_within"
   ],
   "note": "C156_boundaries, C156_within, C156_kept, C156_split."
  },
  {
   "property": "C157",
   "status": "proved",
   "theorems": [
    "DefDAP.C157_floor",
    "DefDAP.C157_gnd",
    "DefDAP.C157_gnd_part",
    "DefDAP.C157_kam",
    "DefDAP.C157_kam_part"
   ],
   "note": "C157_kam, C157_kam_part, C157_gnd, C157_gnd_part, C157_floor."
  },
  {
   "property": "C158",
   "status": "proved",
   "theorems": [
    "DefDAP.C158_best",
    "DefDAP.C158_error"
   ],
   "note": "C158_best, C158_error."
  },
  {
   "property": "C159",
   "status": "proved",
   "theorems": [
    "DefDAP.C159_back",
    "DefDAP.C159_length",
    "DefDAP.C159_linked",
    "DefDAP.C159_lost",
    "DefDAP.C159_outline"
   ],
   "note": "C159_outline, C159_length, C159_back, C159_linked, C159_lost."
  },
  {
   "property": "C160",
   "status": "proved",
   "theorems": [
    "DefDAP.C160_balance",
    "DefDAP.C160_follow",
    "DefDAP.C160_linear",
    "DefDAP.C160_parts"
   ],
   "note": "C160_balance, C160_follow, C160_linear, C160_parts."
  },
  {
   "property": "C161",
   "status": "proved",
   "theorems": [
    "DefDAP.C161_inclination",
    "DefDAP.C161_lost",
    "DefDAP.C161_steep",
    "DefDAP.C161_trace"
   ],
   "note": "C161_trace, C161_inclination, C161_steep, C161_lost."
  },
  {
   "property": "C162",
   "status": "proved",
   "theorems": [
    "DefDAP.C162_cube_axis",
    "DefDAP.C162_cubic",
    "DefDAP.C162_hexagonal"
   ],
   "note": "C162_cubic, C162_hexagonal, C162_cube_axis."
  },
  {
   "property": "C163",
   "status": "proved",
   "theorems": [
    "DefDAP.C163_best",
    "DefDAP.C163_dilution",
    "DefDAP.C163_dilution_row",
    "DefDAP.C163_noise"
   ],
   "note": "C163_best, C163_noise, C163_dilution, C163_dilution_row."
  },
  {
   "property": "C164",
   "status": "proved",
   "theorems": [
    "DefDAP.C164_cube_axis",
    "DefDAP.C164_cubic",
    "DefDAP.C164_hexagonal"
   ],
   "note": "C164_cubic, C164_hexagonal, C164_cube_axis."
  },
  {
   "property": "C165",
   "status": "proved",
   "theorems": [
    "DefDAP.C165_changed",
    "DefDAP.C165_finer",
    "DefDAP.C165_half",
    "DefDAP.C165_order",
    "DefDAP.C165_parts",
    "DefDAP.C165_sharp",
    "DefDAP.C165_whole"
   ],
   "note": "C165_half, C165_changed, C165_sharp, C165_order, C165_finer, C165_parts, C165_whole."
  },
  {
   "property": "C166",
   "status": "proved",
   "theorems": [
    "DefDAP.C166_error",
    "DefDAP.C166_exact",
    "DefDAP.C166_outside",
    "DefDAP.C166_third_frame"
   ],
   "note": "C166_exact, C166_third_frame, C166_error, C166_outside. Of scikit-image only this is assumed: an affine transform estimated from points that some affine map takes to each other is an affine map that does so, and its inverse is the inverse; fitsAffine_exists shows that such operations exist."
  },
  {
   "property": "C167",
   "status": "proved",
   "theorems": [
    "DefDAP.C167_link",
    "DefDAP.C167_marks",
    "DefDAP.C167_warp"
   ],
   "note": "C167_link, C167_marks, C167_warp."
  },
  {
   "property": "C168",
   "status": "proved",
   "theorems": [
    "DefDAP.C168_larger",
    "DefDAP.C168_noise",
    "DefDAP.C168_units",
    "DefDAP.C168_wrong"
   ],
   "note": "C168_larger, C168_units, C168_noise, C168_wrong."
  },
  {
   "property": "C169",
   "status": "proved",
   "theorems": [
    "DefDAP.C169_noise",
    "DefDAP.C169_other_way",
    "DefDAP.C169_steep",
    "DefDAP.C169_units"
   ],
   "note": "C169_other_way, C169_units, C169_noise, C169_steep."
  },
  {
   "property": "C170",
   "status": "proved",
   "theorems": [
    "DefDAP.C170_large",
    "DefDAP.C170_noise",
    "DefDAP.C170_units"
   ],
   "note": "C170_noise, C170_units, C170_large."
  },
  {
   "property": "C171",
   "status": "proved",
   "theorems": [
    "DefDAP.C171_finer",
    "DefDAP.C171_joined",
    "DefDAP.C171_noise",
    "DefDAP.C171_order",
    "DefDAP.C171_units"
   ],
   "note": "C171_order, C171_joined, C171_finer, C171_noise, C171_units."
  },
  {
   "property": "C172",
   "status": "proved",
   "theorems": [
    "DefDAP.C172_families",
    "DefDAP.C172_kept",
    "DefDAP.C172_nearest",
    "DefDAP.C172_order",
    "DefDAP.C172_removed"
   ],
   "note": "C172_nearest, C172_families, C172_order, C172_kept, C172_removed."
  },
  {
   "property": "C173",
   "status": "proved",
   "theorems": [
    "DefDAP.C173_given",
    "DefDAP.C173_mean",
    "DefDAP.C173_uniform"
   ],
   "note": "C173_given, C173_mean, C173_uniform."
  },
  {
   "property": "C174",
   "status": "proved",
   "theorems": [
    "DefDAP.C174_circles",
    "DefDAP.C174_cubic",
    "DefDAP.C174_hexagonal",
    "DefDAP.C174_lambert",
    "DefDAP.C174_stereo"
   ],
   "note": "C174_stereo, C174_circles, C174_lambert, C174_cubic, C174_hexagonal."
  },
  {
   "property": "C175",
   "status": "proved",
   "theorems": [
    "DefDAP.C175_bounds",
    "DefDAP.C175_directions",
    "DefDAP.C175_lambert",
    "DefDAP.C175_stereo"
   ],
   "note": "C175_lambert, C175_stereo, C175_bounds, C175_directions."
  }
 ]
}