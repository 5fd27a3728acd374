{"id": "C01", "title": "EBSD flood fill is memory-safe and terminates", "statement": "Flood filling a grain in an EBSD map that is at least two pixels wide and two pixels high, from any seed inside the map, always finishes, only ever reads and writes pixels inside the map, and never writes past the end of the coordinate buffer it was given (which has one slot per pixel not yet in a grain). On a map one pixel wide or one pixel high this fails: the fill leaves the map.", "quantifier": "every map size, every seed, every pair of boundary images, every prior grain labelling, every positive grain number", "why_tests_cant": "The fill runs in compiled code without bounds checks, so an overrun may be silent; it must be excluded for every map, boundary pattern and prior labelling.", "anchors": ["defdap/_accelerated.py:flood_fill"]}
{"id": "C02", "title": "EBSD flood fill finds exactly the connected region of the seed", "statement": "The points returned by flood filling a seed are, each listed once, exactly the pixels that can be reached from the seed by steps between 4-neighbours that do not cross a boundary and do not enter a pixel already in a grain; the grain map is changed to the new grain number at exactly those pixels and nowhere else, and exactly those pixels are removed from the set of points still to be assigned.", "quantifier": "every map at least 2x2, every seed not yet in a grain, every boundary image, every prior labelling", "why_tests_cant": "Reachability in an arbitrary maze of boundaries is an unbounded property; any finite set of example maps leaves shapes untested.", "anchors": ["defdap/_accelerated.py:flood_fill"]}
{"id": "C03", "title": "EBSD grain finding partitions the indexed points", "statement": "After finding grains in an EBSD map every indexed pixel is labelled with a grain number >= 1 or with -2 (too small), every non-indexed pixel keeps 0, two indexed pixels carry the same positive label only if they are connected without crossing a boundary, and two connected indexed pixels always carry the same label.", "quantifier": "every phase map and every boundary pair with boundaries at all phase changes, every minimum grain size", "why_tests_cant": "Needs every boundary pattern and the interleaving of seed scan and fills; no bound on map size.", "anchors": ["defdap/ebsd.py:Map.find_grains", "defdap/_accelerated.py:flood_fill"]}
{"id": "C04", "title": "Grain numbering matches the grain list", "statement": "Grains are numbered 1..n without gaps in raster order of their first pixel; grain i of the list holds, each once, exactly the pixels labelled i+1 in the grain map; each has at least the minimum grain size; a region ends as -2 exactly when it has fewer pixels than the minimum.", "quantifier": "every phase map, boundary pair and minimum grain size", "why_tests_cant": "Later lookups index the grain list by label-1; a single missed renumbering breaks them for some map only.", "anchors": ["defdap/ebsd.py:Map.find_grains", "defdap/base.py:Map.__getitem__"]}
{"id": "C05", "title": "Grains never mix phases", "statement": "When the boundaries come from the boundary finder, no grain contains a non-indexed pixel or pixels of two different phases, so the phase of a grain is well defined, equals the phase of all its pixels, and the 'more than one phase' warning is never issued.", "quantifier": "every phase map, every orientation map, every tolerance, every minimum grain size", "why_tests_cant": "Depends on all phase layouts and all fill orders.", "anchors": ["defdap/ebsd.py:Map.find_boundaries", "defdap/ebsd.py:Map.find_grains"]}
{"id": "C06", "title": "Grain point lists survive later grain finding steps", "statement": "All grains' point lists are slices of one shared buffer; after the whole grain finding run each grain's list still holds the points found for that grain: no later fill overwrites an earlier slice and the buffer never overflows.", "quantifier": "every sequence of fills during one grain finding run, including fills discarded as too small", "why_tests_cant": "An aliasing error would corrupt only earlier grains and only for certain sequences of kept and discarded regions.", "anchors": ["defdap/ebsd.py:Map.find_grains", "defdap/_accelerated.py:flood_fill", "defdap/hrdic.py:Map.find_grains"]}
{"id": "C07", "title": "Grain finding failure cases", "statement": "Grain finding fails with an error exactly when the map has no indexed pixel at all, or has no region of at least the minimum size; in every other case it completes.", "quantifier": "every map at least 2x2", "why_tests_cant": "The failure condition is a statement about all maps, including degenerate ones no test uses.", "anchors": ["defdap/ebsd.py:Map.find_grains"]}
{"id": "C08", "title": "A larger misorientation tolerance never adds boundaries and never splits grains", "statement": "For the same data, raising the boundary tolerance yields a subset of the grain boundaries, leaves the phase boundaries unchanged, and every connected region at the smaller tolerance lies inside one region at the larger tolerance. False for regions exactly when the larger tolerance removes the last boundary between pixels side by side, or the last between pixels one above the other, although some such pixels were not separated before: then all pixels are separated in that direction.", "quantifier": "every map and every pair of tolerances", "why_tests_cant": "Relates two runs over all data and all pairs of thresholds.", "anchors": ["defdap/ebsd.py:Map.find_boundaries"]}
{"id": "C09", "title": "Boundary images are faithful to what the boundary finder detected", "statement": "There is a grain boundary to the right of (below) a pixel exactly when the misorientation to the right (lower) neighbour exceeds the tolerance or the phases differ; no boundary is reported beyond the last column (row); phase boundaries are always grain boundaries.", "quantifier": "every map, every non-negative tolerance", "why_tests_cant": "An off-by-one in the shifted comparison affects only the map edge or only particular pixels.", "anchors": ["defdap/ebsd.py:Map.find_boundaries", "defdap/ebsd.py:BoundarySet.from_image"]}
{"id": "C10", "title": "Boundary set round trip through images", "statement": "Building a boundary set from images and reading the images back gives the images that were put in; the point lists contain exactly the true pixels. The read-back is wrong for a set with no boundary pixels: an empty set reads back as a boundary at every pixel.", "quantifier": "every pair of boolean images of any shape", "why_tests_cant": "The empty set is a corner case of numpy indexing; the claim covers all subsets of all grids.", "anchors": ["defdap/ebsd.py:BoundarySet", "defdap/hrdic.py:BoundarySet"]}
{"id": "C11", "title": "Boundary lines separate the two pixels they stand for", "statement": "Each drawn boundary line of length one is the shared edge of the two pixels on either side of the boundary point: its midpoint is the midpoint of the two pixel centres and it is perpendicular to the line joining them; one line is produced per point.", "quantifier": "every set of boundary points", "why_tests_cant": "Universally quantified over points; swapped coordinates are symmetric on the diagonal cases usually tested.", "anchors": ["defdap/ebsd.py:BoundarySet.boundary_points_to_lines"]}
{"id": "C12", "title": "DIC flood fill is safe, terminates and finds exactly the enclosed region plus its right/lower boundary pixels", "statement": "On a map at least 2x2, filling from a free pixel terminates, stays inside the map and returns, each once, the free pixels 4-connected to the seed together with those boundary pixels that lie directly right of or below such a pixel; labels and points-remaining change at exactly these pixels.", "quantifier": "every labelled DIC map, every seed that is free, every positive grain number", "why_tests_cant": "Same as for the EBSD fill: all maze shapes, and compiled code without bounds checks.", "anchors": ["defdap/_accelerated.py:flood_fill_dic"]}
{"id": "C13", "title": "DIC grain finding partitions the map", "statement": "After DIC grain finding every pixel is in exactly one grain, or -2 (too small region), or is an unassigned boundary pixel -1; no free pixel remains; grain i holds exactly the pixels labelled i+1, each once, and has at least the minimum size; two connected free pixels share a label.", "quantifier": "every boundary image at least 2x2 with at least one free pixel, every minimum grain size", "why_tests_cant": "All boundary patterns and all orders of absorbing boundary pixels.", "anchors": ["defdap/hrdic.py:Map.find_grains", "defdap/_accelerated.py:flood_fill_dic"]}
{"id": "C14", "title": "Warped DIC grain labels are a faithful renumbering", "statement": "The warp method renumbers the warped EBSD labels to 1..n without gaps, keeps non-positive labels unchanged, keeps two pixels in the same grain exactly when they were in the same EBSD grain, preserves order, and records for each new grain the EBSD grain it came from.", "quantifier": "every warped label image", "why_tests_cant": "The digitize-based relabelling must be right for every set of surviving labels.", "anchors": ["defdap/hrdic.py:Map.find_grains"]}
{"id": "C15", "title": "Neighbour network lists exactly the touching grain pairs", "statement": "Two grains are linked in the neighbour network exactly when some boundary point away from the map edge separates a pixel of one from a pixel of the other; the link is independent of which grain was met first, each pair has one segment, and non-grain labels never take part. If a grain that touches another is missing from the list of grains, building the network is an error.", "quantifier": "every grain map and boundary set", "why_tests_cant": "Order of traversal and unordered-pair bookkeeping must be right for every map.", "anchors": ["defdap/ebsd.py:Map.build_neighbour_network", "defdap/ebsd.py:BoundarySegment"]}
{"id": "C16", "title": "Boundary segments record points on the correct sides", "statement": "In every boundary segment each recorded pair of points has its first point in the segment's first grain and its second point in the second grain, and the two points are direct neighbours.", "quantifier": "every grain map and boundary set, every traversal order", "why_tests_cant": "Side swapping depends on the order in which the two grains are met.", "anchors": ["defdap/ebsd.py:BoundarySegment.addBoundaryPoint", "defdap/ebsd.py:BoundarySegment.boundary_point_pairs"]}
{"id": "C17", "title": "Grain data and map data are mutually inverse on the grain", "statement": "Extracting a map's values for a grain and writing them back to a map restores the map on the grain's pixels and leaves the background value elsewhere; the image of a grain shows each value at its own pixel inside the bounding box.", "quantifier": "every grain, every map array, every background value", "why_tests_cant": "Index order errors (x,y against row,column) vanish on symmetric examples.", "anchors": ["defdap/base.py:Grain.grain_data", "defdap/base.py:Grain.grain_map_data", "defdap/base.py:Map.grain_data_to_map"]}
{"id": "C18", "title": "Bounding box is tight", "statement": "A grain's extreme coordinates enclose all of its points and each of the four sides is attained by some point.", "quantifier": "every non-empty point list", "why_tests_cant": "Universal over point sets.", "anchors": ["defdap/base.py:Grain.extreme_coords"]}
{"id": "C19", "title": "Grain centre lies in the bounding box", "statement": "The reported centre, of either kind and relative to the grain or to the map, is inside the grain's bounding box after rounding, and the two reference frames differ by exactly the box corner.", "quantifier": "every non-empty point list", "why_tests_cant": "Half-way rounding cases occur for particular extents only.", "anchors": ["defdap/base.py:Grain.centre_coords"]}
{"id": "C20", "title": "Grain averages and per-grain maps", "statement": "The per-grain average lists one mean per grain in list order; painting per-grain values onto a map gives every pixel of grain i its own grain's value and the background elsewhere, and painting then averaging gives the values back.", "quantifier": "every grain list with disjoint point lists, every value list, every background", "why_tests_cant": "Selected-grain lists and -1 defaults interact; must hold for all.", "anchors": ["defdap/base.py:Map.calc_grain_average", "defdap/base.py:Map.grain_data_to_map_data"]}
{"id": "C21", "title": "Coarse grain maps stay within the grain's data", "statement": "Kernel averaging of grain data uses only pixels of the grain: each value lies between the grain's minimum and maximum, a kernel of size zero changes nothing, and pixels outside the grain stay at the background.", "quantifier": "every grain, every data array, every kernel size", "why_tests_cant": "Neighbourhood clipping at the box edges has many cases.", "anchors": ["defdap/base.py:Grain.grain_map_data_coarse"]}
{"id": "C22", "title": "Proxigram is the distance to the nearest boundary point", "statement": "Each value equals the smaller of 1000 and the distance to the nearest boundary point, whatever batch size is used and whatever order the boundary points are visited in.", "quantifier": "every boundary set, every order, every batch size >= 1", "why_tests_cant": "Batching reuses slots; a stale slot shows only for certain batch sizes and orders.", "anchors": ["defdap/base.py:Map.calc_proxigram"]}
{"id": "C23", "title": "Data store keeps what was put in it", "statement": "After any sequence of adds, sets, reads and metadata changes, reading a stored item gives the last value written to it, other items are unaffected, and the listed keys are exactly the keys added; adding an existing key and setting an unknown key are rejected and change nothing.", "quantifier": "every history of data store operations", "why_tests_cant": "A statement about all operation sequences.", "anchors": ["defdap/utils.py:Datastore"]}
{"id": "C24", "title": "Data generators run once per saved item", "statement": "Reading an item that is not yet generated runs its generator and stores all of the generator's outputs; further reads of any of these items return the stored values without running the generator again, unless the item is marked not to be saved.", "quantifier": "every history of reads on any set of generators with any number of outputs", "why_tests_cant": "Number of generator runs depends on the whole read history.", "anchors": ["defdap/utils.py:Datastore.__getitem__", "defdap/utils.py:Datastore.generate"]}
{"id": "C25", "title": "A failed generator registration or generation leaves the store usable", "statement": "If registering a generator fails because a key exists, the store is unchanged if this is the first key. This is false for a later key: the keys before it remain in the store, without data and generator, but nothing else changes. If generation returns the wrong number of values, nothing is stored.", "quantifier": "every store state and every key tuple", "why_tests_cant": "Partial updates depend on the position of the clash.", "anchors": ["defdap/utils.py:Datastore.add_generator", "defdap/utils.py:Datastore.generate"]}
{"id": "C26", "title": "Listing keys always terminates and resets the cycle guard", "statement": "Listing the keys of any data store terminates for every network of stores linked by derivatives, including cyclic ones, and afterwards the cycle guard is reset so the next listing starts afresh.", "quantifier": "every finite graph of stores and derivative links", "why_tests_cant": "Cycles and sharing of arbitrary shape.", "anchors": ["defdap/utils.py:Datastore.keys", "defdap/utils.py:Datastore.lookup_derivative_keys"]}
{"id": "C27", "title": "Every listed key can be read", "statement": "Each key listed by a data store is held by it, or supplied by its first derivative and read through that. This is false when a store has two derivatives: keys supplied only by a later one are listed but reading them raises KeyError.", "quantifier": "every store with any number of derivatives", "why_tests_cant": "Needs every combination of derivatives; tests only use one.", "anchors": ["defdap/utils.py:Datastore._get_derived_item", "defdap/utils.py:Datastore.keys"]}
{"id": "C28", "title": "Metadata lookup falls back to the default", "statement": "Asking for metadata of a key or attribute that does not exist returns the default; for derived keys it is what the derivative gives, else what the source has. This is false for a store without derivatives, where an unknown key raises an unbound-variable error instead.", "quantifier": "every store and every key", "why_tests_cant": "Depends on the number of derivatives.", "anchors": ["defdap/utils.py:Datastore.get_metadata", "defdap/utils.py:Datastore._get_derived_item"]}
{"id": "C29", "title": "Reading map data applies the current crop to the original data", "statement": "Reading an item of map type returns the current crop of the stored full-size data, whatever crops were set and whatever reads were made before; stored data is never cropped twice or altered by reading. For masked items the mask is applied to the crop. False for masked items if the crop was changed to another size after the mask was set: reading them is an error.", "quantifier": "every history of crops and reads", "why_tests_cant": "History independence over all sequences of crops.", "anchors": ["defdap/utils.py:Datastore.__getitem__", "defdap/hrdic.py:Map.set_crop", "defdap/hrdic.py:Map.crop"]}
{"id": "C30", "title": "Cropped data has the map's shape and the right pixels", "statement": "For crop distances that leave at least one pixel, the map's shape is the full size minus the crop, cropped data has exactly that shape (times the binning for pattern images) and pixel (i,j) of the crop is pixel (i+top, j+left) of the full data.", "quantifier": "every map size, crop distances and binning", "why_tests_cant": "Slice arithmetic with zero, one and negative margins.", "anchors": ["defdap/hrdic.py:Map.set_crop", "defdap/hrdic.py:Map.crop"]}
{"id": "C31", "title": "Homologous points keep marking the same physical pixel", "statement": "Over any sequence of crop changes with point updating on, each homologous point keeps its position relative to the uncropped map.", "quantifier": "every sequence of crop changes and every set of points", "why_tests_cant": "An invariant over histories.", "anchors": ["defdap/hrdic.py:Map.set_crop", "defdap/experiment.py:Frame.update_homog_points"]}
{"id": "C32", "title": "Updating homologous points changes only the addressed points", "statement": "Giving a new location for one point changes only that point; a delta moves exactly the addressed point, or all points when all are addressed. Giving a new location while addressing all points is refused. The last part is false: all points become None.", "quantifier": "every point list, index, location and delta", "why_tests_cant": "All argument combinations.", "anchors": ["defdap/experiment.py:Frame.update_homog_points"]}
{"id": "C33", "title": "Frame transforms are consistent in both directions", "statement": "A transform between two frames exists exactly when they were linked; the transform returned for the reverse direction is the inverse of the forward transform's estimate (for polynomial transforms, which have no inverse, an estimate of its own from the swapped points); frames linked in both directions are reported as an error.", "quantifier": "every history of frame links", "why_tests_cant": "All link histories.", "anchors": ["defdap/experiment.py:Experiment.link_frames", "defdap/experiment.py:Experiment.get_frame_transform"]}
{"id": "C34", "title": "Quaternion product is the rotation composition", "statement": "The product of orientations acts on vectors as applying the right factor then the left, has the product of norms, and is always returned in the northern hemisphere; multiplying by the conjugate gives the identity for unit quaternions.", "quantifier": "all quaternions", "why_tests_cant": "Real-valued, infinite domain.", "anchors": ["defdap/quat.py:Quat.__mul__", "defdap/quat.py:Quat.conjugate", "defdap/quat.py:Quat.transform_vector"]}
{"id": "C35", "title": "Rotating vectors preserves lengths and angles", "statement": "Transforming vectors by a unit quaternion preserves dot products and orientation (cross products). The sign of a quaternion should not matter, but does: one left in the southern hemisphere (allow_southern, in-place arithmetic) sends every vector to the opposite of its image under the northern one.", "quantifier": "all unit quaternions, all vectors", "why_tests_cant": "Real-valued, infinite domain.", "anchors": ["defdap/quat.py:Quat.transform_vector"]}
{"id": "C36", "title": "Rotation matrix agrees with the quaternion", "statement": "The rotation matrix of a unit quaternion is a proper rotation (orthogonal, determinant one) and multiplying a vector by it equals transforming the vector by the quaternion, if that is northern.", "quantifier": "all unit quaternions, all vectors", "why_tests_cant": "Real-valued, infinite domain; sign conventions.", "anchors": ["defdap/quat.py:Quat.rot_matrix"]}
{"id": "C37", "title": "Euler angle round trip", "statement": "Orientations from Euler angles are unit and northern; converting a unit quaternion to Euler angles gives phi1, phi2 in [0, 2pi) and Phi in [0, pi], and converting back gives the same orientation, including the degenerate cases Phi=0 and Phi=pi.", "quantifier": "all unit quaternions", "why_tests_cant": "Real-valued with three branches; degenerate branches have measure zero.", "anchors": ["defdap/quat.py:Quat.from_euler_angles", "defdap/quat.py:Quat.euler_angles"]}
{"id": "C38", "title": "Axis-angle construction", "statement": "An orientation built from an axis and an angle is unit, fixes the axis, does not depend on the length of the axis, and the reversed axis with the reversed angle gives the same orientation.", "quantifier": "all non-zero axes, all angles", "why_tests_cant": "Real-valued, infinite domain.", "anchors": ["defdap/quat.py:Quat.from_axis_angle"]}
{"id": "C39", "title": "Crystal symmetry operators form a group", "statement": "The 24 cubic and the 12 hexagonal symmetry operators are unit quaternions, pairwise distinct as rotations, contain the identity and are closed under product and inverse as rotations. The cubic operators are exactly the rotations that take the cube onto itself, the hexagonal ones exactly those of the hexagonal prism.", "quantifier": "all pairs of operators, both crystal systems", "why_tests_cant": "A whole-table fact everything else rests on; tests check single entries.", "anchors": ["defdap/crystal.py:crystalStructures", "defdap/quat.py:Quat.sym_eqv"]}
{"id": "C40", "title": "Misorientation is symmetric and independent of the symmetric variant", "statement": "For unit orientations misorientation is between zero and one as a cosine, is one exactly when the orientations are symmetrically equivalent, is symmetric in its arguments, and does not change when either orientation is replaced by a symmetric equivalent. The angle it stands for is the smallest angle by which a rotation can bring the second crystal onto the first, over the rotations of the crystal into itself, and is the angle the search for grain boundaries uses.", "quantifier": "all pairs of unit quaternions, both crystal systems", "why_tests_cant": "Real-valued, infinite domain; relies on group closure.", "anchors": ["defdap/quat.py:Quat.mis_ori", "defdap/quat.py:Quat.calcMisOri"]}
{"id": "C41", "title": "Misorientation always returns a symmetric variant", "statement": "Misorientation of two unit orientations always finds a minimising symmetric variant (the cosine is at least one half, so the angle is at most 120 degrees); the variant returned attains the reported value.", "quantifier": "all pairs of unit quaternions, both crystal systems", "why_tests_cant": "If no variant had positive overlap an unbound variable would be returned.", "anchors": ["defdap/quat.py:Quat.mis_ori"]}
{"id": "C42", "title": "Symmetric equivalents of many orientations match single products", "statement": "Row s, column k of the symmetric-equivalents table is the northern-hemisphere product of symmetry operator s with orientation k.", "quantifier": "all lists of northern quaternions, both crystal systems", "why_tests_cant": "Written out component formulae.", "anchors": ["defdap/quat.py:Quat.calc_sym_eqvs"]}
{"id": "C43", "title": "Average orientation", "statement": "The average of a list of orientations is unit, lies close to them, and the average of copies of one orientation is that orientation. If they are within 30 degrees of each other and on the same side of the hemisphere border, it is at least as close to each of them as they are to each other. 'Lies close' is false otherwise: two orientations a tiny angle apart, on either side of the hemisphere border, average to a far away orientation.", "quantifier": "all lists of unit quaternions", "why_tests_cant": "The failure needs orientations near a 180 degree rotation.", "anchors": ["defdap/quat.py:Quat.calc_average_ori", "defdap/ebsd.py:Grain.calc_average_ori"]}
{"id": "C44", "title": "Grain misorientation list matches pairwise misorientation", "statement": "The misorientation of each grain point to the reference equals the pairwise misorientation of the two orientations, is at most one, and is one for points symmetrically equivalent to the reference.", "quantifier": "all point lists, all reference orientations, both crystal systems", "why_tests_cant": "Vectorised formula against single pair definition.", "anchors": ["defdap/quat.py:Quat.calcMisOri", "defdap/ebsd.py:Grain.build_mis_ori_list"]}
{"id": "C45", "title": "Inverse pole figure direction lies in the standard triangle", "statement": "The fundamental direction of every orientation and sample direction is a symmetric equivalent of that direction and lies in the standard triangle of the crystal system. For cubic crystals this is false when the sample direction is exactly a cube axis of the crystal: the result is at 90 degrees from the pole. For hexagonal crystals the azimuths may exceed the triangle by 1e-8 when some orientation of the list has its axis exactly along the sample direction; for that orientation the result is the axis. An unknown triangle raises UnboundLocalError.", "quantifier": "all unit orientations, all sample directions, both crystal systems", "why_tests_cant": "Special directions have measure zero; the search over variants must succeed for all.", "anchors": ["defdap/quat.py:Quat.calc_fund_dirs", "defdap/quat.py:Quat.calc_ipf_colours"]}
{"id": "C46", "title": "Stereographic and Lambert projections", "statement": "Directions in the upper hemisphere are projected into the unit disc (stereographic) or the disc of radius sqrt 2 (Lambert), injectively, and the Lambert projection has radius squared 2(1-cos alpha).", "quantifier": "all unit directions in the upper hemisphere", "why_tests_cant": "Real-valued, infinite domain.", "anchors": ["defdap/plotting.py:PolePlot.stereo_project", "defdap/plotting.py:PolePlot.lambert_project", "defdap/quat.py:Quat.polar_angles"]}
{"id": "C47", "title": "Lattice matrix has the unit cell's lengths and angles", "statement": "The columns of the orthogonalisation matrix have the lengths a, b, c and the mutual angles of the unit cell. With the hkl convention this is false in general (a and b exchanged); it holds for the hexagonal cell the library uses.", "quantifier": "all unit cells", "why_tests_cant": "Real-valued, two conventions.", "anchors": ["defdap/crystal_utils.py:create_l_matrix"]}
{"id": "C48", "title": "Reciprocal matrix is the inverse transpose of the lattice matrix", "statement": "The columns of the reciprocal matrix are dual to those of a right-handed lattice matrix: plane normals are perpendicular to the directions lying in the plane, for all indices.", "quantifier": "all right-handed lattice matrices, all indices", "why_tests_cant": "Real-valued; sign lost through the absolute volume.", "anchors": ["defdap/crystal_utils.py:create_q_matrix"]}
{"id": "C49", "title": "Miller and Miller-Bravais conversion round trips", "statement": "Converting planes or directions between three and four indices and back gives the original indices; a plane contains a direction in three indices exactly when it does in four. Index values beyond the 8-bit range are corrupted by the integer cast.", "quantifier": "all indices", "why_tests_cant": "All integers, fractional intermediate values.", "anchors": ["defdap/crystal_utils.py:convert_idc", "defdap/crystal_utils.py:safe_int_cast"]}
{"id": "C50", "title": "Canonical positive indices", "statement": "Making the first non-zero index positive is idempotent, maps an index set and its negative to the same result and never changes the line it denotes.", "quantifier": "all non-zero index lists", "why_tests_cant": "All lists.", "anchors": ["defdap/crystal_utils.py:pos_idc"]}
{"id": "C51", "title": "Reduced indices", "statement": "Reduced indices are coprime, parallel to the original and in the same sense, reducing twice changes nothing, and parallel equal-sense index sets reduce to the same result.", "quantifier": "all non-zero index lists within the 8-bit range", "why_tests_cant": "All lists.", "anchors": ["defdap/crystal_utils.py:reduce_idc"]}
{"id": "C52", "title": "Integer cast accepts exactly near-integer values", "statement": "Casting to integers succeeds exactly when every value is within tolerance of an integer, and then returns the nearest integers when they fit in 8 bits.", "quantifier": "all lists of values and all tolerances below one half", "why_tests_cant": "Real-valued.", "anchors": ["defdap/crystal_utils.py:safe_int_cast"]}
{"id": "C53", "title": "Index labels are unambiguous for single digit indices", "statement": "Two different index sets of the same length with digits between -9 and 9 never have the same label. A label is the indices one after the other, negative ones with a bar over them, between the brackets. With two-digit indices they can.", "quantifier": "all index lists", "why_tests_cant": "All lists.", "anchors": ["defdap/crystal_utils.py:idc_to_string", "defdap/crystal_utils.py:str_idx"]}
{"id": "C54", "title": "Slip system equality and hash are consistent", "statement": "Slip system equality is an equivalence relation that ignores the sign of plane normal and direction, and equal slip systems have equal hashes.", "quantifier": "all slip systems", "why_tests_cant": "All pairs and triples.", "anchors": ["defdap/crystal.py:SlipSystem.__eq__", "defdap/crystal.py:SlipSystem.__hash__"]}
{"id": "C55", "title": "Grouping slip systems is a partition", "statement": "Grouping by plane puts every slip system in exactly one group, in the original order, two systems in the same group exactly when their planes agree up to sign.", "quantifier": "all lists of slip systems", "why_tests_cant": "All lists, repeated and non-adjacent planes.", "anchors": ["defdap/crystal.py:SlipSystem.group"]}
{"id": "C56", "title": "Slip system data files are crystallographically consistent", "statement": "In each shipped slip system file every slip direction lies in its slip plane and no system is listed twice. This is false for cubic_bcc.txt.", "quantifier": "every row of every shipped file", "why_tests_cant": "A whole-table fact; tests load one file.", "anchors": ["defdap/slip_systems/cubic_bcc.txt", "defdap/slip_systems/cubic_fcc.txt", "defdap/slip_systems/hexagonal_noca.txt", "defdap/slip_systems/hexagonal_withca.txt", "defdap/crystal.py:SlipSystem.load"]}
{"id": "C57", "title": "Slip system families are closed under symmetry", "statement": "The family generated from a cubic slip system contains it, contains every symmetric variant up to sign exactly once, and is the same set whichever member it is generated from.", "quantifier": "all integer cubic slip systems", "why_tests_cant": "All integer indices.", "anchors": ["defdap/crystal.py:SlipSystem.generate_family"]}
{"id": "C58", "title": "Schmid factors lie between 0 and 1/2", "statement": "For a unit load direction and a slip direction lying in the slip plane the Schmid factor is between 0 and 0.5, it does not depend on the signs of plane normal and slip direction, and is unchanged if crystal and load are rotated together. For slip systems whose direction is not in the plane it can exceed 0.5.", "quantifier": "all unit orientations, load directions and slip systems", "why_tests_cant": "Real-valued.", "anchors": ["defdap/ebsd.py:Grain.calc_average_schmid_factors", "defdap/quat.py:Quat.transform_vector"]}
{"id": "C59", "title": "Slip trace angles", "statement": "The slip trace direction lies in the slip plane and in the sample surface, its angle is well defined modulo 180 degrees, and the inclination is between 0 and 90 degrees.", "quantifier": "all unit orientations and slip systems whose plane is not parallel to the surface", "why_tests_cant": "Real-valued; degenerate plane.", "anchors": ["defdap/ebsd.py:Grain.calc_slip_traces"]}
{"id": "C60", "title": "Deformation gradient of affine, quadratic and smooth displacement fields", "statement": "For a displacement field that is affine in position the deformation gradient is identity plus the displacement gradient at every pixel including map edges, with components in x,y order. For a quadratic field it is exact away from the ends of the rows (x derivatives) and columns (y derivatives), and at the ends off by at most one step times the quadratic coefficient. For any differentiable field every component is one of identity plus the true derivative at a point less than one step away along the axis.", "quantifier": "all affine, quadratic and differentiable displacement fields, all map sizes at least 2x2, all binnings", "why_tests_cant": "Edge formulae differ from interior ones; axis order errors cancel on symmetric examples.", "anchors": ["defdap/hrdic.py:Map.__init__"]}
{"id": "C61", "title": "Green strain and maximum shear", "statement": "Green strain is symmetric, vanishes exactly for rigid motions, and the maximum shear is non-negative, invariant under in-plane rotation of the axes and is the largest shear over all in-plane directions.", "quantifier": "all deformation gradients", "why_tests_cant": "Real-valued.", "anchors": ["defdap/hrdic.py:Map.__init__"]}
{"id": "C62", "title": "Nye tensor uses both orientation gradients", "statement": "The Nye tensor and GND density depend on the orientation gradients in x and in y. This is false: the x gradient is overwritten by the y gradient, so a crystal bent along x only has zero GND density.", "quantifier": "all orientation maps", "why_tests_cant": "Relates all maps; a smoke test only sees some number.", "anchors": ["defdap/ebsd.py:Map.calc_nye"]}
{"id": "C63", "title": "Kernel average misorientation", "statement": "Kernel average misorientation lies between 0 and 180 degrees, is zero for a map of one orientation, and does not change if all orientations are multiplied by one common rotation.", "quantifier": "all orientation maps at least 2x2", "why_tests_cant": "Real-valued; edge handling.", "anchors": ["defdap/ebsd.py:Map.calc_kam"]}
{"id": "C64", "title": "Rotating a map by 180 degrees", "statement": "Rotating the data puts the orientation of pixel (i,j) at the opposite pixel, combined with the frame rotation, and rotating twice restores all data. Both are false in general: orientations read before rotating stay at their pixels, after two rotations of a map whose orientations were never read each pixel has the orientation of the opposite pixel, and a map without band slope is left half rotated by an error.", "quantifier": "all maps and all access histories", "why_tests_cant": "Depends on the history of lazily generated data.", "anchors": ["defdap/ebsd.py:Map.rotate_data"]}
{"id": "C65", "title": "CTF header and data round trip", "statement": "Saving an EBSD map as CTF and loading it again restores shape, phases' names and lattice parameters, phase map and band contrast, and the number of header lines skipped is exactly the header. Space groups are lost: they are always written as 0.", "quantifier": "all maps and phase lists", "why_tests_cant": "All phase counts and names.", "anchors": ["defdap/file_writers.py:OxfordTextWriter", "defdap/file_readers.py:OxfordTextLoader"]}
{"id": "C66", "title": "CRC record layout follows the CPR field list", "statement": "Reading a CRC file assigns each listed field its own bytes for every pixel. This is false as soon as an unknown field id is followed by another field: the remaining fields are dropped from the record.", "quantifier": "all field lists and all data", "why_tests_cant": "Depends on which fields a microscope wrote.", "anchors": ["defdap/file_readers.py:OxfordBinaryLoader"]}
{"id": "C67", "title": "CPR parsing round trip", "statement": "Parsing a CPR text returns exactly the groups and key-value pairs written in it, with comments and blank lines ignored. A repeated key has the value of its last line, a repeated group the entries under its last heading.", "quantifier": "all CPR texts", "why_tests_cant": "All texts.", "anchors": ["defdap/file_readers.py:OxfordBinaryLoader.load_oxford_cpr", "defdap/file_readers.py:read_until_string"]}
{"id": "C68", "title": "Reading until a terminator loses nothing", "statement": "Reading up to a terminator returns exactly the non-blank, non-comment lines before it and leaves the file positioned at the terminator line, so consecutive reads cover the file without loss or overlap.", "quantifier": "all texts, terminators, comment characters", "why_tests_cant": "All texts.", "anchors": ["defdap/file_readers.py:read_until_string"]}
{"id": "C69", "title": "EDAX angles and phases", "statement": "The phases, their lattice parameters, the step size and the shape of a loaded EDAX file are the ones its header states; a grid that is not square, a phase out of order or an unknown point group is refused. Loaded EDAX angles are shifted by -90 degrees and stay in [0, 2pi); phase numbers are shifted by one so that none is taken for non-indexed. The last is false for phase number 255, which wraps to 0; and with a numpy that requires as many columns as fields (1.23 on) no file can be loaded, since eight columns are asked for seven fields.", "quantifier": "all angle and phase values", "why_tests_cant": "Wrap-around at the range ends.", "anchors": ["defdap/file_readers.py:EdaxAngLoader"]}
{"id": "C70", "title": "DIC data consistency check accepts regular grids", "statement": "Data on a regular grid with equal spacing and at least two rows and columns passes the consistency check with its binning and shape and with no others; accepted data has coordinates whose steps and extents match binning and shape. The shape of the arrays themselves is not checked, and grids of one row or column are refused.", "quantifier": "all grids", "why_tests_cant": "All sizes and spacings.", "anchors": ["defdap/file_readers.py:DICDataLoader.check_data", "defdap/hrdic.py:Map.load_data"]}
{"id": "C71", "title": "OpenPIV data is reversed on loading whatever its order", "statement": "OpenPIV data listed from the largest y to the smallest is loaded with y increasing from row to row and displacements kept at their coordinates. Data listed the other way should then be left alone; this is false, it is reversed too and y decreases.", "quantifier": "all OpenPIV grids", "why_tests_cant": "Depends on the order in the file.", "anchors": ["defdap/file_readers.py:OpenPivTextLoader", "defdap/file_readers.py:OpenPivBinaryLoader"]}
{"id": "C72", "title": "PyVale data is placed at its coordinates", "statement": "Every data row is placed at the grid node of its coordinates (the last one if several have the same) and all other nodes are zero, provided coordinates differ by multiples of the binning; otherwise, which the loader does not always notice, a row is put at the node before it.", "quantifier": "all scattered data on a regular grid", "why_tests_cant": "All sparse subsets and orders.", "anchors": ["defdap/file_readers.py:PyValeLoader"]}
{"id": "C73", "title": "Slip line angle does not depend on drawing direction", "statement": "The angle stored for a drawn line is in [0, 180] less the angle correction, is that of the line to the y axis, and is the same whichever end it is drawn from. This is false for vertical lines, stored as 0 or 180 depending on the direction.", "quantifier": "all pairs of distinct points", "why_tests_cant": "Real-valued; degenerate direction.", "anchors": ["defdap/inspector.py:GrainInspector.save_line"]}
{"id": "C74", "title": "Line grouping assigns each line to an existing group with the group's mean angle", "statement": "After grouping every line belongs to exactly one listed group, group ids are 0..n-1, each group is non-empty and has the rounded mean angle of its lines. The mean is false after regrouping, where stale ids are averaged in. A group lists exactly the slip planes whose trace angle is within five degrees of its own, compared as numbers, so that 179 and 1 are far apart; grouping discards every stored RDR.", "quantifier": "all sequences of adding and removing lines", "why_tests_cant": "Depends on the whole editing history.", "anchors": ["defdap/inspector.py:GrainInspector.group_lines"]}
{"id": "C75", "title": "Inspector file round trip", "statement": "Saving all lines to a file and loading it into a fresh map restores lines and groups of every grain that has lines; loading into a map that already holds lines duplicates them. From numpy 2 on this is false: as soon as two lines of a grain are in one group the saved file cannot be loaded (ValueError).", "quantifier": "all sets of grains with lines", "why_tests_cant": "All contents.", "anchors": ["defdap/inspector.py:GrainInspector.save_file", "defdap/inspector.py:GrainInspector.load_file"]}
{"id": "C76", "title": "Grain links are duplicate-free tuples", "statement": "After any sequence of linking, unlinking and selecting grains the links are pairwise different and each has one entry per map, naming a grain of that map until grains are found again, after which it may name one that does not exist. The tool's own click handler always raises, so it can never make a link by itself. Setting reference orientations from the first map leaves it unchanged and gives each linked grain of the other maps the orientation of the first map's grain in the last link naming it.", "quantifier": "all histories", "why_tests_cant": "All histories.", "anchors": ["defdap/ebsd.py:Linker"]}
{"id": "C77", "title": "Progress reporting is transparent", "statement": "A function run with progress reporting gives exactly the value, exception and final state it would have given and performs all its steps, whatever numbers and texts it reports (anything else ends it with a TypeError). Percentages are shown in increasing order, fewer than 100 of them.", "quantifier": "all step sequences", "why_tests_cant": "All sequences.", "anchors": ["defdap/utils.py:report_progress"]}
{"id": "C78", "title": "DIC grains are linked to the most common overlapping EBSD grain", "statement": "After grain finding by flood fill on a linked DIC map, every DIC grain is linked to the EBSD grain that covers most of its pixels. This is false when most of its pixels carry no EBSD grain: the most common label 0 or -2 is then used as an index from the end of the EBSD grain list.", "quantifier": "all label images and grain shapes", "why_tests_cant": "All overlaps between the two label images, including non-grain labels.", "anchors": ["defdap/hrdic.py:Map.find_grains"]}
{"id": "C79", "title": "Neighbour highlighting shows exactly first and second neighbours", "statement": "Selecting a grain highlights that grain, then exactly the grains linked to it, then exactly the further grains linked to one of those, each grain once.", "quantifier": "all label images, boundary sets and selected grains", "why_tests_cant": "All neighbour networks.", "anchors": ["defdap/base.py:Map.click_grain_neighbours"]}
{"id": "C80", "title": "Grain image of a vector or tensor map shows the map's values", "statement": "The image of a single grain taken from map data shows, at each pixel of the grain, the map's value there. This is false for maps with components (displacement, strain): the grain's points are paired with the component rows, so all but the first few points stay at the background.", "quantifier": "all grains and all maps with a leading component axis", "why_tests_cant": "Depends on the number of points relative to the number of components.", "anchors": ["defdap/base.py:Grain.grain_map_data", "defdap/base.py:Grain.grain_data"]}
{"id": "C81", "title": "Every documented transform type links the maps", "statement": "After linking a DIC map to an EBSD map with any of the documented transform types, the frame transform is available in both directions. This is false for 'piecewiseAffine': the name is lowered and then not recognised, so every later use raises KeyError.", "quantifier": "every pair of maps, link history, transform type and keyword arguments", "why_tests_cant": "The link is accepted without complaint; only later uses fail, for every map.", "anchors": ["defdap/hrdic.py:Map.link_ebsd_map", "defdap/experiment.py:Experiment.get_frame_transform"]}
{"id": "C82", "title": "Masks hide exactly the chosen pixels", "statement": "Setting a mask of the map's current shape stores it (dilated on request) and reading map data afterwards hides exactly the masked pixels of the cropped data; a mask of another shape is refused without any change, and setting no mask shows everything again.", "quantifier": "every map, crop, mask and dilation", "why_tests_cant": "All shapes and pixel positions, through the generator and the store.", "anchors": ["defdap/hrdic.py:Map.calc_mask", "defdap/hrdic.py:Map.mask", "defdap/utils.py:Datastore.__getitem__"]}
{"id": "C83", "title": "Warped boundary lines stay on pixel corners next to their exact image", "statement": "Warping boundary lines between frames keeps the number and order of lines and puts every end on a half-integer position at most half a pixel, in each direction, from its exact transform.", "quantifier": "every list of lines and every frame transform", "why_tests_cant": "All real coordinates; ties in rounding.", "anchors": ["defdap/experiment.py:Experiment.warp_lines"]}
{"id": "C84", "title": "Every slip plane of a shipped file has a trace colour", "statement": "In a shipped slip system file the number of trace colours equals the number of plane groups, so that listing planes with their colours shows all planes. True for the face-centred cubic and hexagonal files, false for both body-centred cubic files (30 planes with 12 colours, 6 planes with 4).", "quantifier": "every shipped file", "why_tests_cant": "A whole-table fact about the grouping of the loaded systems.", "anchors": ["defdap/crystal.py:Phase.print_slip_systems", "defdap/crystal.py:SlipSystem.load", "defdap/ebsd.py:Grain.print_slip_traces"]}
{"id": "C85", "title": "Phases get their crystal structure and slip systems from the group numbers", "statement": "Laue group 9 gives a hexagonal phase with the slip systems of the hexagonal file at the c/a ratio of the lattice parameters, Laue group 11 a cubic phase with the face- or body-centred file for space groups 225 and 229 and no slip systems otherwise, and any other Laue group is refused. A slip system file with one row only cannot be loaded.", "quantifier": "all Laue and space group numbers, all lattice parameters with c/a at least 1e-10", "why_tests_cant": "All integers, all c/a ratios.", "anchors": ["defdap/crystal.py:Phase.__init__", "defdap/crystal.py:SlipSystem.load"]}
{"id": "C86", "title": "Relative displacement ratios do not depend on signs", "statement": "The displacement ratio of a slip system is minus the quotient of the x and y components of its slip direction in the sample frame, and slip systems that compare equal have equal ratios.", "quantifier": "all orientations and slip systems", "why_tests_cant": "Real-valued.", "anchors": ["defdap/ebsd.py:Grain.calc_rdr"]}
{"id": "C87", "title": "The Schmid factor map shows the largest chosen factor", "statement": "The value shown for a grain is the largest Schmid factor among the chosen planes and directions. False when directions are chosen without planes: they are ignored.", "quantifier": "all tables of factors and selections of planes and directions", "why_tests_cant": "All tables, all selections including negative indices.", "anchors": ["defdap/ebsd.py:Map.plot_average_grain_schmid_factors_map"]}
{"id": "C88", "title": "Grain reference orientation deviation is a rotation to the reference", "statement": "For each point of a grain the deviation angle is the misorientation to the reference orientation (an existing one is kept, otherwise the average), between 0 and 120 degrees, its axis vector has this length, and rotating the reference by it gives a symmetric equivalent of the orientation of the point; the misorientation list of the grain agrees with it.", "quantifier": "all grains with unit orientations, all unit references, both crystal systems", "why_tests_cant": "Real-valued, choice among 12 or 24 variants for every point.", "anchors": ["defdap/ebsd.py:Grain.calc_grod", "defdap/ebsd.py:Grain.build_mis_ori_list", "defdap/ebsd.py:Grain.calc_average_ori"]}
{"id": "C89", "title": "Families of hexagonal slip systems", "statement": "The family generated from a hexagonal slip system contains every symmetric variant exactly once up to sign and nothing else, and is the same set whichever member it is generated from. It contains the slip system itself when its indices are in lowest terms; otherwise it is the family of the reduced indices and does not contain it.", "quantifier": "all hexagonal slip systems with four indices, all c/a ratios and axis conventions", "why_tests_cant": "All integer indices.", "anchors": ["defdap/crystal.py:SlipSystem.generate_family"]}
{"id": "C90", "title": "Grouping slip systems by family is a partition", "statement": "Grouping by family puts every slip system in exactly one group, in the original order, two systems in the same group exactly when one is a symmetric variant of the other up to sign.", "quantifier": "all lists of cubic or hexagonal slip systems", "why_tests_cant": "All lists.", "anchors": ["defdap/crystal.py:SlipSystem.group"]}
{"id": "C91", "title": "Inverse pole figure colours", "statement": "The inverse pole figure colour of an orientation has components between 0 and 1 with the largest equal to 1; a component is 0 exactly when the direction lies on the side of the standard triangle opposite to that corner, the corners of the triangle are pure red, green and blue, and symmetrically equivalent orientations have the same colour. False in one case: with a cube axis exactly along the sample direction the colour is orange (1, 2/3, 0) instead of red.", "quantifier": "all lists of unit orientations, all nonzero sample directions, cubic and hexagonal symmetry", "why_tests_cant": "Real-valued, choice among symmetric variants for every orientation.", "anchors": ["defdap/quat.py:Quat.calc_ipf_colours", "defdap/quat.py:Quat.calc_fund_dirs"]}
{"id": "C92", "title": "Colour maps colour each phase by its own symmetry", "statement": "In an Euler map each pixel of a plotted phase has its angles divided by the ranges of its own phase, in an inverse pole figure map the colour for the crystal structure of its own phase, and every other pixel, including points that are not indexed, the background colour, black by default. A phase id that does not exist is an index error. False in two cases: a background of integers cuts off the decimals of all colours, and a phase id counted from the end colours other points.", "quantifier": "all maps with any number of phases, all choices of phases, all background colours", "why_tests_cant": "All maps and choices of phases.", "anchors": ["defdap/ebsd.py:Map.calc_euler_colour", "defdap/ebsd.py:Map.calc_ipf_colour"]}
{"id": "C93", "title": "Components of stored data are shown as chosen", "statement": "Plotting a component of a map or of a grain shows that component at every pixel: an integer is the tuple of it, no component is the default of the item or the data itself, 'norm' is the root of the sum of squares, negative components count from the end, names choose Euler or inverse pole figure colours, everything else is refused; the label names the component and parameters of the caller win; a grain shows what its map shows at its points. False in three cases: a grain cannot be coloured by name, not even by the default of EBSD orientations; the label of a negative component has a wrong number; and DIC coordinates and displacements, whose default component is 'magnitude', cannot be plotted without naming a component.", "quantifier": "all stored data of any number of components, all choices of component, all parameters", "why_tests_cant": "All shapes, indices and names.", "anchors": ["defdap/base.py:Map.plot_map", "defdap/base.py:Map._extract_component", "defdap/base.py:Grain.plot_map", "defdap/base.py:Grain._extract_component"]}
{"id": "C94", "title": "Choosing homologous points with the mouse", "statement": "In every session of the homologous point tool the selected point is the last one clicked since the last save moved by the arrow keys since, saving adds it to the end of the points of the frame, rounded to a pixel of the unbinned image, and no event changes or removes a saved point. Clicking on a map selects the grain of the pixel taken. False in two cases: with points set as an array saving fails and loses the selection, and a click in the left (upper) half of a pixel takes the one before.", "quantifier": "all sequences of clicks, key presses and saves", "why_tests_cant": "All event histories, all positions.", "anchors": ["defdap/experiment.py:Frame.set_homog_point", "defdap/experiment.py:Frame.homog_click", "defdap/experiment.py:Frame.homog_key", "defdap/experiment.py:Frame.homog_click_save", "defdap/base.py:Map.click_grain_id"]}
{"id": "C95", "title": "Highlighted grains are coloured as listed", "statement": "Highlighting a list of grains covers each listed grain with its colour, those beyond the list of colours with the last one, and leaves all other pixels. The neighbour tool highlights the grain clicked in white, its neighbours in yellow and theirs in green, each once. False in four cases: with fewer grains than colours the last grain gets the last colour; a grain that is the whole map is not shown; the list of colours of the caller is changed, so that a second call colours differently; without second neighbours the last neighbour is green.", "quantifier": "all maps, all lists of different grains, all lists of colours", "why_tests_cant": "All maps and lists.", "anchors": ["defdap/plotting.py:MapPlot.add_grain_highlights", "defdap/base.py:Map.click_grain_neighbours"]}
{"id": "C96", "title": "Lines drawn with the mouse and profiles along them", "statement": "In every session each release of the mouse on the plot that has a press before it draws one arrow, from the last press on the plot to the release, and calls the action with it once. The profile along a line has a value at its start and its end, neighbouring samples at most one pixel apart, each plotted at its distance from the start; samples at pixel centres have the value of the pixel and all values lie between the least and the greatest of the map. False for a drag that starts outside of the plot: it draws a line from the start of the line before.", "quantifier": "all sequences of presses and releases, all lines and maps", "why_tests_cant": "All event histories; real-valued positions.", "anchors": ["defdap/plotting.py:Plot.line_slice", "defdap/plotting.py:Plot.add_arrow", "defdap/base.py:Map.calc_line_profile"]}
{"id": "C97", "title": "Filtering orientations keeps edges", "statement": "The orientation filter gives each pixel, other than the two rows and columns at each side of the map, which stay as they are, the mean direction of the orientations within the tolerance in one of the four blocks of three by three pixels around it, the one where they are most similar; it moves no orientation by the tolerance or more when the orientations averaged have the same sign as quaternions, and it changes nothing when orientations are either the same or at least the tolerance apart. A map with fewer than five rows or columns ends in an error, unchanged. False in two cases: with tolerance 0 all orientations but those at the sides are lost, and since quaternions of opposite sign are added as they are, for every tolerance up to 90 degrees there is a map with all orientations within the tolerance of each other where the filter moves one by more than that.", "quantifier": "all orientation maps of unit quaternions, all tolerances", "why_tests_cant": "Real-valued, all maps and sizes.", "anchors": ["defdap/ebsd.py:Map.filter_data"]}
{"id": "C98", "title": "The measured displacement ratio is that of the slip system", "statement": "Measuring the relative displacement ratio of a group of slip lines takes the displacements in an odd number of pixels across each pixel of its lines, at most 22.5 degrees from perpendicular. If u is a constant times v, up to a constant for each row of pixels, the measured ratio is exactly that factor, so for slip on a single slip system it is the ratio calculated for that slip system; moving the map does not change it. It is saved for that group and nothing else changes; without lines, without such a group and without lines in the group there is an error. False in three cases: next to the left or upper side of the map pixels of the opposite side are used, next to the right or lower side there is an error, and for negative line angles, which a correction angle gives, the pixels taken are not across the line.", "quantifier": "all displacement maps, all groups of lines with angles from 0 to 180 degrees", "why_tests_cant": "Real-valued, all lines and maps.", "anchors": ["defdap/inspector.py:GrainInspector.calc_rdr", "defdap/inspector.py:GrainInspector.run_rdr_group"]}
{"id": "C99", "title": "The report lists every group with its own grain", "statement": "The report of the inspector has one row for each group of each grain that has lines, in the order of grains and groups, with the number, the largest Schmid factor and the orientation of the grain. False for the orientation: all rows have the Euler angles of the grain shown in the inspector.", "quantifier": "all maps of grains with any lines and groups", "why_tests_cant": "All lists of grains.", "anchors": ["defdap/inspector.py:GrainInspector.batch_run_sta"]}
{"id": "C100", "title": "Boundaries of the EBSD map in the DIC map", "statement": "With an affine transform between the frames, a pixel of the DIC map is a boundary point exactly when it lies on the thinned line of positions that the transform takes to a boundary of the EBSD map, up to half a pixel in each direction; no point is listed twice; for maps not rotated against each other with the DIC map inside the EBSD map, at most six times as long as wide, every pixel of the DIC map is covered; without boundaries in the EBSD map there are none. False in three cases: a DIC map that begins left of the EBSD map by more than 5 % of the number of rows gets no boundary points, and its boundary image is a boundary everywhere; in a map ten times as high as wide the last tenth of the columns gets none; a map turned by 180 degrees gets none.", "quantifier": "all EBSD boundaries, all affine transforms, all map sizes, any interpolation and thinning", "why_tests_cant": "Real-valued transforms, all sizes.", "anchors": ["defdap/experiment.py:Experiment.warp_points", "defdap/experiment.py:Experiment.warp_image", "defdap/hrdic.py:BoundarySet.from_ebsd_boundaries"]}
{"id": "C101", "title": "Maps are found in their experiment", "statement": "Creating maps, in any number and order: a map created without an increment is the only map of a new increment at the end of its experiment, the anonymous one by default; a map created with an increment is in this increment under its name, in place of one of that name; no other map, increment or experiment changes; an increment of another experiment than the one given is refused and nothing changes. Iterating over the maps of a name gives each with the number of its increment, in order. False for maps that cannot be loaded: they stay in the experiment without data.", "quantifier": "all sequences of creations of maps, successful or not", "why_tests_cant": "All histories.", "anchors": ["defdap/base.py:Map.__init__", "defdap/experiment.py:Experiment.add_increment", "defdap/experiment.py:Experiment.iter_over_maps", "defdap/experiment.py:Increment.add_map"]}
{"id": "C102", "title": "The files of a map", "statement": "Without a data type the file named is read, as what its extension says: .ctf, .ang, and the pair of .cpr and .crc for either of them or a name without extension. A data type that is given decides whatever the name, in any case; other types are a ValueError. A map saved under a name is read again under that name with .ctf. For DIC data the part before the first hyphen chooses the loader and the part after it the file type. False in four cases: a name with a dot but without extension has the part from the last dot on replaced, so that scan.1 and scan.2 read the same files; extensions in capitals are taken for binary files; dictionaries are documented but always a TypeError; for saving, the type is refused unless written exactly OxfordText.", "quantifier": "all file names and data types", "why_tests_cant": "All strings.", "anchors": ["defdap/file_readers.py:EBSDDataLoader.get_loader", "defdap/file_readers.py:OxfordBinaryLoader.load", "defdap/file_readers.py:DICDataLoader.get_loader", "defdap/file_writers.py:EBSDDataWriter.get_writer", "defdap/ebsd.py:Map.load_data", "defdap/ebsd.py:Map.save"]}
{"id": "C103", "title": "Equivalent indices", "statement": "The equivalent indices of a direction or plane are one set for each rotation of the crystal, 24 for cubic and 12 for hexagonal crystals: the k-th is what the k-th rotation makes of the direction, or its opposite if the last index is negative. For cubic crystals these are permutations of the indices with changes of sign, and every one of them with a positive last index is there, of the others the variant or its opposite; for hexagonal crystals the same with permutations of the first three and one change of sign for all three, for every c/a ratio and both conventions for the axes. Neither or both of direction and plane, a wrong number or type of indices and a missing c/a ratio are errors. False for the length of the indices: for hexagonal crystals common factors are divided out, for cubic ones they are kept.", "quantifier": "all indices, both crystal symmetries, all c/a ratios", "why_tests_cant": "All indices and real ratios.", "anchors": ["defdap/crystal_utils.py:equavlent_indicies"]}
{"id": "C104", "title": "Pole figures are labelled and framed correctly", "statement": "In a pole plot a label with the indices of a direction is where the direction is projected, and so are the labels of its symmetric equivalents; a line has its ends at the two directions and runs along the chord between them; the equivalents of a line are lines between equivalents of its ends. The triangle of an inverse pole figure has the fundamental directions of all orientations in it, its sides join its corners and the corners have their indices. A projection is chosen by a name, without regard to spaces and capitals, or a function. False in seven cases: the first of the labels of a direction with negative last index shows the opposite indices; a line whose ends come to different sides of the equator joins an end with the opposite of the other, which is not a line equivalent to it; fundamental directions along a cube axis are outside of the cubic triangle; with the axes of 'tsl' all directions off one side are outside of the hexagonal triangle; a single marker colour is an error though documented; an invalid configured projection is an error even if a valid one is given; two colours need a marker size.", "quantifier": "all indices, crystal symmetries, orientations, projections and colours", "why_tests_cant": "Real-valued, all orientations.", "anchors": ["defdap/plotting.py:PolePlot.label_point", "defdap/plotting.py:PolePlot.add_line", "defdap/plotting.py:PolePlot.add_axis", "defdap/plotting.py:PolePlot.add_points", "defdap/plotting.py:PolePlot._validateProjection"]}
{"id": "C105", "title": "The unit cell plot shows the crystal's cell", "statement": "The corners of the cell drawn for an orientation are, in the axes of the crystal, those of a cube, or for hexagonal crystals those of a prism on the lattice vectors of the base and their opposites, with the height of the ideal c/a ratio 1.633; the faces are those of the solid and the sides drawn are its edges; symmetrically equivalent orientations give the same cell. False for hexagonal crystals if the option for the software does not match the configured convention for the axes: then no corner is at a lattice vector of the base.", "quantifier": "all orientations, both crystal symmetries and conventions", "why_tests_cant": "Real-valued, all orientations.", "anchors": ["defdap/quat.py:Quat.plot_unit_cell", "defdap/crystal.py:CrystalStructure"]}
{"id": "C106", "title": "Slip traces and slip bands drawn in grain plots", "statement": "In the plot of a grain there is one line for each slip trace, in order, at the given position and along the trace of the slip plane in the map, in the colour of the slip plane, the last colour serving for all further ones; with top_only a line starts at the position and goes into the upper half. The traces of a DIC grain are those of the EBSD grain linked with it; without one the call is an error. Slip bands found at whole degrees from 0 to 179 are drawn in one colour. Without colours drawing traces is an IndexError. False in two cases: with top_only, lines at angles between 180 and 270 degrees are drawn downwards; the angles once stored are drawn again even if the reference orientation has changed since, until they are calculated again.", "quantifier": "all angles, colours, positions, orientations and slip systems", "why_tests_cant": "Real-valued, all histories of a grain.", "anchors": ["defdap/plotting.py:GrainPlot.add_traces", "defdap/plotting.py:GrainPlot.add_slip_traces", "defdap/plotting.py:GrainPlot.add_slip_bands", "defdap/ebsd.py:Grain.slip_traces", "defdap/hrdic.py:Grain.slip_traces"]}
{"id": "C107", "title": "Layers of a map plot", "statement": "Through every history of calls, failing ones included, a map plot knows where its layers of points and of highlighted grains are: new points replace those of the layer to be updated or make a new layer, highlighting grains replaces the highlighted grains, and no call but clear removes a layer or changes its number or sort. Clearing is for interactive plots only and leaves no layers. In a new plot the map, the boundaries and the highlights are drawn in this order. False in two cases: of several colour bars clear removes only the last; the colour bar asked for with a map added to an existing plot is that of the first layer.", "quantifier": "all histories of calls on a plot", "why_tests_cant": "All histories.", "anchors": ["defdap/plotting.py:MapPlot.add_map", "defdap/plotting.py:MapPlot.add_points", "defdap/plotting.py:MapPlot.add_grain_highlights", "defdap/plotting.py:MapPlot.add_colour_bar", "defdap/plotting.py:MapPlot.clear", "defdap/plotting.py:MapPlot.create"]}
{"id": "C108", "title": "Drawn boundaries and the phase map", "statement": "A colour name or RGBA tuple colours all boundary lines, a list of values gives each line its own, and a list of another length is refused. Boundary pixels are shown in the colour asked for, white if none, and all other pixels are transparent. Only the kind 'line' draws lines. The legend of the phase map has an entry for points not indexed and one for each phase, in order, in the colour of its points, and these colours are different for fewer than 256 phases. False in two cases: with exactly four boundary lines a colour is taken for values of the lines; the boundary map is drawn with white boundaries instead of black ones.", "quantifier": "all boundaries, colours and numbers of phases", "why_tests_cant": "All images and numbers of lines.", "anchors": ["defdap/plotting.py:MapPlot.add_grain_boundaries", "defdap/ebsd.py:Map.plot_boundary_map", "defdap/ebsd.py:Map.plot_phase_map"]}
{"id": "C109", "title": "The misorientation map", "statement": "The map of misorientations shows for every point of a grain the angle, in degrees, of its misorientation to the reference orientation of its grain, and for component 1, 2 or 3 the component of the rotation vector of the misorientation; points of no grain are zero. A grain without a phase makes the map an error. False if the misorientations are already stored for all grains: these are shown as they are, even if the references have changed since.", "quantifier": "all lists of disjoint grains, orientations and components", "why_tests_cant": "All maps, real-valued.", "anchors": ["defdap/ebsd.py:Map.plot_mis_ori_map", "defdap/ebsd.py:Map.calc_grain_mis_ori", "defdap/ebsd.py:Grain.build_mis_ori_list"]}
{"id": "C110", "title": "Quaternions as values", "statement": "Two unit quaternions constructed by the library are equal exactly if they are the same rotation; equal ones have equal hashes. The product of three does not depend on the brackets as a rotation. The sum is commutative, in the northern hemisphere and the same with += for quaternions constructed by the library; these stay in the northern hemisphere through every sequence of such additions and normalisations. Normalising makes a unit quaternion with the same direction. False in four cases: the two quaternions of a half turn are not equal; products of half turns can differ with the brackets; normalise is documented to return the quaternion but returns nothing; setting the first coefficient to a negative number leaves the northern hemisphere, and then vectors are turned to the opposite of where the rotation takes them.", "quantifier": "all quaternions and all sequences of calls", "why_tests_cant": "Real-valued, all histories.", "anchors": ["defdap/quat.py:Quat.__eq__", "defdap/quat.py:Quat.__hash__", "defdap/quat.py:Quat.__add__", "defdap/quat.py:Quat.__iadd__", "defdap/quat.py:Quat.__setitem__", "defdap/quat.py:Quat.normalise"]}
{"id": "C111", "title": "Slip band detection", "statement": "The bands found in a grain do not depend on the sign or the unit of its data; points without data count as zero. They are those the peak finder gives for a profile over whole degrees from 0 to 179, with the threshold and distance asked for, 0.3 and 30 by default. Uniform data has no bands, whatever the shape of the grain. The profile is between zero and the fourth power of the greatest absolute value. False without data: if no point has data other than zero, the profile handed to the peak finder is nan in every direction.", "quantifier": "all data in all grains, all thresholds and distances, every Radon transform and peak finder with the stated laws", "why_tests_cant": "Real-valued data of every size.", "anchors": ["defdap/hrdic.py:Grain.calc_slip_bands"]}
{"id": "C112", "title": "Histograms", "statement": "The bins of a histogram go from the lower to the upper end of the range, of equal width on a linear and of equal ratio on a logarithmic axis. The value of a bin is the number of values in it, every value in the range counted once and nan never; with density the integral is 1. Types of axes are accepted in any case. Reversed ranges on a linear axis are a ValueError. False for the documentation in three cases: with n bins asked for there are n-1; without a range, the default, every histogram is a TypeError; the documented axes type None and plot type barfilled are refused.", "quantifier": "all data, ranges, numbers of bins and options", "why_tests_cant": "Real-valued data of every length.", "anchors": ["defdap/plotting.py:HistPlot.__init__", "defdap/plotting.py:HistPlot.add_hist", "defdap/plotting.py:HistPlot.create"]}
{"id": "C113", "title": "Merging data stores", "statement": "After every history of additions, changes and merges, merging another store takes over all its items in place of own ones of the same name and keeps the others; with priority for the own ones they stay. Without merges, stores never influence each other. An attribute is the data of that name, for reading and setting. False in five cases: a merge with priority for own items makes the two stores one from then on; items taken over are shared, so that setting them in one store sets them in both; data with the name of a method cannot be read as an attribute; hasattr of a missing name is a KeyError; a name supplied by two derivatives is listed and counted twice.", "quantifier": "all histories of calls on all stores", "why_tests_cant": "All histories with aliasing.", "anchors": ["defdap/utils.py:Datastore.update", "defdap/utils.py:Datastore.__getattr__", "defdap/utils.py:Datastore.__setattr__", "defdap/utils.py:Datastore.__len__", "defdap/utils.py:Datastore.__iter__"]}
{"id": "C114", "title": "Sessions with the grain inspector", "statement": "After every session of moves, clicks and edits with the grain inspector, the grain edited is the one meant by the last number asked for that means a grain, and the one of the number shown if that is in range. Only the lines of the selected grain change: saving adds the line drawn, removing takes one away, clearing takes all. Saving before a line was drawn for the grain is an AttributeError and saves nothing. False in three cases: the constructor and every event except of the mouse end with a TypeError, because the bands are computed without their data, though the change is made and the window stays; going back from the first grain edits the last one under the number -1; a number that means no grain stays on display while the grain edited is the earlier one.", "quantifier": "all sessions: all sequences of events, all numbers of grains, all texts entered", "why_tests_cant": "Sessions are unbounded sequences.", "anchors": ["defdap/inspector.py:GrainInspector.__init__", "defdap/inspector.py:GrainInspector.goto_grain", "defdap/inspector.py:GrainInspector.save_line", "defdap/inspector.py:GrainInspector.remove_line", "defdap/inspector.py:GrainInspector.clear_all_lines", "defdap/inspector.py:GrainInspector.redraw"]}
{"id": "C115", "title": "Pattern image, correlation values and scale of a DIC map", "statement": "After every history of setting patterns, crops, scales and correlation values and of changes of files, the pattern image is the current content of the file set last (its path counts from the directory of the map's file unless it is absolute), cropped to the points of the map with its own binning, if the file has that many times the rows and columns of the data; otherwise access is a ValueError, and without a pattern or file a FileNotFoundError. The scale is the last one set times the size of the sub-window, None if not set. Correlation values load exactly if the file is a Davis image of the size of the data. If loading fails because the file is missing or the data type is unknown, the map is as it was. False in two cases: correlation values of a wrong size raise an AssertionError but replace the earlier ones; correlation values are not cropped.", "quantifier": "all histories of calls and changes of files", "why_tests_cant": "All histories, all sizes of images and crops.", "anchors": ["defdap/hrdic.py:Map.set_pattern", "defdap/hrdic.py:Map.load_pattern", "defdap/hrdic.py:Map.load_corr_val_data", "defdap/hrdic.py:Map.set_scale", "defdap/hrdic.py:Map.scale"]}
{"id": "C116", "title": "Statistics table of a DIC map", "statement": "The table has one row for each tensor component of each item asked for, in the order asked for and with indices in lexicographic order, labelled with the name and the indices from 1; its columns are the percentiles asked for. Percentile p of n values is a number with more than p/100 (n-1) values at or below and at least (1-p/100) (n-1) at or above it; 0 is the least and 100 the greatest value; it grows with p and depends neither on the order of the points nor on points without data. Names not in the map are an exception and nothing is printed; percentiles outside 0 to 100 are a ValueError. False without data: for an item without data, as the mask of a map without one, the call ends with an AttributeError after the rows before it.", "quantifier": "all data of all dimensions, all percentiles and lists of items", "why_tests_cant": "Real-valued data of every size.", "anchors": ["defdap/hrdic.py:Map.print_stats_table"]}
{"id": "C117", "title": "Loading data into maps", "statement": "A dictionary of EBSD data is accepted exactly if it has the five keys, the phases are a list of phases and the Euler angles have shape 3 by that of the phases of the points; otherwise it is a KeyError or an AssertionError. After every history of loading and generating, the dimensions, the step size and the phases of an EBSD map are those of the last successful loading, and an item is what was last loaded or stored under its name; a failed loading changes nothing. The primary phase is the one chosen, an IndexError if there is none; the number of phases is None without phases. The same holds for the dimensions and data of DIC maps. False in three cases: items the second loading does not provide, as orientations and grains generated before, stay with their old values and sizes; the size of the band contrast in a dictionary is not checked; loading into a cropped DIC map keeps the crop but sets the dimensions to those of the whole data.", "quantifier": "all dictionaries, all histories of loading and generating", "why_tests_cant": "All histories, arrays of all shapes.", "anchors": ["defdap/file_readers.py:PythonDictLoader.load", "defdap/file_readers.py:EBSDDataLoader.check_data", "defdap/file_readers.py:EBSDDataLoader.check_metadata", "defdap/ebsd.py:Map.load_data", "defdap/ebsd.py:Map.primary_phase", "defdap/ebsd.py:Map.num_phases", "defdap/hrdic.py:Map.load_data"]}
{"id": "C118", "title": "The window of a measured relative displacement ratio", "statement": "When a ratio has been measured, the regression line in its window goes through the origin with the slope saved, from the least to the greatest centred value of v. With Schmid factors there is one text for each slip plane in order, with the plane, its trace angle and the direction, Schmid factor and theoretical ratio of each of its systems, bold exactly for the planes of the group, and texts do not overlap. On the number line every slip system with a ratio less than 1.5 from the measured one is in exactly one label at its ratio, and labels have no other systems. False in two cases: the number n shown is that of pixels along the lines, not of values in the regression; without Schmid factors the window is an exception after the ratio was saved.", "quantifier": "all slip systems, groups, displacements and slopes", "why_tests_cant": "All lists of slip systems and all real values.", "anchors": ["defdap/inspector.py:GrainInspector.calc_rdr", "defdap/inspector.py:GrainInspector.plot_rdr"]}
{"id": "C119", "title": "Maps and inverse pole figures of grain values", "statement": "With map data the map of grain values shows at every point of a listed grain (all by default) the mean of the data over its grain, and the background elsewhere; the inverse pole figure has one point per listed grain in order, at the direction of its orientation with its mean. Given grain values are used as they are whatever the map data, and must be as many as the grains for a pole figure; with neither the call is a ValueError. False in two cases: one grain given by its number, as documented, is a TypeError; a pole figure with a listed grain without orientation is an AttributeError.", "quantifier": "all sets of grains, maps, values, orientations and directions", "why_tests_cant": "All maps and all lists of grains.", "anchors": ["defdap/base.py:Map.plot_grain_data_map", "defdap/base.py:Map.plot_grain_data_ipf", "defdap/base.py:Map.calc_grain_average", "defdap/quat.py:Quat.plot_ipf"]}
{"id": "C120", "title": "Sessions of clicking on maps with pop-out windows", "statement": "In every session, clicking on a grain in a window of locate_grain selects that grain and highlights it there; a click outside of the axes, on a point of no grain or in another window changes nothing. With display_grain the pop-out window then is on the screen and shows the grain clicked, a window being opened only if there was none, and keeps showing it whatever else is done until it is closed; the same holds for the window of line profiles. False in three cases: if a window was opened while the pop-out was closed its number is taken, and from then on grains clicked are shown nowhere; with grains whose drawing fails after its window is opened, as for a DIC map without linked EBSD map, every click opens another window; with a grain that cannot be drawn at all the grain is selected and the pop-out left empty.", "quantifier": "all histories of opening, clicking, drawing lines and closing windows", "why_tests_cant": "All histories of user actions.", "anchors": ["defdap/base.py:Map.locate_grain", "defdap/base.py:Map.click_grain_id", "defdap/base.py:Map.draw_line_profile", "defdap/base.py:Map.calc_line_profile", "defdap/plotting.py:Plot.exists", "defdap/plotting.py:Plot.clear"]}
{"id": "C121", "title": "The network of neighbours of DIC maps", "statement": "With boundaries given, the nodes of the network of a map are its grains, and two different grains are joined exactly if there is a boundary point, not at the edge of the map, with points of both next to it. False in two cases: points outside of the EBSD map count as the last grain, so that grains at the end of the EBSD map are joined to it, and it to itself; and as the package is nothing sets the boundaries that are read, and the call is an AttributeError for every DIC map.", "quantifier": "all labelled maps and boundaries of all sizes", "why_tests_cant": "Maps of all sizes.", "anchors": ["defdap/base.py:Map.build_neighbour_network"]}
{"id": "C122", "title": "Schmid factors and displacement ratios of all grains over histories", "statement": "After every history of calls, the Schmid factors of each grain are those of the last call for all grains if that raised nothing: for its orientation at that time (the mean of its points if it had none), the load, and the slip systems given or those of its phase. If all grains have orientations, calculating the displacement ratios gives each grain those for its orientation. The map of Schmid factors shows at every point of a grain the largest of its factors and 0.5 elsewhere; without grains it is an IndexError, without factors an exception. False in two cases: setting or calculating the orientation again keeps the factors, which then are not those of the orientation; the displacement ratios are an AttributeError at the first grain without orientation, with the grains before it done and those after it not.", "quantifier": "all maps, loads, slip systems and histories of calls", "why_tests_cant": "All histories and all real values.", "anchors": ["defdap/ebsd.py:Map.calc_average_grain_schmid_factors", "defdap/ebsd.py:Map.calc_rdr", "defdap/ebsd.py:Map.calc_grain_av_oris", "defdap/ebsd.py:Map.plot_average_grain_schmid_factors_map", "defdap/ebsd.py:Grain.calc_average_schmid_factors", "defdap/ebsd.py:Grain.calc_rdr"]}
{"id": "C123", "title": "Texts about slip systems", "statement": "The text of a slip system is its plane in round brackets and its direction in square brackets, labelled as in C53. Slip systems with indices between -9 and 9 have the same text only if they have the same plane and direction. The listing of a phase has for each plane, up to the number of colours, a line with number, label and colour and then a line with number and label for each of its directions, and nothing else; the numbers are those by which planes and directions are chosen elsewhere. The listing of a grain has one entry for each plane in order, with label, colour, the angle of its trace for the orientation, and label and Schmid factor of each of its systems; without factors it is an exception. False in two cases: different slip systems with larger indices can have the same text; Schmid factors calculated for slip systems of the user are listed with the labels of those of the phase.", "quantifier": "all slip systems, colours, orientations and factors", "why_tests_cant": "All lists of slip systems.", "anchors": ["defdap/crystal.py:SlipSystem.__str__", "defdap/crystal.py:SlipSystem.slip_plane_label", "defdap/crystal.py:SlipSystem.slip_dir_label", "defdap/crystal.py:Phase.print_slip_systems", "defdap/ebsd.py:Grain.print_slip_traces"]}
{"id": "C124", "title": "Calculated data of an EBSD map over histories", "statement": "After every history of reading data of a map, in any order, everything read is the value calculated from the loaded data with the default settings, or its error; so is the list of grains. After calculating the boundaries with a tolerance and then the grains with a smallest size through the data store, everything read (but the distances to boundaries) is the value for these settings, whatever was read or calculated before. The image and the list of grains always come from one search, and the network of neighbours is built from the data kept then. False in three cases: calculated data are kept when the data they come from change, so boundaries and grains do not follow filtering, rotating or another primary phase, grains do not follow new boundaries and the network does not follow new grains; calling the method that finds boundaries sets nothing, what is read is that for the default tolerance; calling the method that finds grains on a new map sets nothing either, and after the image was read it replaces the list of grains but not the image.", "quantifier": "all maps, calculations, settings and histories of reading, calculating and changing", "why_tests_cant": "All orders and histories of lazily calculated data.", "anchors": ["defdap/ebsd.py:Map.__init__", "defdap/base.py:Map.grains", "defdap/ebsd.py:Map.find_boundaries", "defdap/ebsd.py:Map.find_grains", "defdap/ebsd.py:Map.filter_data", "defdap/ebsd.py:Map.rotate_data", "defdap/utils.py:Datastore.generate"]}
{"id": "C125", "title": "Links, crops and grains of a DIC map over histories", "statement": "After every history of linking EBSD maps, the linked map is the one linked last. If one EBSD map is linked throughout, the boundaries of the DIC map are those of that map moved into the DIC frame, reading before linking raises an error, the image and list of grains come from one search, and the grain values are the values at the points of the grains when the crop stays. False in three cases: after another EBSD map is linked the boundaries still come from the map linked first; after the crop changes the grains stay as they were, so grain values are read at shifted points or an index error is raised; calling the method that finds grains sets nothing, what is read later is that for the default settings.", "quantifier": "all DIC maps, links, crops, settings and histories", "why_tests_cant": "All histories of linking, cropping and searching.", "anchors": ["defdap/hrdic.py:Map.link_ebsd_map", "defdap/hrdic.py:Map.set_crop", "defdap/hrdic.py:Map.find_grains", "defdap/hrdic.py:Map.crop", "defdap/base.py:Grain.grain_data", "defdap/base.py:Map.grains", "defdap/utils.py:Datastore.add_derivative", "defdap/utils.py:Datastore._get_derived_item"]}
{"id": "C126", "title": "Arrows on a plot over sessions", "statement": "After every session of drawing lines, adding persistent arrows and adding labels, nothing is raised and the plot shows each persistent arrow and each label once and one more arrow, the line drawn last. False in three cases: once a line was drawn and the plot cleared, every later line is an exception and draws nothing, whatever else is done; the same after an arrow with a missing coordinate, which removes the arrow before; an arrow added without removing the one before leaves that one on the plot, later lines do not remove it.", "quantifier": "all sessions of arrows, labels and clearing, and all coordinates", "why_tests_cant": "All orders of plot operations.", "anchors": ["defdap/plotting.py:Plot.add_arrow", "defdap/plotting.py:Plot.clear"]}
{"id": "C127", "title": "The phase boundary map", "statement": "If two neighbouring pixels of a map differ in phase, the phase boundary map shows exactly the pixels whose right or lower neighbour has another phase, and dilated exactly these and the pixels beside them. The lines of the phase boundaries are the sides between neighbouring pixels of different phase, each once. False if no neighbouring pixels differ in phase: then every pixel is shown as a boundary.", "quantifier": "all maps, phases, orientations and tolerances", "why_tests_cant": "All phase maps of any size.", "anchors": ["defdap/ebsd.py:Map.plot_phase_boundary_map", "defdap/ebsd.py:BoundarySet.points", "defdap/ebsd.py:BoundarySet.image", "defdap/ebsd.py:BoundarySet.lines"]}
{"id": "C128", "title": "Grains are regions of close orientation", "statement": "In an EBSD map with unit orientations there is a boundary between two neighbours exactly when they differ in phase or no rotation of the crystal of the primary phase brings the second orientation within the tolerance of the first. If there is a boundary between pixels side by side and one between pixels above each other, two indexed pixels are in one grain exactly when they are connected by steps between neighbours without a boundary; pixels that are not indexed are 0, pixels of regions below the smallest size are -2, all others belong to a grain, and the list of grains holds each grain's pixels. Finding grains succeeds exactly when some region has the smallest size. Boundaries and grains do not change when every pixel gets another of its equivalent orientations, each pixel its own, and the whole sample is turned by one rotation. False in two cases: without a boundary between pixels side by side (above each other) every grain lies in one column (row); for phases other than the primary phase the symmetry of the primary phase is used, so equivalent orientations of a cubic phase can be separated if the primary phase is hexagonal.", "quantifier": "all maps with at least two rows and columns, all unit orientations, phases, tolerances, smallest sizes and both crystal systems", "why_tests_cant": "Real-valued orientations, symmetry and flood fill on maps of any size.", "anchors": ["defdap/ebsd.py:Map.find_boundaries", "defdap/ebsd.py:Map.find_grains", "defdap/ebsd.py:Map.primary_phase", "defdap/crystal.py:crystalStructures"]}
{"id": "C129", "title": "Equivalent orientations slip alike", "statement": "Two orientations of a grain that differ by a rotation of the crystal into itself (cube or hexagonal prism) have, with the slip systems of every shipped file but cubic_bcc, the same Schmid factors up to order for every load direction, so the same largest factor and value in the map of Schmid factors; the same displacement ratios up to order, if these are finite; and the same slip traces and inclinations up to order. False for cubic_bcc, which does not hold all systems of its families: a load along a face diagonal gives a factor above one half for one orientation and at most one half for its equivalent. False also when the Schmid factors are restricted to chosen planes: the numbers stand for other planes in the equivalent orientation.", "quantifier": "all shipped slip system files, c/a ratios, orientations, rotations of the crystal into itself and load directions", "why_tests_cant": "Real-valued orientations, ratios and loads; every rotation of the crystal.", "anchors": ["defdap/ebsd.py:Grain.calc_average_schmid_factors", "defdap/ebsd.py:Grain.calc_rdr", "defdap/ebsd.py:Grain.calc_slip_traces", "defdap/ebsd.py:Map.plot_average_grain_schmid_factors_map", "defdap/crystal.py:SlipSystem.load", "defdap/crystal.py:SlipSystem.group", "defdap/crystal.py:crystalStructures", "defdap/slip_systems/cubic_fcc.txt", "defdap/slip_systems/hexagonal_withca.txt"]}
{"id": "C130", "title": "Slip system files are read as written", "statement": "Loading slip systems from a text with a title line, a line of colours separated by commas, and lines of whole numbers separated by tabs gives the colours and one slip system per line of numbers, with the numbers as its indices, whatever the title, the spaces around the numbers, comments, empty lines and a line break at the end; a file with fewer than two rows, or with a row that has not two times three (hexagonal: four) numbers, is refused. A name of a file of the package always means that file, another name is a path, and if neither exists loading fails with FileNotFoundError. The texts of the shipped files give the tables used in the other properties.", "quantifier": "all titles, colours, rows of 8 bit numbers, spacings, comments, file systems, crystal types and c/a ratios", "why_tests_cant": "All texts and file systems.", "anchors": ["defdap/crystal.py:SlipSystem.load", "defdap/slip_systems/cubic_fcc.txt", "defdap/slip_systems/cubic_bcc.txt", "defdap/slip_systems/hexagonal_withca.txt"]}
{"id": "C131", "title": "Nye tensor and equivalent orientations", "statement": "The Nye tensor and the GND density at a pixel do not change if the pixels of the map are given other orientations that are equivalent under the symmetry of the crystal, each pixel its own, as long as some equivalent of the neighbour in the next row is less than 30 degrees away. False from 30 degrees on: for hexagonal crystals 30 degrees apart the tensor depends on which equivalent is stored.", "quantifier": "all orientation maps of cubic and hexagonal crystals, all choices of equivalents, all pixels", "why_tests_cant": "All maps and all choices of equivalents.", "anchors": ["defdap/ebsd.py:Map.calc_nye", "defdap/quat.py:Quat.sym_eqv"]}
{"id": "C132", "title": "Average orientation, order and equivalents", "statement": "The average orientation of a grain whose orientations are, each replaced by one of its equivalents, less than 30 degrees from each other, does not depend on the order of its points, nor on which equivalents the points after the first have: it is the normalised sum of the close orientations. If the sample is turned, or the crystals are all turned into themselves in the same way, the average turns with them. The orientations are taken away from the border between the hemispheres (see C43).", "quantifier": "all grains of cubic and hexagonal crystals, all orders of points, all choices of equivalents, all rotations", "why_tests_cant": "All orders, all choices of equivalents, real-valued.", "anchors": ["defdap/quat.py:Quat.calc_average_ori", "defdap/ebsd.py:Grain.calc_average_ori"]}
{"id": "C133", "title": "Strain maps and rigid motion", "statement": "The strain maps of a loaded DIC map do not see rigid motion. If the deformed sample is moved and turned as a whole, whatever its displacements, the deformation gradient is turned with it and the Green strain and the effective shear strain stay the same at every pixel, also at the borders. A rigid motion alone, of any size, gives the rotation as deformation gradient, no strain and no shear. A uniform simple shear of amount g in any direction gives the effective shear strain |g|/2*sqrt(1+g^2/4) everywhere. Displacements and sub-window size given in another unit give the same maps.", "quantifier": "all displacement maps with at least two rows and columns, all rotations and translations, all shears and directions, all units, all pixels", "why_tests_cant": "All real-valued displacement fields, rotations and pixels.", "anchors": ["defdap/hrdic.py:Map.__init__"]}
{"id": "C134", "title": "Grains of a turned map", "statement": "Grain finding does not depend on which way up the map was measured. If the pixels of a map are turned by half a turn and the orientations are given in a sample frame turned in any way, find_grains finds the same grains, turned by half a turn, with the same number of points; the same pixels are left without a grain or removed as too small; and it fails for the one map exactly when it fails for the other, with the same error. In particular rotate_data on a freshly loaded map does not change the grains. The numbers of the grains may differ.", "quantifier": "all orientation and phase maps with at least two rows and columns, all tolerances and minimum sizes, all turns of the sample frame", "why_tests_cant": "All maps and histories of the flood fill.", "anchors": ["defdap/ebsd.py:Map.rotate_data", "defdap/ebsd.py:Map.find_boundaries", "defdap/ebsd.py:Map.find_grains"]}
{"id": "C135", "title": "Slip systems and colours in a turned sample", "statement": "If the sample is turned about its normal, the slip trace angles turn by the same angle, up to half turns, and the inclinations of the slip planes stay the same. If the sample and the direction of an inverse pole figure are turned together in any way, the directions in the fundamental triangle and the colours do not change; neither do they if the sample is turned about the direction itself. After half a turn about the normal, as by rotate_data, the inclinations, relative displacement ratios and slip traces are the same and so are the Schmid factors for all loads in the plane of the surface or along its normal.", "quantifier": "all orientations, slip systems, angles, directions and loads; all lists of orientations of cubic and hexagonal crystals", "why_tests_cant": "All real-valued orientations and rotations.", "anchors": ["defdap/ebsd.py:Grain.calc_slip_traces", "defdap/ebsd.py:Grain.calc_rdr", "defdap/ebsd.py:Grain.calc_average_schmid_factors", "defdap/quat.py:Quat.calc_fund_dirs", "defdap/quat.py:Quat.calc_ipf_colours", "defdap/ebsd.py:Map.rotate_data"]}
{"id": "C136", "title": "Misorientations within a grain and equivalent orientations", "statement": "The misorientations of the points of a grain from a given reference, and their mean, do not depend on which of the equivalent orientations the points have. If the orientations are, each replaced by one of its equivalents, less than 30 degrees from each other, the misorientation angles, the axes, the list and its mean from the average orientation of the grain do not depend on which equivalents the points after the first have: they are those of the close orientations. Orientations and reference given in another sample frame have the same misorientations and mean; so do close orientations with their average as reference.", "quantifier": "all grains of cubic and hexagonal crystals, all references, all choices of equivalents", "why_tests_cant": "All choices of equivalents, real-valued.", "anchors": ["defdap/ebsd.py:Grain.build_mis_ori_list", "defdap/ebsd.py:Grain.calc_grod", "defdap/quat.py:Quat.calcMisOri"]}
{"id": "C137", "title": "DIC grains from a linked EBSD map", "statement": "Linking grains from an EBSD map puts a DIC pixel in the DIC grain of an EBSD grain exactly when the EBSD pixel nearest to its transformed position is inside the EBSD map and belongs to that EBSD grain. The DIC grains are in the order of the EBSD grains that have such pixels and know their EBSD grain; the points of each are listed once, row by row. The pixels of no grain keep the label of their EBSD pixel, or 0 outside the EBSD map. If no DIC pixel lies in an EBSD grain, finding grains raises an IndexError. If the maps have the same pixels, the DIC grains are the EBSD grains with the same order, points and labels.", "quantifier": "all EBSD grain maps, all frame transforms, all sizes of the two maps", "why_tests_cant": "All maps and real-valued transforms.", "anchors": ["defdap/hrdic.py:Map.find_grains", "defdap/hrdic.py:Map.warp_to_dic_frame", "defdap/experiment.py:Experiment.warp_image"]}
{"id": "C138", "title": "Stability of grains, and grains after saving", "statement": "If every orientation of a map changes by at most d degrees, the misorientation of any two pixels, up to crystal symmetry, changes by at most 2d degrees; and if no misorientation of two neighbours of one phase is within 2d degrees of the tolerance, the boundaries and the grains, with their numbers, points and order, do not change. In particular a map that is saved as CTF and loaded again has every orientation within 0.0015 degrees of the original, and the same boundaries and grains for every tolerance that is not within 0.003 degrees of a misorientation of neighbours of one phase.", "quantifier": "all maps, orientations, tolerances and minimum sizes; all maps that can be written", "why_tests_cant": "All real-valued orientations and all maps.", "anchors": ["defdap/ebsd.py:Map.find_boundaries", "defdap/ebsd.py:Map.find_grains", "defdap/ebsd.py:Map.save", "defdap/file_writers.py:OxfordTextWriter.write", "defdap/file_readers.py:OxfordTextLoader.load"]}
{"id": "C139", "title": "Misorientation is a distance and bounds the spread of grains", "statement": "The angle that stands for the misorientation of two unit orientations is never negative, is zero exactly for orientations that a rotation of the crystal into itself turns into one another, does not depend on their order and obeys the triangle inequality. It is never larger than 62.8 degrees for cubic crystals (cosine (2 sqrt 2 - 1) / 4) and 93.8 degrees for hexagonal ones (cosine (sqrt 3 - 2) / 4), and these angles occur. Two pixels of a grain found with a tolerance are at most (number of pixels of the grain - 1) tolerances apart. The misorientations listed for a grain to a reference bound those between its orientations: by their sum from above and by their difference from below.", "quantifier": "all unit orientations, both crystal systems, all maps with at least two rows and columns, tolerances, smallest sizes and references", "why_tests_cant": "Real-valued orientations; the extremes are attained only at special orientations; grains of any size.", "anchors": ["defdap/quat.py:Quat.mis_ori", "defdap/quat.py:Quat.calcMisOri", "defdap/ebsd.py:Map.find_grains", "defdap/ebsd.py:Grain.build_mis_ori_list", "defdap/crystal.py:crystalStructures"]}
{"id": "C140", "title": "An interrupted save of a CTF map is never loaded", "statement": "If writing a map to a CTF file stops at any character, loading what was written fails, and never gives a map with wrong or missing pixels. The only exception is a file that lacks nothing but its last line break: it is loaded exactly like the complete file.", "quantifier": "all writable maps (any size, phases, data), every point of the file at which writing stops", "why_tests_cant": "Every crash point of every file; numbers cut short are still numbers and lines cut short are still lines.", "anchors": ["defdap/file_writers.py:OxfordTextWriter.write", "defdap/file_readers.py:OxfordTextLoader.load", "defdap/ebsd.py:Map.save"]}
{"id": "C141", "title": "An interrupted save of the grain inspector loses only the last grains, silently", "statement": "Loading a file of the grain inspector whose writing stopped at any character stores nothing that was not saved. If it succeeds, all grains up to some number get everything, this grain nothing or all its lines and the first of its groups, later ones nothing. False: that an incomplete file is noticed; the file may end after any grain, or after any group of a grain, and is loaded without an error.", "quantifier": "all maps with any lines and groups in their grains, every point of the file at which writing stops, all maps it is loaded into with at least as many grains", "why_tests_cant": "Every crash point of every file; texts of numbers and lists cut short may still be valid values.", "anchors": ["defdap/inspector.py:GrainInspector.save_file", "defdap/inspector.py:GrainInspector.load_file"]}
{"id": "C142", "title": "Measurement files whose end is missing", "statement": "A measurement file of which the end is missing is refused instead of being loaded as a smaller or partly empty map. True for CRC files, whatever number of bytes is missing, for OpenPIV text files listed from the largest y to the smallest, whatever number of lines is missing, for Davis files with less than a quarter of their lines missing, and for EDAX files, whatever number of characters is missing, unless only the last columns, which are not read, of the last pixel are cut, and the map is loaded like the complete one; a file that ends within its header may be loaded as a map without pixels. False for OpenPIV files listed the other way, which are loaded as a smaller map if they end with a line of the grid. False for PyVale files: as soon as the second line of the grid is reached they are loaded, and the missing part of the last line gets zero displacements.", "quantifier": "all field lists, grids, displacements and numbers of missing bytes or lines", "why_tests_cant": "Every length a file may be cut to.", "anchors": ["defdap/file_readers.py:OxfordBinaryLoader.load_oxford_crc", "defdap/file_readers.py:OpenPivTextLoader.load", "defdap/file_readers.py:PyValeLoader.load", "defdap/file_readers.py:DavisLoader.load"]}
{"id": "C143", "title": "What the minimum grain size changes", "statement": "Finding grains again with a larger minimum size gives exactly the grains found before that have at least that many pixels, in the same order and with the same phases. The pixels of the other grains are then marked as belonging to a grain too small, and no other pixels change between having a grain and having none. Finding grains fails exactly if no grain is large enough. True for the grains of EBSD maps and for those found by floodfill in DIC maps, where the boundary pixels given to a grain count and boundary pixels belonging to no grain stay the same.", "quantifier": "all maps, boundaries, phases and pairs of minimum sizes", "why_tests_cant": "Every set of boundaries and every pair of sizes; the discarded regions change what the search reads afterwards.", "anchors": ["defdap/ebsd.py:Map.find_grains", "defdap/ebsd.py:Map.flood_fill", "defdap/hrdic.py:Map.find_grains", "defdap/hrdic.py:Map.flood_fill"]}
{"id": "C144", "title": "Kernel average misorientation and the misorientations of the neighbours", "statement": "The kernel average misorientation of a pixel is never larger than the largest angle between its orientation and those of its neighbours above, below, left and right, and a pixel that is further than some angle from each of these, even up to crystal symmetry, has a kernel average above that angle; so a pixel with a kernel average up to the tolerance of the grain search, in a map of one phase, has no boundary to one of its neighbours. The kernel averages of a map turned by half a turn, with orientations in any other sample frame, are those of the map, turned. False for equivalent orientations: a map on which all pixels have equivalent orientations can have a kernel average of 180 degrees.", "quantifier": "all maps of unit orientations, pixels, angles and sample frames", "why_tests_cant": "Every set of orientations of a pixel and its neighbours.", "anchors": ["defdap/ebsd.py:Map.calc_kam", "defdap/ebsd.py:Map.rotate_data"]}
{"id": "C145", "title": "How the neighbour network follows the grains", "statement": "Raising the minimum grain size does not change the links between the grains that remain: two of them are neighbours exactly if they were before, and their common boundary has the same points. Two grains that meet at a boundary both of whose pixels are off the outermost rows and columns are still neighbours when the map is turned by half a turn. False for a grain at an edge: a grain of one column at the left edge of a map of any size has no neighbours, but in the map turned by half a turn, where it is at the right edge, it has.", "quantifier": "all maps, boundary sets, pairs of minimum sizes, pairs of grains and map sizes", "why_tests_cant": "Every set of boundary points and every way the grains can be renumbered.", "anchors": ["defdap/ebsd.py:Map.build_neighbour_network", "defdap/ebsd.py:Map.find_grains", "defdap/ebsd.py:Map.rotate_data"]}
{"id": "C146", "title": "A CPR file whose end is missing", "statement": "Of a CPR file whose end is missing, the entries read are the first ones of the file, and only the value of the last one can be short; a file that ends within the heading of a group is an error. If such a file loads, then the heading lines of the job, the acquisition surface, the fields, the phases and each phase returned are in it. False otherwise, without an error: if the list of fields is the last group and some of its last lines are missing, a field of four bytes named unknown_1 takes the place of all the missing fields; if the group of the last phase is the last one, without the line of its space group the phase has space group 0, and if the file ends within the digits of the space group, what is left of them is the space group.", "quantifier": "all CPR files, with any groups, entries, comments and white space, and every number of characters left of them", "why_tests_cant": "Every file and every place it can be cut at.", "anchors": ["defdap/file_readers.py:OxfordBinaryLoader.load_oxford_cpr", "defdap/file_readers.py:read_until_string"]}
{"id": "C147", "title": "What a CPR file says about a map", "statement": "The shape, the step size, the angles of the acquisition surface, the phases and the EDX windows loaded from a CPR file are the entries of the file: as many phases as counted, in the order of their numbers, each with the name, Laue group, space group (0 if not given) and lattice of its own group, lengths and angles rounded to the nearest three decimals. Neither the order of the groups nor that of the entries within a group matters, nor do comments, blank lines, white space and other groups.", "quantifier": "all CPR files, and all pairs of files with the same groups and entries in any order", "why_tests_cant": "Every order of groups and entries, every number of phases and every other content of the file.", "anchors": ["defdap/file_readers.py:OxfordBinaryLoader.load_oxford_cpr"]}
{"id": "C148", "title": "Dislocation density, step size and misorientation", "statement": "The dislocation density of a pixel is at most 18 sin(θ/2) over the length of the Burgers vector and the step size, where θ is the angle left between the pixel and the one below it by any rotation of the crystal into itself, so by the smallest; pixels of the last row and column have no density at all. With a step size k times as large, the dislocation tensor and the density of every pixel are k times smaller.", "quantifier": "all maps of unit orientations, all positive step sizes, all pixels, both crystal symmetries and every rotation of the crystal", "why_tests_cant": "Every pair of neighbouring orientations, every variant of the crystal and every step size.", "anchors": ["defdap/ebsd.py:Map.calc_nye"]}
{"id": "C149", "title": "Texts typed into the grain inspector and its files", "statement": "A whole number typed into the boxes of the grain inspector, with a sign or white space around or not, goes to the grain, removes the line or measures the group of the selected grain with this number; any other text is an error that changes no grain, no line and no file, and an empty one does nothing in the box for groups. In every session the grains, lines and selected grain are those after the events that the texts mean. The file named is the one typed last, at first that with the name of the map; a saved file keeps what was saved, whatever is done except saving the same file again, and loading it into a fresh map gives each grain with lines the lines and groups it had when saving (with numpy below 2, or if nothing saved is a numpy scalar).", "quantifier": "all texts, all sessions of buttons, texts, mouse events and saving, all maps and file names", "why_tests_cant": "Every text and every session; only a history with several names and saves in between can mix up files.", "anchors": ["defdap/inspector.py:GrainInspector.goto_grain", "defdap/inspector.py:GrainInspector.remove_line", "defdap/inspector.py:GrainInspector.run_rdr_group", "defdap/inspector.py:GrainInspector.update_filename", "defdap/inspector.py:GrainInspector.save_file", "defdap/plotting.py:Plot.add_text_box"]}
{"id": "C150", "title": "How large the largest Schmid factor is", "statement": "With the slip systems of the shipped files for close packed planes and directions of cubic crystals (cubic_fcc, cubic_fcc_damask, cubic_bcc_110only) the largest Schmid factor of a grain, the value the map of Schmid factors shows, is between sqrt 6 / 9 (about 0.27) and one half whatever the orientation of the grain and the unit load, and both occur. With cubic_bcc the lower bound holds too. With hexagonal_withca it is positive for every orientation, load and c/a ratio; with every file but cubic_bcc there is for every orientation a load for which it is one half. False for the upper bound with cubic_bcc, some of whose directions are not in their planes, and for positivity with hexagonal_noca: a crystal loaded along its c axis has only zero factors.", "quantifier": "all unit orientations, all unit loads, all c/a ratios and conventions for the axes, the six shipped files", "why_tests_cant": "A bound over all orientations and loads; the smallest value occurs only along isolated load directions.", "anchors": ["defdap/ebsd.py:Grain.calc_average_schmid_factors", "defdap/ebsd.py:Map.plot_average_grain_schmid_factors_map", "defdap/crystal.py:SlipSystem.load", "defdap/slip_systems/cubic_fcc.txt", "defdap/slip_systems/hexagonal_noca.txt", "defdap/slip_systems/hexagonal_withca.txt"]}
{"id": "C151", "title": "One displacement field in every file format", "statement": "A field of displacements on a grid of at least two rows and two columns loads as the same map, with the same sub-window width, size, coordinates and displacement at every point, whether it is saved as DaVis text, as OpenPIV text or OpenPIV binary listed from the largest y, or as PyVale rows in any of the four raster orders. A PyVale file that lists the same points column by column is refused with an AssertionError. False for OpenPIV data listed from the smallest y: such a file loads with its rows in the opposite order.", "quantifier": "all grid sizes from 2 x 2, all even sub-window widths, all displacement fields, all raster orders of a PyVale file, all DaVis headers with the right size", "why_tests_cant": "Compares four loaders over all grids and fields; a test compares single files.", "anchors": ["defdap/file_readers.py:DavisLoader.load", "defdap/file_readers.py:OpenPivTextLoader.load", "defdap/file_readers.py:OpenPivBinaryLoader.load", "defdap/file_readers.py:PyValeLoader.load"]}
{"id": "C152", "title": "How the proxigram varies over a map and with its boundaries", "statement": "From one pixel to another the proxigram changes by at most the distance between the pixels. No value is below sqrt(1/2), half the diagonal of a pixel, and this value is found exactly at pixels with a boundary point on one of their four corners, so at both pixels of every neighbouring pair that differs by more than the tolerance or in phase. Further boundary points never increase a value, and change it only to the distance of a new point; a larger misorientation tolerance never decreases one. Without any boundary every value is 1000.", "quantifier": "all maps, phases, tolerances, boundary sets and batch sizes from one", "why_tests_cant": "Relations between values at all pairs of pixels and between all pairs of boundary sets.", "anchors": ["defdap/base.py:Map.calc_proxigram", "defdap/ebsd.py:Map.find_boundaries", "defdap/ebsd.py:BoundarySet.points"]}
{"id": "C153", "title": "What the text of a quaternion says", "statement": "The text of a quaternion is a bracketed list that reads as four numbers, each within 0.00005 of its coefficient. Two orientations with the same text are at most 0.03 degrees apart. False for the converse: a unit quaternion and its negative are the same orientation and never have the same text.", "quantifier": "all quaternions; all pairs of unit quaternions", "why_tests_cant": "A bound over all pairs of orientations.", "anchors": ["defdap/quat.py:Quat.__repr__", "defdap/quat.py:Quat.__str__"]}
{"id": "C154", "title": "How much Schmid factors change with the orientation", "statement": "The Schmid factor of a slip system in two orientations differs by at most the angle between the orientations in radians, and by at most its sine when the angle is no more than 90 degrees; so does the largest Schmid factor over all slip systems. With the slip systems of a shipped file other than cubic_bcc the largest Schmid factors differ by at most the misorientation angle. Two points of a grain differ by at most the angle tolerance of the grain detection times the number of points of the grain less one. For a grain whose points are within 30 degrees of each other and in one hemisphere the value of its average orientation, shown in the map, differs from that of each point by at most the largest angle between two points.", "quantifier": "all unit quaternions in the upper half, all unit load directions, all slip systems with perpendicular unit vectors, all maps, tolerances and grains", "why_tests_cant": "A bound over all pairs of orientations and load directions.", "anchors": ["defdap/quat.py:Quat.transform_vector", "defdap/ebsd.py:Grain.calc_average_schmid_factors", "defdap/ebsd.py:Map.calc_average_grain_schmid_factors", "defdap/quat.py:Quat.mis_ori"]}
{"id": "C155", "title": "How far noise, wrong displacements, cuts and slip steps reach in strain maps", "statement": "Deformation gradient, strain and maximum shear at a pixel depend on the displacements at the pixel and its four neighbours only, so one wrong displacement spoils at most five pixels. Displacements that differ by at most some amount give deformation gradients that differ by at most twice the amount over the binning, and by at most the amount over the binning away from the ends of the row or column; strain and maximum shear differ in proportion. A file with a rectangular part of the displacements gives the same maps except on the edges where something was cut off. A slip step between two columns shows in exactly these two columns, as the step over twice the binning.", "quantifier": "all displacement maps of at least two by two pixels, all binnings, amounts of noise, parts and steps", "why_tests_cant": "Statements about all displacement fields and all sizes of maps.", "anchors": ["defdap/hrdic.py:Map.__init__"]}
{"id": "C156", "title": "The grains of a part of a map", "statement": "If an EBSD map is a rectangular part of another one, it has the boundaries of the whole map between its pixels and no others, and every grain of the part lies within one grain of the whole map, so that cutting a map may split grains and never joins any. A grain of the whole map that lies in the part is a grain of the part with the same points, if the part has a boundary in each direction. False for the converse of the first: two points of one grain of the whole map can be in two grains of the part.", "quantifier": "all maps, all rectangular parts of at least two by two pixels, all tolerances and smallest grain sizes (for the part at least that of the whole map)", "why_tests_cant": "A statement about the grains of all pairs of a map and a part of it.", "anchors": ["defdap/ebsd.py:Map.find_grains", "defdap/ebsd.py:Map.find_boundaries", "defdap/ebsd.py:Map.flood_fill"]}
{"id": "C157", "title": "How far errors of orientation reach in kernel average misorientation and dislocation density", "statement": "If the orientations of a pixel and its neighbours in its row and column are wrong by at most an angle, the kernel average misorientation of the pixel is wrong by at most twice that angle, whatever the other orientations are. A rectangular part of a map has the kernel averages of the whole map, except at edges of the part that are not edges of the whole map, and the dislocation densities and Nye tensors of the whole map, except in its last row and column. The density and tensor of a pixel depend on its orientation and that of the pixel below only. In a crystal whose measured orientations are within an angle of at most 90 degrees of one orientation, or of one equivalent to it, the density of a pixel is at most 18 times the sine of that angle over the Burgers vector and the step size.", "quantifier": "all maps of unit quaternions, all errors, all rectangular parts, all pixels, both crystal symmetries and all step sizes", "why_tests_cant": "Tests compare single maps; error bounds and locality range over all maps and all errors.", "anchors": ["defdap/ebsd.py:Map.calc_kam", "defdap/ebsd.py:Map.calc_nye"]}
{"id": "C158", "title": "The average orientation of a grain fits its points best", "statement": "Let the orientations of the points of a grain be, each replaced by one of its equivalents, less than 30 degrees from each other and away from the border between the hemispheres. The average orientation is the one orientation for which the sum of the cosines of half the angles to the points is largest; every other orientation has a smaller sum. If all points are within an angle of at most 90 degrees of a true orientation, so is the average: averaging never makes the worst error larger.", "quantifier": "all grains of cubic and hexagonal crystals that lie close together, all choices of equivalents after the first point, all other orientations", "why_tests_cant": "The comparison is with all orientations, a continuum.", "anchors": ["defdap/quat.py:Quat.calc_average_ori", "defdap/ebsd.py:Grain.calc_average_ori"]}
{"id": "C159", "title": "Boundary lines come back from a finer frame", "statement": "Warping boundary lines to another frame keeps outlines: lines that meet still meet. A warped line goes as far as the exact image of the line, up to one pixel in each direction. If the way back brings points closer together, in particular if a DIC map is linked by an affine transform to an EBSD map with larger pixels, the boundary lines of the EBSD map, warped to the DIC map and back, are exactly the boundary lines again. False the other way: a line of the DIC map, warped to the EBSD map, can become a single point and not come back.", "quantifier": "all lists of lines between pixel corners, all linked frames, all transforms that are inverse to each other and shrink on the way back", "why_tests_cant": "All lists of lines and all transforms; ties in rounding.", "anchors": ["defdap/experiment.py:Experiment.warp_lines", "defdap/experiment.py:Experiment.get_frame_transform", "defdap/hrdic.py:Map.link_ebsd_map"]}
{"id": "C160", "title": "Grain averages and the values of the map", "statement": "If every pixel of a map is in a grain, the averages of the grains weighted with their numbers of pixels add up to the sum of the map. The average of a grain depends on the values in the grain only; it is not larger for smaller values, changes by at most the largest change of a value, and is scaled and shifted with the values. If a grain consists of two others, its average is their average weighted with their sizes and lies between theirs.", "quantifier": "all lists of disjoint grains, all maps of values", "why_tests_cant": "All grain lists and all values.", "anchors": ["defdap/base.py:Map.calc_grain_average", "defdap/base.py:Grain.grain_data"]}
{"id": "C161", "title": "How well orientations determine slip traces", "statement": "If two orientations are some angle apart, the inclination of a plane differs by at most the angle, and the trace differs so that the sine of the difference times the sine of the inclination is at most the angle in radians, and at most its sine for angles up to 90 degrees. So for planes inclined by 30 degrees or more and orientations less than 30 degrees apart the sine of the difference is at most twice that of the angle. False for shallow planes: as close as one likes there are orientations for which the reported traces of the basal plane are 90 degrees apart.", "quantifier": "all pairs of unit orientations and all unit plane normals", "why_tests_cant": "Real-valued, all orientations.", "anchors": ["defdap/ebsd.py:Grain.calc_slip_traces", "defdap/ebsd.py:Grain.slip_traces"]}
{"id": "C162", "title": "Inverse pole figure directions of close orientations are close", "statement": "The directions reported for two orientations in an inverse pole figure differ by no more than the misorientation angle between the orientations, for cubic crystals without a cube axis exactly along the sample direction, and for hexagonal crystals if none of the list has its axis exactly along it. False with a cube axis exactly along the direction: as close as one likes there are orientations whose reported directions are 45 degrees or more apart.", "quantifier": "all lists of unit orientations, all sample directions other than zero, both triangles", "why_tests_cant": "Real-valued, all pairs of orientations.", "anchors": ["defdap/quat.py:Quat.calc_fund_dirs", "defdap/quat.py:Quat.plot_ipf"]}
{"id": "C163", "title": "Which ratio is measured, and what noise does to it", "statement": "The measured relative displacement ratio is the number that, times the displacement along y, fits the displacement along x best: of all numbers it leaves the smallest sum of squares, over all pixels across the line and each row taken from its own mean. So a constant for each row does not matter, and if the displacement along x is k times that along y up to a constant for each row and errors of at most ε, the measured ratio differs from k by at most ε divided by the root mean square of the displacement along y. False for errors of the displacement along y: if these have nothing to do with the slip, in that the sum of their products with the true displacement is zero, the measured ratio is k A / (A + B) in place of k, with A and B the sums of squares of the true displacement along y and of its errors; in a row of three pixels this can be k a² / (a² + 3 ε²).", "quantifier": "all displacement maps, lines, angles and odd lengths with all pixels in the map", "why_tests_cant": "All maps and all errors.", "anchors": ["defdap/inspector.py:GrainInspector.calc_rdr"]}
{"id": "C164", "title": "Inverse pole figure colours of close orientations are close", "statement": "The inverse pole figure colours have no jumps: for every difference of colour there is one angle, for all orientations, sample directions and maps, such that two orientations misoriented by less have colours that differ by less in red, green and blue, also if they are on two sides of the border of the standard triangle or at one of its corners. This is so for cubic crystals without a cube axis exactly along the sample direction, and for hexagonal crystals if none of the list has its axis exactly along it. False with a cube axis exactly along the direction: such a crystal has a colour whose green differs by more than one half from that of every other crystal close enough to it.", "quantifier": "all lists of unit orientations, all sample directions other than zero, all differences of colour", "why_tests_cant": "Real-valued, all pairs of orientations.", "anchors": ["defdap/quat.py:Quat.calc_ipf_colours", "defdap/quat.py:Quat.calc_fund_dirs", "defdap/ebsd.py:Map.calc_ipf_colour"]}
{"id": "C165", "title": "Links of DIC grains are as sure as the lead of their label", "statement": "A DIC grain with more than half of its pixels on one EBSD grain is linked to it, whatever the labels at its other pixels are. If the label of an EBSD grain leads every other by more than twice a number of pixels, the link stays the same when the labels at that many pixels are changed to anything; a lead of exactly twice the number is not enough. The order of the pixels does not matter and with every pixel split into equally many the links are the same. If two parts of a grain would each be linked to one EBSD grain, so is the whole. False the other way: the whole can be linked to an EBSD grain that neither part would be linked to.", "quantifier": "all lists of EBSD grains, all labels under a DIC grain, all changes of them", "why_tests_cant": "All overlaps and all changes of any number of their labels.", "anchors": ["defdap/hrdic.py:Map.find_grains"]}
{"id": "C166", "title": "Affine links of maps by marked points", "statement": "If the points marked in one map are the images of those marked in another by an invertible affine map, and not all on one line, the affine transform between the two is this map everywhere, in whichever direction they were linked. With three marked points in each of three maps, going from the first to the third by the second is the same as going directly. If the three points are marked up to a distance off in each direction, the transform is off by at most this distance inside their triangle. False outside: there the error grows with the weights of the point, in proportion to the sum of their sizes.", "quantifier": "all marked points, all affine relations of maps, all histories and directions of links, all errors of the marks", "why_tests_cant": "All positions of marks and all points of the plane.", "anchors": ["defdap/experiment.py:Experiment.get_frame_transform", "defdap/experiment.py:Experiment.link_frames", "defdap/experiment.py:Frame.set_homog_points"]}
{"id": "C167", "title": "What wrong marks change in the grains of a linked DIC map", "statement": "With marked points that put the maps on each other up to a distance in each direction: a DIC grain found by flood fill keeps the EBSD grain it is linked to, if the label of this EBSD grain leads every other by more pixels than there are EBSD pixels at the border of the DIC grain up to this distance and half a pixel; it is linked to the EBSD grain with the most pixels next to a pixel of the grain, if one has more than every other label. With the warp algorithm a DIC pixel with only one EBSD grain up to the distance and half a pixel around its true position is in the DIC grain of this EBSD grain, whatever the marks.", "quantifier": "all pairs of transforms that differ by at most a distance, all grain maps, all roundings to a nearest pixel", "why_tests_cant": "All sizes of maps, all shapes of grains and all errors.", "anchors": ["defdap/hrdic.py:Map.find_grains", "defdap/experiment.py:Experiment.warp_image", "defdap/experiment.py:Experiment.get_frame_transform"]}
{"id": "C168", "title": "Percentiles of noisy, rescaled and wrong data", "statement": "In the statistics table of a DIC map: with larger values at every point every percentile is larger; in other units, values multiplied by a number and moved, the percentiles are the same in the other units; with noise of at most an amount at every point every percentile is at most this amount off; and if the values at j of the n points with data are wrong, by whatever amount, each percentile is between those of the right values that are 100 j / (n - 1) lower and higher.", "quantifier": "all data with and without missing points, all percentiles, all noise and wrong values", "why_tests_cant": "Real-valued, any number of points.", "anchors": ["defdap/hrdic.py:Map.print_stats_table"]}
{"id": "C169", "title": "Profiles along lines: direction, noise, units and steepness", "statement": "A line drawn in the other direction gives the same profile, seen from its other end. The profile of a sum of maps is the sum of their profiles, and in other units it is the profile in these units. With noise of at most an amount in the map every value of the profile is at most this amount off. If the values of neighbouring pixels differ by at most an amount, the profile rises and falls by at most the square root of two times this amount for every pixel along the line.", "quantifier": "all maps, all lines on and off the map, all noise", "why_tests_cant": "Real-valued, all lines and sizes of maps.", "anchors": ["defdap/base.py:Map.calc_line_profile", "defdap/base.py:Map.draw_line_profile"]}
{"id": "C170", "title": "Coarse maps of grains: noise, units, points far away and large kernels", "statement": "A coarse value of a grain depends only on the values at its points at most the size of the kernel away, in rows and in columns: noise of at most an amount there changes it by at most this amount, whatever happens further away. In other units, values multiplied by a number and moved, the coarse map is the same in the other units. With a kernel at least as large as the grain every coarse value is the mean of the values of the grain.", "quantifier": "all grains, all values with and without missing ones, all kernel sizes, all noise", "why_tests_cant": "All shapes of grains and sizes of kernels.", "anchors": ["defdap/base.py:Grain.grain_map_data_coarse"]}
{"id": "C171", "title": "Histograms: joined, reordered and noisy data, units and finer bins", "statement": "A histogram depends only on the numbers in the data, not on their order and not on how many values are nan or where. Without normalisation the histogram of two sets of data together has in every bin the sum of the two, m bins in place of every bin have counts which add up to the count of the bin, and noise of at most an amount changes the value of a bin at most by the number of values within this amount of its two edges. In other units, data and range multiplied by a positive number and on a linear axis also moved, the edges are those in the new units and the counts are the same; normalised values are divided by the number.", "quantifier": "all data with and without nan, all numbers of bins, all ranges, linear and logarithmic axes, all noise", "why_tests_cant": "All data, including values on edges, where the last bin is closed and the others are not.", "anchors": ["defdap/plotting.py:HistPlot.add_hist"]}
{"id": "C172", "title": "Families of slip lines that are clearly apart", "statement": "A line drawn is put into the group whose angle is nearest, if that is less than ten degrees away, and the group then has the rounded mean of the angles of its lines; otherwise the line gets a group of its own. When lines are drawn in a grain one after the other, in any order, and their angles are clearly apart (two angles less than ten degrees from a third are less than ten degrees from each other), two lines are in the same group exactly if their angles are less than ten degrees apart, every group has the rounded mean of the angles of its lines, and the order of drawing does not change which lines are together. Removing the line drawn last, or a line of whose family another was drawn earlier, keeps the groups of all other lines. False after another line is removed: of lines of 3, 37, 80, 80, 80 and 37 degrees the first is removed, and the lines of 80 degrees are then in two groups, one of them listed at 65.67 degrees.", "quantifier": "all lines with angles clearly apart, all orders of drawing, any number of lines and families", "why_tests_cant": "Lines are grouped anew after every change, with the marks of the time before; the outcome depends on the order and the whole history.", "anchors": ["defdap/inspector.py:GrainInspector.group_lines", "defdap/inspector.py:GrainInspector.save_line", "defdap/inspector.py:GrainInspector.remove_line"]}
{"id": "C173", "title": "How far errors of orientation reach in the deviations from the reference orientation", "statement": "If the orientations of the points of a grain are wrong by at most an angle, up to the symmetry of the crystal, and a given reference orientation by at most a second angle, every deviation from the reference is wrong by at most the sum of the two, and the mean of the cosines of half the misorientations listed for the grain by at most half of it. In a grain of one orientation, measured at every point with an error of at most an angle, the deviations from the average orientation are at most twice this angle, whichever of the equivalent orientations the points have.", "quantifier": "all crystals, all unit orientations, all errors; for the average: errors of at most 90 degrees and orientations that are, with an equivalent each, within 30 degrees of each other and away from the border between the hemispheres", "why_tests_cant": "All combinations of errors at all points and of the reference, and of equivalent orientations.", "anchors": ["defdap/ebsd.py:Grain.calc_grod", "defdap/ebsd.py:Grain.build_mis_ori_list"]}
{"id": "C174", "title": "Distances and circles in pole figures and inverse pole figures", "statement": "The stereographic projection takes the directions at a fixed angle to an axis, and so those of a plane, to a circle or a straight line, and the distance of the points of two directions is the distance of the directions divided by a factor that depends only on their heights. In the upper hemisphere points are at most as far apart as their directions, and at least half as far, in the stereographic projection, and between one over the root of two and the root of two times as far in the Lambert projection. In an inverse pole figure the points of two orientations are at most as far apart as the misorientation angle in radians, or the root of two times it in the Lambert projection, unless a cube axis, or the axis of a hexagonal crystal, is exactly along the sample direction.", "quantifier": "all pairs of unit directions (not straight down; in the upper hemisphere for the bounds), all axes and angles, all lists of unit orientations and all sample directions of cubic and hexagonal crystals", "why_tests_cant": "Pictures of chosen directions show neither that every circle stays one nor the largest distortion of all pairs.", "anchors": ["defdap/plotting.py:PolePlot.stereo_project", "defdap/plotting.py:PolePlot.lambert_project", "defdap/quat.py:Quat.calc_fund_dirs"]}
{"id": "C175", "title": "Areas in pole figures", "statement": "In the Lambert projection every measurable set of directions takes the area in the picture that it has on the sphere, so equal solid angles look equally large everywhere. The stereographic projection makes an area at the angle a to the middle larger by the factor one over the square of (1 + cos a) only, and so in the upper hemisphere the area in the picture is between a quarter of the area on the sphere and all of it.", "quantifier": "all measurable sets of directions other than the two poles (in the upper hemisphere for the bounds)", "why_tests_cant": "All shapes of sets of directions; a test can only measure discs.", "anchors": ["defdap/plotting.py:PolePlot.lambert_project", "defdap/plotting.py:PolePlot.stereo_project"]}
