# Formal model of DefDAP in Lean 4

This file says what is modelled, how each property of `properties.jsonl` is
proved, what is trusted and what is left out. `MANIFEST.json` gives the exact
theorem names and status per property; `seeded/LOG.jsonl` records the wrong
programs the theorems were tried against.

## Layout

* `lean/Verif/Model/*.lean`  – the model: one Lean definition per function (or
  loop) of the code, with a comment citing file and lines.
* `lean/Verif/Spec/*.lean`   – small specifications (reachability, partition,
  nearest point, ...) that do not mention the model. Specifications used by one
  property only are at the top of its file in `Props`, in the namespace
  `DefDAP.Spec`.
* `lean/Verif/Proofs/*.lean` – helper lemmas.
* `lean/Verif/Props/*.lean`  – the property theorems, each with the English
  claim, and next to each an `example` showing a concrete non-trivial case that
  satisfies its hypotheses.

## How the code is modelled

* Shallow embedding. Python functions become Lean functions on immutable
  values, branch by branch. Exceptions are values of `Except`; the error
  branches are part of the model and of the theorems.
* Mutation that the code can observe (aliasing of a caller's list, a shared
  guard, a cached array changed in place) is modelled by returning or threading
  the changed value.
* Loops without an obvious bound (`while edge:` in the flood fills, the seed
  scan, the derivative key lookup) take a fuel argument and return a `fuel`
  error when it is exhausted; a theorem shows this error cannot occur, so the
  fuel is not an assumption.
* Array accesses of the compiled (numba) code are checked in the model and give
  an `outOfBounds` error, so memory safety is a theorem, not an assumption.
* 2D images are functions on integer coordinates together with a shape. Arrays
  of any rank (C93) are a shape with a function on index lists.
* Interactive tools are state machines: a step function on events, a session is
  a list of events, an exception in a handler leaves the changes made before it
  and the session goes on, as in matplotlib's event loop.
* Floating point numbers are modelled by real (or rational) numbers: rounding
  errors are outside the model. `arctan2(y, x)` is `Complex.arg (x + i y)`,
  which agrees with IEEE arctan2 except for signed zeros; `round` is
  round-half-even where numpy/Python use that.
* numpy `int8` casts are modelled with wrap-around where they matter.
* Text is a list of characters. `float(repr(x)) == x` is a hypothesis
  (`FloatText.Lawful`), met by an instance.

## Trusted base

* Lean 4.33.0's kernel, and the axioms `propext`, `Classical.choice`,
  `Quot.sound`; the section "Axioms" lists them for each theorem. No axioms of
  our own, no `sorry`, no `native_decide`, no `bv_decide`.
* That the Lean definitions say what the cited Python lines do. This was
  established by reading; nothing was executed.
* The semantics given to Python, numpy, numba, networkx, pandas, scipy,
  scikit-image and matplotlib primitives used in the cited lines, which the
  comments of the model state. Where it depends on a version, this is a
  parameter or said in the theorem: `genfromtxt` with `usecols` beyond the
  number of columns (C69), the `repr` of numpy 2 numbers (C75). `Normalize` and
  `ListedColormap` (C95), `profile_line` and order 1 interpolation (C96),
  binary dilation (C82) and the estimators of scikit-image transforms (C33,
  parameters) are taken from their documentation.

## Plan per property

| id | what is modelled | how it is proved |
|----|------------------|------------------|
| C01 | `flood_fill` with checked accesses, explicit stack and move list | loop invariant + decreasing count of unlabelled pixels; counterexample for width 1 |
| C02 | same | invariant: marked set = reachable so far, closed when the stack is empty |
| C03 | `find_grains` seed scan and fill loop | induction over the loop with the partition invariant |
| C04 | same, grain list and renumbering | same invariant |
| C05 | `find_boundaries` + `find_grains` | phase is constant along open steps |
| C06 | shared buffer with offsets | frame argument: fills write at or after their offset |
| C07 | error branches of `find_grains` | case analysis of the loop |
| C08 | `find_boundaries` as function of tolerance | monotonicity, reachability monotone in open steps |
| C09 | `find_boundaries` | unfolding against a pointwise spec |
| C10 | `BoundarySet.from_image`, `_image` with numpy assignment semantics incl. empty index | extensional equality; counterexample for empty |
| C11 | `boundary_points_to_lines` | algebra |
| C12 | `flood_fill_dic` | as C01/C02 |
| C13 | DIC `find_grains` floodfill branch | as C03/C04 |
| C14 | `np.unique`/`np.digitize` relabelling | sorted list lemmas |
| C15 | `build_neighbour_network`, graph as association list on unordered pairs | induction over the boundary points |
| C16 | `addBoundaryPoint`, `boundary_point_pairs` | same induction |
| C17 | `grain_data`, `grain_map_data`, `grain_data_to_map` | fold of point updates |
| C18 | `extreme_coords` | min/max folds |
| C19 | `centre_coords` with round-half-even | arithmetic |
| C20 | `calc_grain_average`, `grain_data_to_map_data` | folds over disjoint lists |
| C21 | `grain_map_data_coarse` | mean between min and max |
| C22 | batched minimum loop of `calc_proxigram` | invariant over the batches |
| C23 | `Datastore` as a state machine | invariant over operation lists, refinement to a finite map |
| C24 | `__getitem__`/`generate` with call counter | same |
| C25 | `add_generator`, `generate` error paths | failing keys and what is left, induction over the keys |
| C26 | `keys`/`lookup_derivative_keys` over a graph of stores with the shared guard | measure: groups not yet visited |
| C27 | `_get_derived_item` | every listed key classified; induction on fuel for the guard |
| C28 | `get_metadata` | case analysis along the derivatives, counterexample |
| C29 | `__getitem__` with crop and mask, `set_crop` | refinement: result is a function of original data and last crop |
| C30 | `crop`, Python slice semantics | arithmetic |
| C31 | `set_crop` + `update_homog_points` | invariant over operation lists |
| C32 | `update_homog_points` | case analysis, counterexample |
| C33 | `link_frames`, `get_frame_transform` | state machine |
| C34-C38 | `Quat` over the reals | algebra; `Complex.arg` for Euler angles |
| C39 | operator tables in exact arithmetic over Q(sqrt 2), Q(sqrt 3) | kernel computation over the whole table, lifted to the reals |
| C40-C42, C44 | `mis_ori`, `calc_sym_eqvs`, `calcMisOri` | group closure + reindexing of a maximum |
| C43 | `calc_average_ori` | induction over the orientations, counterexample |
| C45 | `calc_fund_dirs` | existence of a variant in the sector; counterexample for cube axes |
| C46 | `polar_angles`, projections | trigonometry |
| C47, C48 | `create_l_matrix`, `create_q_matrix` | algebra |
| C49-C53 | `convert_idc`, `pos_idc`, `reduce_idc`, `safe_int_cast`, `idc_to_string` | integer arithmetic, list induction |
| C54-C57 | `SlipSystem` equality, `group`, data files, `generate_family` | list induction; whole-table kernel computation |
| C58, C59 | `calc_average_schmid_factors`, `calc_slip_traces` | algebra |
| C60, C61 | deformation gradient, Green strain, maximum shear | algebra, case analysis of `np.gradient` |
| C62 | `calc_nye` with the array alias | counterexample class |
| C63 | `calc_kam` | algebra |
| C64 | `rotate_data` on a store with a cached item | partial theorem and counterexample |
| C65 | CTF writer and loader on lines of fields | list induction |
| C66 | field list to record layout, decoding | list induction, counterexample |
| C67, C68 | `load_oxford_cpr`, `read_until_string` on lists of lines | list induction |
| C69 | angle and phase shift | arithmetic |
| C70-C72 | DIC loaders | arithmetic, folds |
| C73-C75 | `save_line`, `group_lines`, `save_file`, `load_file` | arithmetic, list induction |
| C76 | `Linker` as a state machine | invariant |
| C77 | `report_progress` generator protocol | induction |
| C78 | `link_ebsd`-style overlap counting of `hrdic.Map.find_grains`, `np.unique` counts, `argmax` | list induction; failure when the most common label is not a grain |
| C79 | `click_grain_neighbours` over a neighbour network | list membership, induction over first neighbours |
| C80 | `grain_map_data` for maps with components | extensional equality, failure for components |
| C81 | transform type dispatch of `get_frame_transform` | case analysis |
| C82 | `calc_mask`, mask on reading, binary dilation with a cross | extensional equality |
| C83 | `warp_lines` with the transform as a parameter | arithmetic of rounding |
| C84 | trace colours and plane groups of the shipped files | whole-table kernel computation |
| C85 | `Phase.__init__` decisions, `SlipSystem.load` on lines | case analysis |
| C86 | `ebsd.Grain.calc_rdr` | algebra |
| C87 | selection by planes and directions in the Schmid factor map | list induction |
| C88 | `calc_grod`, `build_mis_ori_list` on the quaternion model | algebra over the symmetry group |
| C89 | `generate_family` for hexagonal indices | group action on indices, list induction |
| C90 | `SlipSystem.group` by family | list induction |
| C91 | `calc_ipf_colours` after `calc_fund_dirs` | order and sign arguments in the sector |
| C92 | `calc_euler_colour`, `calc_ipf_colour` with masks and assignment casts | extensional equality, induction over phases |
| C93 | `_extract_component`, `plot_map` on arrays of any rank as functions of the index | list and index arithmetic, string lemmas |
| C94 | homologous point tool as a state machine on events, click position to pixel | induction over sessions, relational specification |
| C95 | `add_grain_highlights` with colour normalisation, neighbour tool colours | folds over disjoint lists, arithmetic |
| C96 | `line_slice` as a state machine, `profile_line` with linear interpolation | induction over sessions, real arithmetic |
| C97 | `filter_data` on an orientation map with optional (lost) orientations | real arithmetic on dot products, induction over the blocks |
| C98 | pixel offsets, least squares, `calc_rdr`, `run_rdr_group` | finite table for directions, algebra of least squares |
| C99 | `batch_run_sta` rows | lists |
| C100 | `warp_image` with border, `warp_points`, `from_ebsd_boundaries`, affine maps over the reals | algebra of the crop offset; interpolation and thinning universally quantified |
| C101 | `Map.__init__`, `Increment.add_map`, `iter_over_maps` | lists of dictionaries, induction over histories |
| C102 | `get_loader`, `Path.suffix`, `with_suffix`, writers | strings |
| C103 | `equavlent_indicies` over the reals | the families of C30/C31: rotations of the groups permute indices |
| C104 | `label_point`, `add_line`, `add_axis`, `add_points`, `_validateProjection` | C103, C45 and C46 |
| C105 | `plot_unit_cell`, vertices and faces of the crystal structures | rotation matrices of C36, a turn by 30 degrees between conventions |
| C106 | `add_traces`, `add_slip_traces`, `add_slip_bands`, `slip_traces` | trigonometry, C33 for the slip planes |
| C107 | the layers of `MapPlot` | state machine, invariant over histories |
| C108 | `add_grain_boundaries`, `plot_boundary_map`, `plot_phase_map` | cases over colours |
| C109 | `plot_mis_ori_map`, `calc_grain_mis_ori` | painting of disjoint grains |
| C110 | operators of `Quat` | the rotation matrix determines the products of coefficients |
| C111 | `calc_slip_bands` | algebra of the profile over an abstract homogeneous and monotone transform |
| C112 | `HistPlot` | partition of the range by the edges, induction over the data |
| C113 | heap of dictionaries and items of `Datastore` | invariant over histories |
| C114 | state machine of `GrainInspector` | invariant over sessions |
| C115 | images and scale of `hrdic.Map`, on top of the crop model | induction over histories |
| C116 | `print_stats_table` with numpy's nanpercentile | sortedness and counting, induction over items |
| C117 | dictionary loader, `load_data` of both maps, accessors for phases | induction over histories |
| C118 | end of `calc_rdr` and `plot_rdr` with the texts and labels it draws | induction over planes; minima and maxima of lists |
| C119 | `plot_grain_data_map`, `plot_grain_data_ipf` on top of the grain averages of C20 and the fundamental directions | composition of the theorems of C20 with lists of orientations |
| C120 | sessions over the figures of matplotlib with their numbers | invariant over all histories |
| C121 | the loop over boundary points with sets of neighbours and an undirected graph | induction over points and pairs |
| C122 | loops over grains with what grains keep, painting of the maxima | induction over grains and histories |
| C123 | labels and printed lines as lists of characters, the listing of a grain as entries | induction over planes |
| C124 | a state with what is kept, the list of grains and the network; reading and calculating in the order of the code | invariants over histories |
| C125 | a state with the link, the crop, the derivatives and what is kept | invariants over histories, with witnesses for the exceptions |
| C126 | objects on the axes with numbers and the remembered arrow | an invariant over sessions |
| C127 | the boundary image from the boundary points, the dilation and the lines | membership in the point lists of C08 |
| C128 | symmetric variants, overlaps and angles of find_boundaries composed with the flood fill model | the group property of C39, trace of the rotation matrix, and C07/C08 |
| C129 | the slip system files as data, loaded by the model of SlipSystem.load, with the Schmid factor, trace and ratio models | the rotations of C39 act as signed permutations on the indices of each file, checked in exact arithmetic over the whole file and lifted to all loads |
| C130 | finding the file, readline/strip/split and the loadtxt rules for delimiter, comments, empty lines and skipped rows | induction on the lines and cells of the text; the shipped texts by kernel computation |
| C131 | calc_nye as in C62, the rotations of the cube and of the prism as in C39 | triangle inequality for quaternion overlaps: only one equivalent is less than 30 degrees away, so the closest one found is the same crystal rotation |
| C132 | calc_average_ori as in C43 | induction over the points: the equivalent added in each round is the one of the cluster, because every other is strictly further from each orientation added so far |
| C133 | the chain displacement, gradient, deformation gradient, Green strain, effective shear of Map.__init__ as one function | numpy gradient is linear and exact on linear fields, also at borders; a rotation cancels in the Green strain |
| C134 | find_boundaries and find_grains as in C03-C07 and C41, rotate_data as in C64 | boundaries move by one pixel under the turn because they are stored on one side only; grains are the connected components of open steps, and the turn maps open steps to open steps |
| C135 | calc_slip_traces, calc_rdr, Schmid factors, calc_fund_dirs and calc_ipf_colours as in C59, C60, C36 and C42 | the plane normal in the sample turns with the sample; the direction in the crystal does not change when sample and direction turn together |
| C136 | build_mis_ori_list and calc_grod as in C88 | the overlap is a maximum over all equivalents; within a cluster the maximum is attained by one equivalent only, so the axis is the same too |
| C137 | the branch of find_grains that warps the EBSD grain image, and skimage's warp with order 0 | the list of labels is read off the warped image; the labels in use are sorted, so the grains come in the order of the EBSD grains |
| C138 | find_boundaries and find_grains as in C128, writing and loading as in C65 | rotation angles satisfy the triangle inequality; Euler angles rounded to 0.001 degrees give a rotation by at most the sum of the three changes |
| C139 | misorientation, grain finding and the misorientation list (models of C40, C88, C128) | spherical triangle inequality; weak majorization of the components of the relative rotation for the largest angle; shortest chains inside a grain |
| C140 | prefixes of the written text through the loader (models of C69 and C70) | case analysis of where the text ends: header, phase lines, pixel rows |
| C141 | prefixes of the saved text through the reader of the lists (models of C75) | number of open brackets: a list cut short is not accepted by literal_eval |
| C142 | prefixes of the records or lines of a file through the loaders (models of C66, C69, C70, C71, C72) | number of records; words of a cut line; binning and extent of the first nodes of a grid |
| C143 | two runs of the grain search with different minimum sizes (models of C03 to C07 and C13) | both runs list the regions of sufficient size in raster order; a strictly increasing map between two initial segments |
| C144 | the model of C63 against the angle of the rotation between two orientations, and the crystal rotations of C128 | a mean of cosines is between the smallest and the largest; the inverse cosine decreases |
| C145 | the models of C03 and C15 together | C15 turns links into touching, and C143 gives the pixels of the remaining grains; a half turn swaps the two sides of a boundary point |
| C146 | the CPR parser and loader of C66 and C67, on every start of a text | only the stripped lines matter, so a cut text is a text of fewer and shorter lines, to which C67 applies; the loader looks groups up by name |
| C147 | the CPR parser and loader of C66 and C67 | C67 gives the groups; each value loaded is traced back to the lookup it comes from, and lookups do not depend on the order if keys are distinct |
| C148 | the dislocation tensor of C62 | the tensor as rotation minus identity (C62_tensor), whose squares sum to 8(1−cos²(θ/2)); Cauchy–Schwarz for the nine weighted entries; the chosen variant has the largest overlap (C62_tensor) |
| C149 | the handlers of text boxes over the sessions of C114, the measurement of C98 and the files of C75; files by the name that stands for them | parsing of integers is characterised (parseInt_iff); induction over sessions; C75_fresh for the file |
| C150 | the loaded files of C56 and the Schmid factors of C58, the largest one as in C87 | an inequality for a vector sorted by the size of its components, carried to all signs and orders; for hexagonal crystals components in the basis of the lattice |
| C151 | the four loaders of C70 to C72 | the loading theorems of C70 and C71; for PyVale the smallest and largest steps of a raster order and the placement of C72 |
| C152 | the proxigram of C22 on the boundary sets of C08 and C09 | triangle inequality and the nearest boundary point of C22; parity of twice the coordinates for the least value |
| C153 | the formatted coefficients, as reals rounded half to even | the formatting of C65; scalar product of unit quaternions from the difference of the coefficients, bound of the cosine |
| C154 | the Schmid factors of C58 and C129, misorientation and grains of C139 | Bessel's inequality for the sum and the difference of the load directions; the nearest symmetric equivalent and C129; C139_grain |
| C155 | the strain maps of C133 | the differences of the gradient at an end and inside a line; products of entries of the gradients; triangle inequality |
| C156 | grain finding from orientations and phases as in C128 | boundaries of the part are those of the whole between its pixels; connections carried over; sizes of regions compared |
| C157 | kernel average misorientation and Nye tensor as in C62, C63 | the average of cosines as a positive linear functional, sine of the mean angle bounds the mean sine; triangle inequality of rotation angles |
| C158 | the average orientation as in C43 and C132 | sums of the quaternions with any other signs are shorter; Cauchy-Schwarz with its case of equality; spherical caps are convex |
| C159 | links between frames and warping of lines as in C33, C81 and C83 | rounding to pixel corners is exact within less than half a pixel |
| C160 | grain averages as in C20 | sums over the pixels of the grains, rearranged |
| C161 | slip traces as in C59, angles between orientations as in C154 | the spherical law of sines as an identity of the coordinates of the two normals; a witness for shallow planes |
| C162 | the directions as in C45, misorientation angles as in C139 | of all pairs of equivalent directions those in one triangle are closest: the rearrangement inequality for cubic crystals, products of sector coordinates for hexagonal ones |
| C163 | the measurement as in C98, over any ordered field | the regression of centred rows is through the origin, so the sum of squares is a parabola with its lowest point at the slope; the value at k is bounded by the errors |
| C164 | colours as in C91, misorientation angles as in C139 | the colours are continuous on the compact triangle, at its corners by the triangle inequality of angles, so uniformly continuous; directions of close orientations are close (C162) |
| C165 | links as in C78 | changing e labels moves every count by at most e; the winner is unique |
| C166 | links as in C33, points as pairs of rationals; estimation as an operation with the two properties named | an affine map is determined by three points not on one line; weights of a point are kept by affine maps |
| C167 | the linking step of flood fill (floodLink) with nearest pixels as in C137 | a pixel changes the overlap only if a border is within the distance and half a pixel; every such pixel moves the lead by at most one |
| C168 | percentiles as in C116 | a value is the k-th smallest if more than k values are at or below it; counts move by at most j |
| C169 | profiles as in C96 | samples of the reversed line are the same points; interpolation is linear in the map and Lipschitz along rows and columns |
| C170 | coarse maps as in C21 | a coarse value is the mean of the kernel values (C21); means are linear and move by at most the noise |
| C171 | histograms as in C112 | the value of a bin is the number of values in an interval (C112); intervals split and scale, and a value leaves its bin only across an edge |
| C172 | lines and groups as in C74 | invariant of the loop: each line has the number of its family, each group's rounded mean is between two angles of its family; marks of the time before are the same numbers as long as lines are only added |
| C173 | deviations as in C88 and C136 | the deviation is the misorientation to the reference (C88), which obeys the triangle inequality (C139); the average is not further from the truth than the points (C158) |
| C174 | projections as in C46, directions as in C45 and C162 | the projected points have rational or root formulas in the components (C46); the bounds for the Lambert projection need the inequality of Cauchy and that of the means; the angle between the reported directions is at most the misorientation (C162) |
| C175 | projections as in C46; the area on the sphere is the integral of the sine of the polar angle | change of variables: the projections are injective and differentiable in the polar angles, with the determinant sin a or sin a over the square of (1 + cos a) |


## What the proofs found

Properties whose plain form is false of the code. Each statement in
`properties.jsonl` names the exception, and a theorem proves it, for all inputs
of the exceptional class or by a reachable witness.

* C01, EBSD flood fill is memory-safe and terminates: On a map one pixel wide or one pixel high this fails: the fill leaves the map.
* C08, A larger misorientation tolerance never adds boundaries and never splits grains: False for regions exactly when the larger tolerance removes the last boundary between pixels side by side, or the last between pixels one above the other, although some such pixels were not separated before: then all pixels are separated in that direction.
* C25, A failed generator registration or generation leaves the store usable: If registering a generator fails because a key exists, the store is unchanged if this is the first key. This is false for a later key: the keys before it remain in the store, without data and generator, but nothing else changes. If generation returns the wrong number of values, nothing is stored.
* C27, Every listed key can be read: This is false when a store has two derivatives: keys supplied only by a later one are listed but reading them raises KeyError.
* C28, Metadata lookup falls back to the default: This is false for a store without derivatives, where an unknown key raises an unbound-variable error instead.
* C29, Reading map data applies the current crop to the original data: False for masked items if the crop was changed to another size after the mask was set: reading them is an error.
* C32, Updating homologous points changes only the addressed points: The last part is false: all points become None.
* C43, Average orientation: 'Lies close' is false otherwise: two orientations a tiny angle apart, on either side of the hemisphere border, average to a far away orientation.
* C45, Inverse pole figure direction lies in the standard triangle: For cubic crystals this is false when the sample direction is exactly a cube axis of the crystal: the result is at 90 degrees from the pole. For hexagonal crystals the azimuths may exceed the triangle by 1e-8 when some orientation of the list has its axis exactly along the sample direction; for that orientation the result is the axis. An unknown triangle raises UnboundLocalError.
* C47, Lattice matrix has the unit cell's lengths and angles: With the hkl convention this is false in general (a and b exchanged); it holds for the hexagonal cell the library uses.
* C56, Slip system data files are crystallographically consistent: This is false for cubic_bcc.txt.
* C62, Nye tensor uses both orientation gradients: This is false: the x gradient is overwritten by the y gradient, so a crystal bent along x only has zero GND density.
* C64, Rotating a map by 180 degrees: Both are false in general: orientations read before rotating stay at their pixels, after two rotations of a map whose orientations were never read each pixel has the orientation of the opposite pixel, and a map without band slope is left half rotated by an error.
* C66, CRC record layout follows the CPR field list: This is false as soon as an unknown field id is followed by another field: the remaining fields are dropped from the record.
* C69, EDAX angles and phases: The last is false for phase number 255, which wraps to 0; and with a numpy that requires as many columns as fields (1.23 on) no file can be loaded, since eight columns are asked for seven fields.
* C71, OpenPIV data is reversed on loading whatever its order: Data listed the other way should then be left alone; this is false, it is reversed too and y decreases.
* C73, Slip line angle does not depend on drawing direction: This is false for vertical lines, stored as 0 or 180 depending on the direction.
* C74, Line grouping assigns each line to an existing group with the group's mean angle: The mean is false after regrouping, where stale ids are averaged in. A group lists exactly the slip planes whose trace angle is within five degrees of its own, compared as numbers, so that 179 and 1 are far apart; grouping discards every stored RDR.
* C75, Inspector file round trip: From numpy 2 on this is false: as soon as two lines of a grain are in one group the saved file cannot be loaded (ValueError).
* C78, DIC grains are linked to the most common overlapping EBSD grain: This is false when most of its pixels carry no EBSD grain: the most common label 0 or -2 is then used as an index from the end of the EBSD grain list.
* C80, Grain image of a vector or tensor map shows the map's values: This is false for maps with components (displacement, strain): the grain's points are paired with the component rows, so all but the first few points stay at the background.
* C81, Every documented transform type links the maps: This is false for 'piecewiseAffine': the name is lowered and then not recognised, so every later use raises KeyError.
* C84, Every slip plane of a shipped file has a trace colour: True for the face-centred cubic and hexagonal files, false for both body-centred cubic files (30 planes with 12 colours, 6 planes with 4).
* C87, The Schmid factor map shows the largest chosen factor: False when directions are chosen without planes: they are ignored.
* C89, Families of hexagonal slip systems: It contains the slip system itself when its indices are in lowest terms; otherwise it is the family of the reduced indices and does not contain it.
* C91, Inverse pole figure colours: False in one case: with a cube axis exactly along the sample direction the colour is orange (1, 2/3, 0) instead of red.
* C92, Colour maps colour each phase by its own symmetry: False in two cases: a background of integers cuts off the decimals of all colours, and a phase id counted from the end colours other points.
* C93, Components of stored data are shown as chosen: False in three cases: a grain cannot be coloured by name, not even by the default of EBSD orientations; the label of a negative component has a wrong number; and DIC coordinates and displacements, whose default component is 'magnitude', cannot be plotted without naming a component.
* C94, Choosing homologous points with the mouse: False in two cases: with points set as an array saving fails and loses the selection, and a click in the left (upper) half of a pixel takes the one before.
* C95, Highlighted grains are coloured as listed: False in four cases: with fewer grains than colours the last grain gets the last colour; a grain that is the whole map is not shown; the list of colours of the caller is changed, so that a second call colours differently; without second neighbours the last neighbour is green.
* C96, Lines drawn with the mouse and profiles along them: False for a drag that starts outside of the plot: it draws a line from the start of the line before.
* C97, Filtering orientations keeps edges: False in two cases: with tolerance 0 all orientations but those at the sides are lost, and since quaternions of opposite sign are added as they are, for every tolerance up to 90 degrees there is a map with all orientations within the tolerance of each other where the filter moves one by more than that.
* C98, The measured displacement ratio is that of the slip system: False in three cases: next to the left or upper side of the map pixels of the opposite side are used, next to the right or lower side there is an error, and for negative line angles, which a correction angle gives, the pixels taken are not across the line.
* C99, The report lists every group with its own grain: False for the orientation: all rows have the Euler angles of the grain shown in the inspector.
* C100, Boundaries of the EBSD map in the DIC map: False in three cases: a DIC map that begins left of the EBSD map by more than 5 % of the number of rows gets no boundary points, and its boundary image is a boundary everywhere; in a map ten times as high as wide the last tenth of the columns gets none; a map turned by 180 degrees gets none.
* C101, Maps are found in their experiment: False for maps that cannot be loaded: they stay in the experiment without data.
* C102, The files of a map: False in four cases: a name with a dot but without extension has the part from the last dot on replaced, so that scan.1 and scan.2 read the same files; extensions in capitals are taken for binary files; dictionaries are documented but always a TypeError; for saving, the type is refused unless written exactly OxfordText.
* C103, Equivalent indices: False for the length of the indices: for hexagonal crystals common factors are divided out, for cubic ones they are kept.
* C104, Pole figures are labelled and framed correctly: False in seven cases: the first of the labels of a direction with negative last index shows the opposite indices; a line whose ends come to different sides of the equator joins an end with the opposite of the other, which is not a line equivalent to it; fundamental directions along a cube axis are outside of the cubic triangle; with the axes of 'tsl' all directions off one side are outside of the hexagonal triangle; a single marker colour is an error though documented; an invalid configured projection is an error even if a valid one is given; two colours need a marker size.
* C105, The unit cell plot shows the crystal's cell: False for hexagonal crystals if the option for the software does not match the configured convention for the axes: then no corner is at a lattice vector of the base.
* C106, Slip traces and slip bands drawn in grain plots: False in two cases: with top_only, lines at angles between 180 and 270 degrees are drawn downwards; the angles once stored are drawn again even if the reference orientation has changed since, until they are calculated again.
* C107, Layers of a map plot: False in two cases: of several colour bars clear removes only the last; the colour bar asked for with a map added to an existing plot is that of the first layer.
* C108, Drawn boundaries and the phase map: False in two cases: with exactly four boundary lines a colour is taken for values of the lines; the boundary map is drawn with white boundaries instead of black ones.
* C109, The misorientation map: False if the misorientations are already stored for all grains: these are shown as they are, even if the references have changed since.
* C110, Quaternions as values: False in four cases: the two quaternions of a half turn are not equal; products of half turns can differ with the brackets; normalise is documented to return the quaternion but returns nothing; setting the first coefficient to a negative number leaves the northern hemisphere, and then vectors are turned to the opposite of where the rotation takes them.
* C111, Slip band detection: False without data: if no point has data other than zero, the profile handed to the peak finder is nan in every direction.
* C112, Histograms: False for the documentation in three cases: with n bins asked for there are n-1; without a range, the default, every histogram is a TypeError; the documented axes type None and plot type barfilled are refused.
* C113, Merging data stores: False in five cases: a merge with priority for own items makes the two stores one from then on; items taken over are shared, so that setting them in one store sets them in both; data with the name of a method cannot be read as an attribute; hasattr of a missing name is a KeyError; a name supplied by two derivatives is listed and counted twice.
* C114, Sessions with the grain inspector: False in three cases: the constructor and every event except of the mouse end with a TypeError, because the bands are computed without their data, though the change is made and the window stays; going back from the first grain edits the last one under the number -1; a number that means no grain stays on display while the grain edited is the earlier one.
* C115, Pattern image, correlation values and scale of a DIC map: If loading fails because the file is missing or the data type is unknown, the map is as it was. False in two cases: correlation values of a wrong size raise an AssertionError but replace the earlier ones; correlation values are not cropped.
* C116, Statistics table of a DIC map: False without data: for an item without data, as the mask of a map without one, the call ends with an AttributeError after the rows before it.
* C117, Loading data into maps: False in three cases: items the second loading does not provide, as orientations and grains generated before, stay with their old values and sizes; the size of the band contrast in a dictionary is not checked; loading into a cropped DIC map keeps the crop but sets the dimensions to those of the whole data.
* C118, The window of a measured relative displacement ratio: False in two cases: the number n shown is that of pixels along the lines, not of values in the regression; without Schmid factors the window is an exception after the ratio was saved.
* C119, Maps and inverse pole figures of grain values: False in two cases: one grain given by its number, as documented, is a TypeError; a pole figure with a listed grain without orientation is an AttributeError.
* C120, Sessions of clicking on maps with pop-out windows: False in three cases: if a window was opened while the pop-out was closed its number is taken, and from then on grains clicked are shown nowhere; with grains whose drawing fails after its window is opened, as for a DIC map without linked EBSD map, every click opens another window; with a grain that cannot be drawn at all the grain is selected and the pop-out left empty.
* C121, The network of neighbours of DIC maps: False in two cases: points outside of the EBSD map count as the last grain, so that grains at the end of the EBSD map are joined to it, and it to itself; and as the package is nothing sets the boundaries that are read, and the call is an AttributeError for every DIC map.
* C122, Schmid factors and displacement ratios of all grains over histories: False in two cases: setting or calculating the orientation again keeps the factors, which then are not those of the orientation; the displacement ratios are an AttributeError at the first grain without orientation, with the grains before it done and those after it not.
* C123, Texts about slip systems: False in two cases: different slip systems with larger indices can have the same text; Schmid factors calculated for slip systems of the user are listed with the labels of those of the phase.
* C124, Calculated data of an EBSD map over histories: False in three cases: calculated data are kept when the data they come from change, so boundaries and grains do not follow filtering, rotating or another primary phase, grains do not follow new boundaries and the network does not follow new grains; calling the method that finds boundaries sets nothing, what is read is that for the default tolerance; calling the method that finds grains on a new map sets nothing either, and after the image was read it replaces the list of grains but not the image.
* C125, Links, crops and grains of a DIC map over histories: False in three cases: after another EBSD map is linked the boundaries still come from the map linked first; after the crop changes the grains stay as they were, so grain values are read at shifted points or an index error is raised; calling the method that finds grains sets nothing, what is read later is that for the default settings.
* C126, Arrows on a plot over sessions: False in three cases: once a line was drawn and the plot cleared, every later line is an exception and draws nothing, whatever else is done; the same after an arrow with a missing coordinate, which removes the arrow before; an arrow added without removing the one before leaves that one on the plot, later lines do not remove it.
* C127, The phase boundary map: False if no neighbouring pixels differ in phase: then every pixel is shown as a boundary.
* C128, Grains are regions of close orientation: False in two cases: without a boundary between pixels side by side (above each other) every grain lies in one column (row); for phases other than the primary phase the symmetry of the primary phase is used, so equivalent orientations of a cubic phase can be separated if the primary phase is hexagonal.
* C129, Equivalent orientations slip alike: False for cubic_bcc, which does not hold all systems of its families: a load along a face diagonal gives a factor above one half for one orientation and at most one half for its equivalent. False also when the Schmid factors are restricted to chosen planes: the numbers stand for other planes in the equivalent orientation.
* C130, Slip system files are read as written: A name of a file of the package always means that file, another name is a path, and if neither exists loading fails with FileNotFoundError. The texts of the shipped files give the tables used in the other properties.
* C131, Nye tensor and equivalent orientations: False from 30 degrees on: for hexagonal crystals 30 degrees apart the tensor depends on which equivalent is stored.
* C134, Grains of a turned map: If the pixels of a map are turned by half a turn and the orientations are given in a sample frame turned in any way, find_grains finds the same grains, turned by half a turn, with the same number of points; the same pixels are left without a grain or removed as too small; and it fails for the one map exactly when it fails for the other, with the same error. In particular rotate_data on a freshly loaded map does not change the grains. The numbers of the grains may differ.
* C140, An interrupted save of a CTF map is never loaded: If writing a map to a CTF file stops at any character, loading what was written fails, and never gives a map with wrong or missing pixels. The only exception is a file that lacks nothing but its last line break: it is loaded exactly like the complete file.
* C141, An interrupted save of the grain inspector loses only the last grains, silently: False: that an incomplete file is noticed; the file may end after any grain, or after any group of a grain, and is loaded without an error.
* C142, Measurement files whose end is missing: False for OpenPIV files listed the other way, which are loaded as a smaller map if they end with a line of the grid. False for PyVale files: as soon as the second line of the grid is reached they are loaded, and the missing part of the last line gets zero displacements.
* C143, What the minimum grain size changes: Finding grains fails exactly if no grain is large enough. True for the grains of EBSD maps and for those found by floodfill in DIC maps, where the boundary pixels given to a grain count and boundary pixels belonging to no grain stay the same.
* C144, Kernel average misorientation and the misorientations of the neighbours: False for equivalent orientations: a map on which all pixels have equivalent orientations can have a kernel average of 180 degrees.
* C145, How the neighbour network follows the grains: False for a grain at an edge: a grain of one column at the left edge of a map of any size has no neighbours, but in the map turned by half a turn, where it is at the right edge, it has.
* C146, A CPR file whose end is missing: False otherwise, without an error: if the list of fields is the last group and some of its last lines are missing, a field of four bytes named unknown_1 takes the place of all the missing fields; if the group of the last phase is the last one, without the line of its space group the phase has space group 0, and if the file ends within the digits of the space group, what is left of them is the space group.
* C150, How large the largest Schmid factor is: False for the upper bound with cubic_bcc, some of whose directions are not in their planes, and for positivity with hexagonal_noca: a crystal loaded along its c axis has only zero factors.
* C151, One displacement field in every file format: False for OpenPIV data listed from the smallest y: such a file loads with its rows in the opposite order.
* C153, What the text of a quaternion says: False for the converse: a unit quaternion and its negative are the same orientation and never have the same text.
* C156, The grains of a part of a map: False for the converse of the first: two points of one grain of the whole map can be in two grains of the part.
* C159, Boundary lines come back from a finer frame: False the other way: a line of the DIC map, warped to the EBSD map, can become a single point and not come back.
* C161, How well orientations determine slip traces: False for shallow planes: as close as one likes there are orientations for which the reported traces of the basal plane are 90 degrees apart.
* C162, Inverse pole figure directions of close orientations are close: False with a cube axis exactly along the direction: as close as one likes there are orientations whose reported directions are 45 degrees or more apart.
* C163, Which ratio is measured, and what noise does to it: False for errors of the displacement along y: if these have nothing to do with the slip, in that the sum of their products with the true displacement is zero, the measured ratio is k A / (A + B) in place of k, with A and B the sums of squares of the true displacement along y and of its errors; in a row of three pixels this can be k a² / (a² + 3 ε²).
* C164, Inverse pole figure colours of close orientations are close: False with a cube axis exactly along the direction: such a crystal has a colour whose green differs by more than one half from that of every other crystal close enough to it.
* C165, Links of DIC grains are as sure as the lead of their label: False the other way: the whole can be linked to an EBSD grain that neither part would be linked to.
* C166, Affine links of maps by marked points: False outside: there the error grows with the weights of the point, in proportion to the sum of their sizes.
* C172, Families of slip lines that are clearly apart: False after another line is removed: of lines of 3, 37, 80, 80, 80 and 37 degrees the first is removed, and the lines of 80 degrees are then in two groups, one of them listed at 65.67 degrees.

## What is partial



## What is modelled

By function, as cited in the comments of the model (3820 of 3981 lines of code in
functions). The names in brackets are modules under `Verif/Model`. A function is
listed as modelled if at least 85 of 100 of its lines are cited; the lines left
are progress reports, printing and plotting.

### `defdap/_accelerated.py`

Modelled: `flood_fill` (Basic, FloodFill), `flood_fill_dic` (FloodFill).

Not modelled: `find_first`.

### `defdap/base.py`

Modelled: `Map.__init__` (ClickSession, DerivedData, Linker, LoadData, MapFiles), `Map.load_data` (DerivedData), `Map.__len__` (DerivedData), `Map.__getitem__` (DerivedData, Neighbours), `Map.grains` (DerivedData, DicHistory), `Map.locate_grain` (ClickSession), `Map.click_grain_id` (ClickSession, HomogTool, Linker), `Map.draw_line_profile` (ClickSession), `Map.calc_line_profile` (ClickSession, LineTool), `Map.build_neighbour_network` (DicNetwork), `Map.click_grain_neighbours` (DicNetwork, Highlights, HomogTool, Neighbours), `Map.proxigram` (DerivedData), `Map.calc_proxigram` (DerivedData, GrainData), `Map._validate_map` (Components), `Map._validate_component` (Components), `Map._extract_component` (Components), `Map.plot_map` (Components), `Map.calc_grain_average` (GrainData), `Map.grain_data_to_map` (GrainData), `Map.grain_data_to_map_data` (GrainData), `Map.plot_grain_data_map` (GrainValues), `Map.plot_grain_data_ipf` (GrainValues), `Grain.extreme_coords` (GrainData), `Grain.centre_coords` (GrainData, Num), `Grain.grain_outline` (GrainData), `Grain.grain_data` (Components, DicHistory, GrainData), `Grain.grain_map_data` (GrainData), `Grain.grain_map_data_coarse` (GrainData), `Grain._validate_list` (Components), `Grain._validate_component` (Components), `Grain._extract_component` (Components), `Grain.plot_map` (Components).

Not modelled: `Map.x_dim`, `Map.y_dim`, `Map.crop`, `Map.mask`, `Map.set_homog_point`, `Map.plot_grain_numbers`, `Map.display_neighbours`, `Grain.__init__`, `Grain.__len__`, `Grain.__str__`, `Grain.plot_outline`, `Grain.plot_grain_data`.

### `defdap/crystal.py`

Modelled: `Phase.__init__` (Crystal, Oxford), `Phase.__str__` (LoadData), `Phase.c_over_a` (LoadData, SlipTexts), `Phase.print_slip_systems` (LoadData, SlipTexts), `SlipSystem.__init__` (Crystal), `SlipSystem.__eq__` (Crystal), `SlipSystem.__hash__` (Crystal), `SlipSystem.__str__` (SlipTexts), `SlipSystem.__repr__` (SlipTexts), `SlipSystem.slip_plane_label` (SlipTexts), `SlipSystem.slip_dir_label` (SlipTexts), `SlipSystem.generate_family` (Crystal), `SlipSystem.load` (Crystal, SlipText), `SlipSystem.group` (Crystal).

Not modelled: `CrystalStructure.__init__`, `SlipSystem.print_slip_system_directory`.

### `defdap/crystal_utils.py`

Modelled: `create_l_matrix` (CrystalUtils), `create_q_matrix` (CrystalUtils), `convert_idc` (CrystalUtils), `equavlent_indicies` (PolePlot), `project_to_orth` (CrystalUtils), `pos_idc` (CrystalUtils), `reduce_idc` (Crystal, CrystalUtils), `safe_int_cast` (CrystalUtils), `idc_to_string` (CrystalUtils), `str_idx` (CrystalUtils).

Not modelled: `check_len`.

### `defdap/ebsd.py`

Modelled: `Map.__init__` (DerivedData, EbsdMap, LoadData, MapFiles), `Map.load_data` (Datastore, LoadData, MapFiles), `Map.save` (Ctf, MapFiles), `Map.crystal_sym` (LoadData), `Map.c_over_a` (LoadData), `Map.num_phases` (LoadData), `Map.primary_phase` (LoadData), `Map.scale` (LoadData), `Map.rotate_data` (DerivedData, EbsdMap), `Map.calc_euler_colour` (IpfColour), `Map.calc_ipf_colour` (IpfColour), `Map.plot_phase_map` (MapPlot), `Map.calc_kam` (DerivedData, EbsdMap), `Map.calc_nye` (DerivedData, EbsdMap), `Map.calc_quat_array` (DerivedData, EbsdMap), `Map.filter_data` (DerivedData, Filter), `Map.find_boundaries` (Boundaries, DerivedData, MisoriGrains), `Map.build_neighbour_network` (DerivedData, Neighbours), `Map.plot_phase_boundary_map` (DerivedData, PhaseBoundaryMap), `Map.plot_boundary_map` (DerivedData, MapPlot), `Map.find_grains` (Datastore, DerivedData, FindGrains, Linker, MisOriMap, MisoriGrains, Num), `Map.calc_grain_av_oris` (MechSession, MisOriMap), `Map.calc_grain_mis_ori` (MisOriMap), `Map.plot_mis_ori_map` (MisOriMap), `Map.calc_average_grain_schmid_factors` (MechSession), `Map.calc_rdr` (MechSession), `Map.plot_average_grain_schmid_factors_map` (GrainMech, MechSession), `Grain.__init__` (GrainMech, MechSession), `Grain.crystal_sym` (GrainMech), `Grain.calc_average_ori` (GrainMech, GrainPlot, MechSession), `Grain.build_mis_ori_list` (GrainMech, MisOriMap), `Grain.calc_grod` (GrainMech), `Grain.calc_ipf_colour` (GrainMech), `Grain.calc_euler_colour` (GrainMech), `Grain.plot_ref_ori` (GrainMech), `Grain.plot_ori_spread` (GrainMech), `Grain.plot_unit_cell` (ClickSession, GrainMech), `Grain.plot_mis_ori` (GrainMech), `Grain.calc_average_schmid_factors` (GrainMech, MechSession), `Grain.calc_rdr` (GrainMech, MechSession), `Grain.slip_traces` (GrainMech, GrainPlot), `Grain.print_slip_traces` (GrainMech, SlipTexts), `Grain.calc_slip_traces` (GrainMech, GrainPlot), `BoundarySet.__init__` (Boundaries, Neighbours), `BoundarySet.from_image` (Boundaries), `BoundarySet.from_boundary_segments` (Neighbours), `BoundarySet.points` (PhaseBoundaryMap), `BoundarySet._image` (Boundaries, PhaseBoundaryMap), `BoundarySet.image_x` (Boundaries, PhaseBoundaryMap), `BoundarySet.image_y` (Boundaries, PhaseBoundaryMap), `BoundarySet.image` (PhaseBoundaryMap), `BoundarySet.lines` (PhaseBoundaryMap), `BoundarySet.boundary_points_to_lines` (Boundaries), `BoundarySegment.__init__` (Neighbours), `BoundarySegment.__eq__` (Neighbours), `BoundarySegment.__len__` (Neighbours), `BoundarySegment.addBoundaryPoint` (Neighbours), `BoundarySegment.boundary_point_pairs` (Neighbours), `BoundarySegment.boundary_point_pairs_x` (Neighbours), `BoundarySegment.boundary_point_pairs_y` (Neighbours), `BoundarySegment.boundary_lines` (Neighbours), `BoundarySegment.misorientation` (Neighbours), `Linker.__init__` (Linker), `Linker.set_origin` (Linker), `Linker.click_set_origin` (Linker), `Linker.start_linking` (Linker), `Linker.click_grain_guess` (Linker), `Linker.make_link` (Linker), `Linker.reset_links` (Linker), `Linker.set_ref_ori_from_master` (Linker, MechSession), `Linker.update_misori` (Linker).

Not modelled: `Map.plot_euler_map`, `Map.plot_ipf_map`, `Map.plot_grain_map`.

### `defdap/experiment.py`

Modelled: `Experiment.__init__` (Frames, MapFiles), `Experiment.__getitem__` (Frames, MapFiles), `Experiment.add_increment` (Frames, MapFiles), `Experiment.iter_over_maps` (Frames, MapFiles), `Experiment.link_frames` (Frames), `Experiment.get_frame_transform` (Frames, WarpPoints), `Experiment.warp_image` (LinkedGrains, WarpPoints), `Experiment.warp_lines` (Frames), `Experiment.warp_points` (WarpPoints), `Increment.__init__` (MapFiles), `Increment.add_map` (MapFiles), `Frame.__init__` (DicCrop, HomogTool), `Frame.set_homog_points` (HomogTool), `Frame.set_homog_point` (HomogTool), `Frame.homog_click` (HomogTool), `Frame.homog_key` (HomogTool), `Frame.homog_click_save` (HomogTool), `Frame.update_homog_points` (DicCrop).

### `defdap/file_readers.py`

Modelled: `EBSDDataLoader.__init__` (LoadData), `EBSDDataLoader.get_loader` (LoadData, MapFiles), `EBSDDataLoader.check_metadata` (LoadData), `EBSDDataLoader.check_data` (LoadData), `EBSDDataLoader.load` (LoadData), `OxfordTextLoader.load` (Ctf, EbsdMap, MapFiles, Text), `EdaxAngLoader.load` (Edax, MapFiles, Text), `EdaxAngLoader.parse_phase` (Edax, Text), `OxfordBinaryLoader.load` (Oxford), `OxfordBinaryLoader.load_oxford_cpr` (MapFiles, Oxford, Text), `OxfordBinaryLoader.load_oxford_crc` (EbsdMap, MapFiles, Oxford), `PythonDictLoader.load` (LoadData), `DICDataLoader.__init__` (Components, Dic), `DICDataLoader.get_loader` (Dic, MapFiles), `DICDataLoader.checkMetadata` (Dic), `DICDataLoader.check_data` (Dic), `DICDataLoader.load` (Dic), `DavisLoader.load` (Dic), `DavisLoader.load_davis_image_data` (Dic), `OpenPivTextLoader.load` (Dic), `OpenPivBinaryLoader.load` (Dic), `PyValeLoader.load` (Dic), `read_until_string` (Text).

### `defdap/file_writers.py`

Modelled: `EBSDDataWriter.__init__` (Ctf), `EBSDDataWriter.get_writer` (MapFiles), `OxfordTextWriter.write` (Ctf, MapFiles, Text).

### `defdap/hrdic.py`

Modelled: `Map.__init__` (Deformation, DicCrop, DicHistory, DicImages, LoadData, StrainMaps), `Map.load_data` (Components, Datastore, DicCrop, LoadData), `Map.load_corr_val_data` (DicImages), `Map.retrieve_name` (DicImages), `Map.set_scale` (DicImages), `Map.scale` (DicImages), `Map.print_stats_table` (StatsTable), `Map.set_crop` (DicCrop, DicHistory, DicImages), `Map.crop` (DicCrop, DicHistory), `Map.link_ebsd_map` (DicHistory, Frames), `Map.calc_mask` (Datastore, DicCrop), `Map.mask` (DicCrop), `Map.set_pattern` (DicImages), `Map.load_pattern` (DicImages), `Map.find_grains` (Datastore, DicGrains, DicHistory, LinkedGrains, Num), `Grain.ref_ori` (GrainPlot), `Grain.phase` (GrainPlot), `Grain.slip_traces` (GrainPlot), `Grain.calc_slip_traces` (GrainPlot), `Grain.calc_slip_bands` (GrainPlot, SlipBands), `BoundarySet.from_ebsd_boundaries` (Boundaries, WarpPoints), `BoundarySet._image` (DicGrains, WarpPoints), `BoundarySet.image` (DicGrains, WarpPoints).

In part: `Map.plot_grain_av_max_shear` (1 of 6 lines; DicHistory), `Grain.__init__` (5 of 9 lines; ClickSession, Inspector, InspectorFile).

Not modelled: `Map.original_shape`, `Map.crystal_sym`, `Map.check_ebsd_linked`, `Map.warp_to_dic_frame`, `Map.grain_inspector`, `BoundarySet.__init__`.

### `defdap/inspector.py`

Modelled: `GrainInspector.__init__` (InspSession, InspTexts), `GrainInspector.goto_grain` (InspSession, InspTexts, Inspector), `GrainInspector.save_line` (InspSession, InspTexts, Inspector, InspectorFile), `GrainInspector.group_lines` (InspSession, InspTexts, Inspector, InspectorFile), `GrainInspector.clear_all_lines` (InspSession, InspTexts, Inspector), `GrainInspector.remove_line` (InspSession, InspTexts, Inspector), `GrainInspector.redraw` (InspSession, InspTexts), `GrainInspector.redraw_line` (InspSession, InspTexts), `GrainInspector.run_rdr_group` (InspTexts), `GrainInspector.batch_run_sta` (Rdr), `GrainInspector.calc_rdr` (InspTexts, InspectorFile, Rdr, RdrWindow), `GrainInspector.plot_rdr` (InspTexts, RdrWindow), `GrainInspector.update_filename` (InspTexts), `GrainInspector.save_file` (InspTexts, Inspector, InspectorFile), `GrainInspector.load_file` (Inspector, InspectorFile).

### `defdap/plotting.py`

Modelled: `Plot.__init__` (ArrowSession, ClickSession, LineTool, MapPlot), `Plot.add_text_box` (InspTexts), `Plot.add_arrow` (ArrowSession, LineTool), `Plot.line_slice` (InspSession, LineTool), `Plot.exists` (ClickSession), `Plot.clear` (ArrowSession, ClickSession, MapPlot), `Plot.draw` (MapPlot), `MapPlot.__init__` (MapPlot), `MapPlot.set_empty_state` (MapPlot), `MapPlot.add_map` (MapPlot), `MapPlot.add_colour_bar` (MapPlot), `MapPlot.add_scale_bar` (MapPlot), `MapPlot.add_grain_boundaries` (MapPlot), `MapPlot.add_grain_highlights` (Highlights, MapPlot), `MapPlot.add_grain_numbers` (MapPlot), `MapPlot.add_legend` (MapPlot), `MapPlot.add_points` (HomogTool, MapPlot), `MapPlot.create` (MapPlot), `GrainPlot.add_traces` (GrainPlot), `GrainPlot.add_slip_traces` (GrainPlot), `GrainPlot.add_slip_bands` (GrainPlot), `GrainPlot.create` (ClickSession), `PolePlot.__init__` (PolePlot), `PolePlot.add_axis` (PolePlot), `PolePlot.add_line` (PolePlot), `PolePlot.label_point` (PolePlot), `PolePlot.add_points` (PolePlot), `PolePlot.add_colour_bar` (PolePlot), `PolePlot.add_legend` (PolePlot), `PolePlot._validateProjection` (PolePlot), `PolePlot.stereo_project` (Poles), `PolePlot.lambert_project` (Poles), `HistPlot.__init__` (Hist), `HistPlot.add_hist` (Hist), `HistPlot.add_legend` (Hist), `HistPlot.create` (Hist).

Not modelled: `Plot.set_empty_state`, `Plot.check_interactive`, `Plot.add_event_handler`, `Plot.add_axes`, `Plot.add_button`, `Plot.add_text`, `Plot.set_size`, `Plot.set_title`, `GrainPlot.__init__`, `GrainPlot.set_empty_state`, `GrainPlot.addMap`, `GrainPlot.add_colour_bar`, `GrainPlot.add_scale_bar`, `CrystalPlot.__init__`, `CrystalPlot.add_verts`.

### `defdap/quat.py`

Modelled: `Quat.__init__` (Quat), `Quat.from_euler_angles` (Quat), `Quat.from_axis_angle` (Quat), `Quat.euler_angles` (Quat), `Quat.rot_matrix` (Quat), `Quat.__repr__` (QuatText), `Quat.__str__` (QuatText), `Quat.__eq__` (QuatValues), `Quat.__hash__` (QuatValues), `Quat._plotIPF` (QuatValues), `Quat.__mul__` (Quat, QuatValues), `Quat.dot` (Quat, QuatValues), `Quat.__add__` (QuatValues), `Quat.__iadd__` (QuatValues), `Quat.__getitem__` (QuatValues), `Quat.__setitem__` (QuatValues), `Quat.norm` (Quat, QuatValues), `Quat.normalise` (Quat, QuatValues), `Quat.conjugate` (Quat), `Quat.transform_vector` (Quat), `Quat.mis_ori` (Quat), `Quat.mis_ori_axis` (Quat), `Quat.plot_ipf` (GrainValues), `Quat.create_many_quats` (Quat), `Quat.multiply_many_quats` (Quat), `Quat.calc_sym_eqvs` (GrainValues, Quat), `Quat.calc_average_ori` (Quat), `Quat.calcMisOri` (Quat), `Quat.polar_angles` (Poles, Quat), `Quat.calc_ipf_colours` (IpfColour), `Quat.calc_fund_dirs` (Poles), `Quat.sym_eqv` (Quat).

In part: `Quat.plot_unit_cell` (16 of 28 lines; UnitCell).

Not modelled: `Quat.extract_quat_comps`.

### `defdap/utils.py`

Modelled: `report_progress` (Progress), `Datastore.generate_id` (Datastore, StoreHeap), `Datastore.__init__` (Datastore, StoreHeap), `Datastore.__len__` (StoreHeap), `Datastore.__str__` (StoreHeap), `Datastore.__contains__` (StoreHeap), `Datastore.__getitem__` (Basic, Datastore, DerivedData, DicHistory, DicImages, EbsdMap, StoreHeap), `Datastore.__setitem__` (Datastore, DerivedData, LoadData, StoreHeap), `Datastore.__getattr__` (Datastore, StoreHeap), `Datastore.__setattr__` (Datastore, StoreHeap), `Datastore.__iter__` (Datastore, StoreHeap), `Datastore.keys` (Datastore, StoreHeap), `Datastore.lookup_derivative_keys` (Datastore, StoreHeap), `Datastore._get_derived_item` (Datastore, DicHistory, StoreHeap), `Datastore.add` (Datastore, StoreHeap), `Datastore.add_generator` (Datastore, DicHistory, StoreHeap), `Datastore.add_derivative` (Datastore, DicHistory, StoreHeap), `Datastore.generate` (Datastore, DerivedData, DicHistory, EbsdMap, StoreHeap), `Datastore.update` (Datastore, StoreHeap), `Datastore.get_metadata` (Datastore, StoreHeap).


Not modelled anywhere: drawing by matplotlib, multiprocessing, warnings,
floating point rounding, the peak finding of slip band analysis, and the
estimators and interpolation inside scikit-image warps.

## Axioms

By `#print axioms` on each theorem of the manifest:

* no axioms (1 theorems): C53_ambiguous.

* `propext` (12 theorems): C101_refused, C104_points, C107_clear, C107_create, C113_joined, C121_no_boundaries, C125_links, C125_not_linked, C125_one_map, C125_one_search, C125_other_map, C30_shape.

* `Quot.sound`, `propext` (69 theorems): C01_width_one_leaves_map, C06_views_stable, C08_splits_grains, C08_tolerance_monotone, C09_boundaries_faithful, C09_phase_boundaries, C101_iter, C113_attributes, C113_hidden, C113_length, C113_priority, C113_separate, C113_shared, C113_update, C117_dic, C117_dic_crop, C117_history, C117_phases, C117_stale, C125_direct, C130_written, C17_grain_data, C17_roundtrip, C20_paint, C20_paint_one, C23_keys, C23_last_write, C23_read, C23_reject, C24_once, C25_clash, C25_clash_leaves_keys, C25_failed, C25_first_clash, C25_generator_error, C25_wrong_count, C26_lists, C27_add_derivative, C27_counterexample, C27_first_derivative, C27_listed, C27_other_derivatives, C28_chain, C28_default, C28_derived, C28_no_derivatives, C29_history, C29_read, C29_stale_mask, C32_all_lost, C32_one_point, C33_errors, C33_forward, C33_reverse, C50_canonical, C50_defined, C50_invariant, C50_same_line, C51_overflow, C52_fails, C53_labels, C76_grains, C76_links, C76_make, C76_refound, C76_tool, C82_masked_read, C82_pixels, C82_set_mask.

* `Classical.choice`, `Quot.sound`, `propext` (680 theorems): C01_flood_fill_safe, C01_height_one_leaves_map, C02_flood_fill_region, C03_partition, C04_numbering, C05_single_phase, C06_views_disjoint, C07_failure, C08_grains_nested, C100_ebsd, C100_elongated, C100_inside, C100_lost, C100_other, C100_points, C100_turned, C101_failed, C101_history, C101_increment, C101_new, C102_bare, C102_capitals, C102_dic, C102_dict, C102_dots, C102_extension, C102_save_type, C102_saved, C102_type, C103_common_factor, C103_cubic, C103_errors, C103_hexagonal, C104_axis, C104_labels_cubic, C104_labels_hexagonal, C104_line, C104_own_label, C104_projection, C104_sym_line, C104_sym_line_false, C104_triangle_cubic, C104_triangle_hexagonal, C104_triangle_tsl, C105_cubic, C105_edges, C105_faces, C105_hexagonal, C105_option, C105_symmetric, C106_bands, C106_below, C106_dic, C106_lines, C106_no_colours, C106_planes, C106_recalculated, C106_stored, C107_bars, C107_create_existing, C107_highlights, C107_history, C107_numbers, C107_points, C108_boundary_map, C108_four_lines, C108_kind, C108_lines, C108_phase_map, C108_pixels, C109_angle, C109_axis, C109_no_phase, C109_stored, C10_empty_set_reads_back_full, C10_image_round_trip, C10_points, C10_single_crystal_has_no_grain, C110_assoc, C110_equal, C110_hash, C110_history, C110_normalise, C110_not_assoc, C110_set_item, C110_sum, C111_angles, C111_bounded, C111_nan, C111_no_data, C111_scale, C111_sign, C111_uniform, C112_bins, C112_counts, C112_density, C112_documented, C112_options, C112_reversed, C114_before_first, C114_edits, C114_fails, C114_no_grain, C114_nothing_drawn, C114_selected, C115_corr, C115_corr_kept, C115_corr_size, C115_no_pattern, C115_pattern, C115_scale, C116_index, C116_monotone, C116_no_data, C116_percentile, C116_points, C116_table, C116_unknown, C117_consistent, C117_dict, C117_dict_errors, C117_unchecked, C118_count, C118_labels, C118_line, C118_no_schmid, C118_text, C119_arguments, C119_ipf, C119_ipf_values, C119_map, C119_map_all, C119_no_orientation, C119_one_grain, C11_lines, C11_lines_one_kind, C120_emptied, C120_ignored, C120_keeps, C120_more_windows, C120_popup, C120_profile, C120_reused, C120_select, C120_taken_origin, C121_last_grain, C121_neighbours, C121_network, C122_last, C122_map, C122_map_errors, C122_rdr, C122_rdr_no_orientation, C122_schmid, C122_stale, C123_labels, C123_listing, C123_no_factors, C123_no_systems, C123_other_systems, C123_str, C123_str_ambiguous, C123_traces, C124_direct_boundaries, C124_direct_grains, C124_direct_mixed, C124_network, C124_one_search, C124_order, C124_settings, C124_stale_boundaries, C124_stale_example, C124_stale_grains, C124_stale_network, C125_crop_after, C125_crop_error, C125_values, C126_after_clear, C126_left_over, C126_missing, C126_no_error, C126_shown, C127_dilated, C127_lines, C127_map, C127_one_phase, C128_boundary, C128_found, C128_grains, C128_invariant, C128_invariant_grains, C128_no_boundary, C128_other_crystal, C129_bcc, C129_chosen, C129_largest, C129_ratios, C129_schmid, C129_traces, C12_flood_fill_dic, C130_found, C130_last_break, C130_loaded, C130_refused, C130_shipped, C131_invariant, C131_limit, C132_average, C132_order, C132_turned, C133_moved, C133_rigid, C133_scaled, C133_shear, C134_rotated, C134_turned, C135_about, C135_colours, C135_half, C135_traces, C136_grod, C136_list, C136_reference, C136_turned, C136_turned_mean, C137_linked, C137_nothing, C137_same, C138_misorientation, C138_saved, C138_stable, C139_grain, C139_largest, C139_reference, C139_symmetric, C139_triangle, C139_zero, C13_failure, C13_no_boundaries_fails, C13_numbering, C13_partition, C140_cut, C140_last_break, C141_cut, C141_unnoticed, C142_crc, C142_davis, C142_edax, C142_openpiv, C142_openpiv_up, C142_pyvale, C143_dic, C143_ebsd, C144_at_most, C144_equivalents, C144_isolated, C144_turned, C145_min_size, C145_turned, C145_turned_false, C146_cut, C146_digits, C146_fields, C146_needed, C146_space, C147_order, C147_values, C148_bound, C148_step, C149_name, C149_number, C149_other, C149_saved, C149_session, C14_grains, C14_relabel, C150_bcc, C150_cubic, C150_cubic_least, C150_half, C150_noca, C150_withca, C151_columns, C151_pyvale, C151_same, C152_beside, C152_least, C152_more, C152_none, C152_smooth, C152_tolerance, C153_read, C153_same, C153_sign, C154_average, C154_factor, C154_grain, C154_largest, C154_misori, C155_local, C155_noise, C155_part, C155_step, C155_strain, C156_boundaries, C156_kept, C156_split, C156_within, C157_floor, C157_gnd, C157_gnd_part, C157_kam, C157_kam_part, C158_best, C158_error, C159_back, C159_length, C159_linked, C159_lost, C159_outline, C15_missing, C15_network, C15_order, C160_balance, C160_follow, C160_linear, C160_parts, C161_inclination, C161_lost, C161_steep, C161_trace, C162_cube_axis, C162_cubic, C162_hexagonal, C163_best, C163_dilution, C163_dilution_row, C163_noise, C164_cube_axis, C164_cubic, C164_hexagonal, C165_changed, C165_finer, C165_half, C165_order, C165_parts, C165_sharp, C165_whole, C166_error, C166_exact, C166_outside, C166_third_frame, C167_link, C167_marks, C167_warp, C168_larger, C168_noise, C168_units, C168_wrong, C169_noise, C169_other_way, C169_steep, C169_units, C16_from_segments, C16_pairs, C16_points, C170_large, C170_noise, C170_units, C171_finer, C171_joined, C171_noise, C171_order, C171_units, C172_families, C172_kept, C172_nearest, C172_order, C172_removed, C173_given, C173_mean, C173_uniform, C174_circles, C174_cubic, C174_hexagonal, C174_lambert, C174_stereo, C175_bounds, C175_directions, C175_lambert, C175_stereo, C17_image, C17_outline, C18_bounding_box, C19_box_centre, C19_com_centre, C19_other, C20_average, C20_paint_all, C20_paint_average, C21_coarse_bounds, C21_coarse_mean, C22_order_and_batch, C22_proxigram, C22_zero_batch, C24_first_read, C24_generate_stores, C26_reset, C26_terminates, C29_pixels, C30_crop, C31_points_fixed, C32_all_points, C34_compose, C34_conjugate, C34_product, C35_isometry, C35_sign, C36_agrees, C36_rotation, C37_many, C37_range, C37_roundtrip, C37_unit, C38_axis, C38_reverse, C38_rodrigues, C38_scale, C38_unit, C39_cube, C39_group, C39_prism, C40_angle, C40_range, C40_same_as_boundaries, C40_symmetric, C40_variants, C41_variant, C42_table, C43_close, C43_copies, C43_not_close, C43_unit, C44_list, C45_cube_axis, C45_cubic, C45_hexagonal, C45_hexagonal_axis, C45_unknown_triangle, C46_arguments, C46_disc, C46_injective, C46_lambert, C46_lambert_radius, C46_scale, C46_stereo, C47_hexagonal, C47_hkl_equal_edges, C47_hkl_false, C47_tsl, C47_unknown, C48_dual, C48_left_handed, C48_project, C49_dir_roundtrip, C49_dir_roundtrip4, C49_errors, C49_overflow, C49_plane_roundtrip, C49_plane_roundtrip4, C49_zone, C51_lowest_exists, C51_parallel, C51_reduced, C51_small, C52_overflow, C52_succeeds, C52_value, C53_text, C54_equal, C54_equivalence, C54_hash, C55_defined, C55_partition, C56_bcc, C56_consistent, C57_family, C57_same, C58_exceeds, C58_range, C58_rotation, C58_signs, C58_value, C59_groups, C59_inclination, C59_sign, C59_trace, C60_affine, C60_between, C60_quadratic, C60_small, C60_translation, C61_axes, C61_green, C61_largest, C61_nonneg, C61_objective, C61_rigid, C61_symmetric, C62_bent, C62_border, C62_not_both, C62_tensor, C62_value, C62_x_ignored, C62_zero, C63_range, C63_rotated, C63_small, C63_uniform, C63_value, C63_zero, C64_accessed, C64_failed, C64_fresh, C64_history, C64_read, C64_twice_accessed, C64_twice_fresh, C65_acquisition, C65_existing, C65_lattice, C65_no_phases, C65_round_trip, C66_layout, C66_unknown_followed, C66_unknown_last, C66_unknown_silent, C67_no_heading, C67_parse, C67_repeated, C68_next, C68_read, C69_data, C69_file, C69_refused, C69_strict, C69_symmetry, C69_zero, C70_accept, C70_array_shape, C70_davis, C70_sound, C70_thin, C71_ascending, C71_binary, C71_descending, C71_reversed, C72_off_grid, C72_placed, C72_windows, C73_direction, C73_range, C73_symmetric, C73_vertical, C74_groups, C74_history, C74_mean, C74_planes, C74_rdr, C74_stale_added, C74_stale_removed, C74_wrap, C75_doubled, C75_fresh, C75_numpy2, C75_round_trip, C75_shared_group, C75_too_small, C76_reference, C77_finished, C77_other, C77_percents, C77_transparent, C78_link, C78_wrong_grain, C79_highlight, C80_scalar_image, C80_vector_image, C81_known_types, C81_piecewise_affine, C82_dilation, C82_read_pixels, C83_warp_lines, C84_bcc, C84_colours, C85_phase, C85_single_row, C86_rdr, C86_sign, C87_directions_ignored, C87_maximum, C87_range, C88_axis, C88_grod, C88_list, C88_reference, C89_family, C89_not_reduced, C89_reduced, C89_same, C90_cubic, C90_hexagonal, C91_cube_axis, C91_cubic_corners, C91_cubic_variants, C91_hexagonal_axis, C91_hexagonal_corners, C91_hexagonal_variants, C91_range, C91_sides, C92_black, C92_euler, C92_integer_background, C92_invalid_id, C92_ipf, C92_negative_id, C93_component, C93_default, C93_grain, C93_grain_colours, C93_int, C93_ipf_names, C93_label, C93_magnitude, C93_names, C93_negative, C93_negative_label, C93_norm, C93_params, C93_refused, C94_append_only, C94_array, C94_close, C94_grain, C94_pixel, C94_saved, C94_selected, C95_colours_changed, C95_default, C95_fewer, C95_highlight, C95_neighbour_colours, C95_neighbours, C95_no_second, C95_whole_map, C96_line, C96_lines, C96_profile, C96_row, C96_stale, C96_values, C97_border, C97_choice, C97_edges, C97_signs, C97_small, C97_tolerance, C97_zero, C98_exact, C98_left_edge, C98_measured, C98_negative, C98_refused, C98_right_edge, C98_saved, C98_shift, C98_theory, C99_orientations, C99_report.

