{
 "claims": [
  {
   "property": "C01",
   "status": "proved",
   "theorems": [
    "CP.C01_hashset_is_map"
   ],
   "note": ""
  },
  {
   "property": "C02",
   "status": "proved",
   "theorems": [
    "CP.C02_count_each"
   ],
   "note": ""
  },
  {
   "property": "C03",
   "status": "proved",
   "theorems": [
    "CP.C03_growth"
   ],
   "note": ""
  },
  {
   "property": "C04",
   "status": "proved",
   "theorems": [
    "CP.C04_handlers",
    "CP.C04_stable",
    "CP.C04_shapes_order"
   ],
   "note": ""
  },
  {
   "property": "C05",
   "status": "proved",
   "theorems": [
    "CP.C05_symm",
    "CP.C05_reject",
    "CP.C05_group",
    "CP.C05_all_none"
   ],
   "note": ""
  },
  {
   "property": "C06",
   "status": "proved",
   "theorems": [
    "CP.C06_query",
    "CP.C06_no_miss"
   ],
   "note": ""
  },
  {
   "property": "C07",
   "status": "proved",
   "theorems": [
    "CP.C07_contains",
    "CP.C07_each",
    "CP.C07_leaves",
    "CP.C07_no_panic"
   ],
   "note": ""
  },
  {
   "property": "C08",
   "status": "proved",
   "theorems": [
    "CP.C08_reindexQuery",
    "CP.C08_fits",
    "CP.C08_overlap_once"
   ],
   "note": ""
  },
  {
   "property": "C09",
   "status": "proved",
   "theorems": [
    "CP.C09_first",
    "CP.C09_first_real",
    "CP.C09_all",
    "CP.C09_radius_violated",
    "CP.C09_radius_hit"
   ],
   "note": "Whole claim for the thin segment, every history; the failure with a radius is C09_radius_violated with C09_radius_hit."
  },
  {
   "property": "C10",
   "status": "proved",
   "theorems": [
    "CP.C10_segmentQuery",
    "CP.C10_intersectsSegment",
    "CP.C10_inverted_box_differs"
   ],
   "note": ""
  },
  {
   "property": "C11",
   "status": "proved",
   "theorems": [
    "CP.C11_containsVect",
    "CP.C11_contains",
    "CP.C11_intersects",
    "CP.C11_merge",
    "CP.C11_expand",
    "CP.C11_mergedArea",
    "CP.C11_clampVect",
    "CP.C11_transformBB_sound",
    "CP.C11_transformBB_least"
   ],
   "note": ""
  },
  {
   "property": "C12",
   "status": "proved",
   "theorems": [
    "CP.C12_mult_point",
    "CP.C12_mult_vect",
    "CP.C12_mult_assoc",
    "CP.C12_identity",
    "CP.C12_inverse",
    "CP.C12_rigidInverse",
    "CP.C12_rigid_isometry",
    "CP.C12_constructors",
    "CP.C12_wrap",
    "CP.C12_ortho",
    "CP.C12_boneScale",
    "CP.C12_axialScale"
   ],
   "note": ""
  },
  {
   "property": "C13",
   "status": "proved",
   "theorems": [
    "CP.C13_rigid",
    "CP.C13_rotation",
    "CP.C13_roundtrip",
    "CP.C13_setPosition",
    "CP.C13_setAngle",
    "CP.C13_mass_changes_do_not_move",
    "CP.C13_integrate",
    "CP.C13_velocity_at_point"
   ],
   "note": ""
  },
  {
   "property": "C14",
   "status": "proved",
   "theorems": [
    "CP.C14_accumulate",
    "CP.C14_order",
    "CP.C14_remove_add"
   ],
   "note": ""
  },
  {
   "property": "C15",
   "status": "proved",
   "theorems": [
    "CP.C15_linear",
    "CP.C15_angular",
    "CP.C15_step"
   ],
   "note": ""
  },
  {
   "property": "C16",
   "status": "proved",
   "theorems": [
    "CP.C16_immovable",
    "CP.C16_type_immovable",
    "CP.C16_setMass_unfixes_static"
   ],
   "note": ""
  },
  {
   "property": "C17",
   "status": "proved",
   "theorems": [
    "CP.C17_push",
    "CP.C17_cone",
    "CP.C17_friction"
   ],
   "note": ""
  },
  {
   "property": "C18",
   "status": "proved",
   "theorems": [
    "CP.C18_maxForce_apply",
    "CP.C18_maxForce",
    "CP.C18_maxBias",
    "CP.C18_slide_direction",
    "CP.C18_rotary_direction",
    "CP.C18_slide_degenerate"
   ],
   "note": ""
  },
  {
   "property": "C19",
   "status": "proved",
   "theorems": [
    "CP.C19_pin",
    "CP.C19_spring",
    "CP.C19_spring_coef",
    "CP.C19_pivot",
    "CP.C19_gear",
    "CP.C19_motor",
    "CP.C19_rotaryLimit",
    "CP.C19_rotarySpring",
    "CP.C19_contact"
   ],
   "note": ""
  },
  {
   "property": "C20",
   "status": "proved",
   "theorems": [
    "CP.C20_lists",
    "CP.C20_components",
    "CP.C20_each_body",
    "CP.C20_history",
    "CP.C20_setType_asleep_violated"
   ],
   "note": "For every reachable state of every allowed history; the SetType violation is C20_setType_asleep_violated."
  },
  {
   "property": "C21",
   "status": "proved",
   "theorems": [
    "CP.C21_exact",
    "CP.C21_count",
    "CP.C21_all_awake_iff",
    "CP.C21_violated"
   ],
   "note": "Exact: which components stay asleep, for any number; the intended claim is refuted in a reachable state (C21_violated)."
  },
  {
   "property": "C22",
   "status": "proved",
   "theorems": [
    "CP.C22_no_panic",
    "CP.C22_exactly_once",
    "CP.C22_when",
    "CP.C22_keys",
    "CP.C22_inside_lost"
   ],
   "note": ""
  },
  {
   "property": "C23",
   "status": "proved",
   "theorems": [
    "CP.C23_new",
    "CP.C23_state",
    "CP.C23_step",
    "CP.C23_step_zero",
    "CP.C23_remove",
    "CP.C23_quiet",
    "CP.C23_begin",
    "CP.C23_preSolve",
    "CP.C23_separate",
    "CP.C23_postSolve",
    "CP.C23_protocol",
    "CP.C23_in_space",
    "CP.C23_touching",
    "CP.C23_apart"
   ],
   "note": "C23_step/C23_remove/C23_quiet: exact callbacks and next state of every pair in every operation of every history (automaton PairSt in Spec/Events); C23_begin/preSolve/postSolve/separate are its readings. The exact step theorems assume that Separate/PostSolve callbacks and functions after the collision phase wake nobody; C23_protocol, C23_touching, C23_in_space, C23_remove do not."
  },
  {
   "property": "C24",
   "status": "proved",
   "theorems": [
    "CP.C24_capacity",
    "CP.C24_disjoint",
    "CP.C24_handout",
    "CP.C24_reuse",
    "CP.C24_window",
    "CP.C24_calm",
    "CP.C24_calm_awake",
    "CP.C24_read",
    "CP.C24_violated"
   ],
   "note": "All moments of all histories: capacity, disjointness of contacts of arbiters of age <= 3, places handed out, reuse exactly of buffers older than 3 steps; C24_calm/C24_read: contacts read are intact as long as resting bodies are roused by collisions only; C24_violated: a program that wakes bodies that fell asleep just after separating reads recycled contacts."
  },
  {
   "property": "C25",
   "status": "proved",
   "theorems": [
    "CP.C25_sleep_iff",
    "CP.C25_component",
    "CP.C25_closed"
   ],
   "note": "Step level, for steps whose Separate/PostSolve callbacks wake nobody (waking undoes the sleep decision)."
  },
  {
   "property": "C26",
   "status": "proved",
   "theorems": [
    "CP.C26_body",
    "CP.C26_order",
    "CP.C26_space",
    "CP.C26_setType_static_loses_joint"
   ],
   "note": ""
  },
  {
   "property": "C27",
   "status": "proved",
   "theorems": [
    "CP.C27_reachable",
    "CP.C27_history",
    "CP.C27_unthread_absent",
    "CP.C27_threshold_off_cycle"
   ],
   "note": ""
  },
  {
   "property": "C28",
   "status": "proved",
   "theorems": [
    "CP.C28_loopIndexes",
    "CP.C28_hull",
    "CP.C28_strict",
    "CP.C28_strict_violated",
    "CP.C28_newPolyShape"
   ],
   "note": "In-place quickhull modelled on the array with offsets; refinement to an inductive chain relation, geometry over the reals. C28_strict_violated shows that strict convexity fails for collinear points."
  },
  {
   "property": "C29",
   "status": "proved",
   "theorems": [
    "CP.C29_body_rigid",
    "CP.C29_circle",
    "CP.C29_segment",
    "CP.C29_poly",
    "CP.C29_poly_new"
   ],
   "note": "Rigid transforms (C29_body_rigid: those of all bodies), radius >= 0."
  },
  {
   "property": "C30",
   "status": "proved",
   "theorems": [
    "CP.C30_poly_world",
    "CP.C30_poly",
    "CP.C30_signed_circle",
    "CP.C30_signed_segment",
    "CP.C30_signed_poly",
    "CP.C30_placed",
    "CP.C30_circle_world",
    "CP.C30_segment_world",
    "CP.C30_circle",
    "CP.C30_circle_centre",
    "CP.C30_closest",
    "CP.C30_segment",
    "CP.C30_segment_core",
    "CP.C30_gradient_circle",
    "CP.C30_gradient_segment"
   ],
   "note": "Exact arithmetic. At the excepted points (circle centre, segment core, polygon boundary) the distance is right too (C30_signed_*)."
  },
  {
   "property": "C31",
   "status": "proved",
   "theorems": [
    "CP.C31_no_panic",
    "CP.C31_members",
    "CP.C31_query",
    "CP.C31_pairs",
    "CP.C31_complete",
    "CP.C31_pairs_complete",
    "CP.C31_reindex_violated",
    "CP.C31_nested_violated",
    "CP.C31_nested_pair_violated"
   ],
   "note": "Exact characterisation for any number type (C31_query, C31_pairs: reported iff a bucket is shared), over all histories including handle recycling; completeness for intersecting boxes over the reals (C31_complete, C31_pairs_complete); panics exactly at 1610612740 stored shapes (C31_no_panic). Reindex and nested queries violate the property (C31_reindex_violated, C31_nested_violated, C31_nested_pair_violated). float-to-int overflow excluded."
  },
  {
   "property": "C32",
   "status": "proved",
   "theorems": [
    "CP.C32_count",
    "CP.C32_circles",
    "CP.C32_circle_segment",
    "CP.C32_swapped_distance",
    "CP.C32_mirror_circles",
    "CP.C32_mirror_concentric_violated",
    "CP.C32_contacts_in_shapes",
    "CP.C32_penetrating",
    "CP.C32_circle_poly_violated",
    "CP.C32_swapped_violated"
   ],
   "note": "Circle-circle and circle-segment (no neighbour tangents, different ends) exactly; count/no panic for every arithmetic with the sign laws; contacts in the shapes for all pairs over the reals; the three violations are proved with witnesses."
  },
  {
   "property": "C33",
   "status": "proved",
   "theorems": [
    "CP.C33_terminates",
    "CP.C33_points",
    "CP.C33_sound",
    "CP.C33_no_miss",
    "CP.C33_no_ghost",
    "CP.C33_collinear_violated"
   ],
   "note": "GJK and EPA modelled call by call incl. cached ids and the swap step; the stop reason is a ghost result. Termination for every arithmetic with the sign laws, soundness over the reals for polygons of at most 256 vertices. C33_collinear_violated is the exception at d = 0."
  },
  {
   "property": "C34",
   "status": "proved",
   "theorems": [
    "CP.C34_collect",
    "CP.C34_all",
    "CP.C34_closed",
    "CP.C34_closed_touching"
   ],
   "note": "Every set of lines and every sequence of segments, any ordered scalar type; C34_closed for simple contours."
  },
  {
   "property": "C35",
   "status": "proved",
   "theorems": [
    "CP.C35_samples",
    "CP.C35_cells",
    "CP.C35_balance",
    "CP.C35_surrounded",
    "CP.C35_grid",
    "CP.C35_points_differ",
    "CP.C35_balance_inside",
    "CP.C35_closed_hard",
    "CP.C35_closed_soft"
   ],
   "note": "Sampling and balance for any ordered scalar type (no rounding assumption), any sample function, also an impure one; closed lines in exact arithmetic."
  },
  {
   "property": "C36",
   "status": "proved",
   "theorems": [
    "CP.C36_open",
    "CP.C36_closed",
    "CP.C36_distance",
    "CP.C36_never_farther",
    "CP.C36_returns",
    "CP.C36_near_ends_panics",
    "CP.C36_left_out_far_violated",
    "CP.C36_vertexes",
    "CP.C36_vertexes_sharp",
    "CP.C36_vertexes_closed_violated"
   ],
   "note": "Exact arithmetic for the distances; panics and SimplifyVertexes for any ordered scalar type. Violations: C36_near_ends_panics, C36_left_out_far_violated, C36_vertexes_closed_violated."
  },
  {
   "property": "C37",
   "status": "proved",
   "theorems": [
    "CP.C37_area_translate",
    "CP.C37_centroid_translate",
    "CP.C37_moment_translate",
    "CP.C37_moment_two_violated",
    "CP.C37_parallel_axis",
    "CP.C37_area_start",
    "CP.C37_centroid_start",
    "CP.C37_moment_start",
    "CP.C37_area_cut",
    "CP.C37_centroid_cut",
    "CP.C37_moment_cut",
    "CP.C37_area_reversed",
    "CP.C37_centroid_reversed",
    "CP.C37_moment_reversed",
    "CP.C37_box_area",
    "CP.C37_box_centroid",
    "CP.C37_box_moment",
    "CP.C37_box_moment_centred",
    "CP.C37_triangle_centroid",
    "CP.C37_triangle_moment"
   ],
   "note": "Exact arithmetic; MomentForPoly with two vertices ignores the offset (C37_moment_two_violated)."
  },
  {
   "property": "C38",
   "status": "proved",
   "theorems": [
    "CP.C38_unlocked",
    "CP.C38_balanced",
    "CP.C38_deferred"
   ],
   "note": ""
  },
  {
   "property": "C39",
   "status": "proved",
   "theorems": [
    "CP.C39_calls",
    "CP.C39_result",
    "CP.C39_sensor_violated",
    "CP.C39_circles",
    "CP.C39_moved"
   ],
   "note": "Index level for every arithmetic and history (C39_calls, C39_result), the violation C39_sensor_violated, geometry for circles (C39_circles); for other classes overlap means what ShapesCollide reports (C32, C33). C39_moved: the box of the given shape is updated first, so no overlap is lost through the boxes."
  },
  {
   "property": "C40",
   "status": "proved",
   "theorems": [
    "CP.C40_any",
    "CP.C40_nearest"
   ],
   "note": "C40_any: every arithmetic; C40_nearest: circles, segments and strictly convex polygons in exact arithmetic."
  },
  {
   "property": "C41",
   "status": "proved",
   "theorems": [
    "CP.C41_clamp_range",
    "CP.C41_clamp_nearest",
    "CP.C41_clamp01",
    "CP.C41_lerpConst",
    "CP.C41_lerp",
    "CP.C41_normalize",
    "CP.C41_clampLen",
    "CP.C41_vec_lerpConst"
   ],
   "note": ""
  },
  {
   "property": "C42",
   "status": "proved",
   "theorems": [
    "CP.C42_no_panic",
    "CP.C42_lists",
    "CP.C42_pool",
    "CP.C42_mark",
    "CP.C42_broadphase"
   ],
   "note": "Pointer-level memory (threads, heads, pool, allocation in blocks of 1024), every history of PairInsert/PairsClear/marking loop; C42_broadphase: the pairs of the modelled broad phase (C08) always come from such a history."
  },
  {
   "property": "C43",
   "status": "proved",
   "theorems": [
    "CP.C43_joint",
    "CP.C43_getImpulse",
    "CP.C43_rotarySpring_wrong",
    "CP.C43_contact"
   ],
   "note": ""
  },
  {
   "property": "C44",
   "status": "proved",
   "theorems": [
    "CP.C44_no_panic",
    "CP.C44_effect",
    "CP.C44_wake_in_begin_hangs"
   ],
   "note": "Preconditions are Op.Allowed in Spec/History.lean; that they are needed is shown in Props/SpaceFindings.lean."
  },
  {
   "property": "C45",
   "status": "proved",
   "theorems": [
    "CP.C45_segment",
    "CP.C45_segment_thin",
    "CP.C45_segment_collinear_violated",
    "CP.C45_poly",
    "CP.C45_poly_round",
    "CP.C45_circle",
    "CP.C45_start_inside_point",
    "CP.C45_segment_violated"
   ],
   "note": "Exact arithmetic. Circles: C45_circle; sharp polygons: C45_poly; rounded ones with normals of length exactly 1 (Normalize's 1e-15 left out): C45_poly_round; segment shapes: C45_segment, C45_segment_thin; where it fails: C45_segment_violated, C45_segment_collinear_violated."
  },
  {
   "property": "C46",
   "status": "proved",
   "theorems": [
    "CP.C46_bbQuery"
   ],
   "note": ""
  },
  {
   "property": "C47",
   "status": "proved",
   "theorems": [
    "CP.C47_poly_area",
    "CP.C47_poly_centroid",
    "CP.C47_poly_moment",
    "CP.C47_segment_area",
    "CP.C47_circle_area",
    "CP.C47_circle_moment",
    "CP.C47_box2_moment",
    "CP.C47_box_moment",
    "CP.C47_segment_moment",
    "CP.C47_rod_moment"
   ],
   "note": "Lebesgue integrals over the plane (Mathlib). Polygons: fan of triangles by induction; rounded border: additivity of rounding over cuts. Polygons that are not convex: C37_*_cut. The radius is not part of MomentForPoly and CentroidForPoly, as in the code."
  },
  {
   "property": "C48",
   "status": "proved",
   "theorems": [
    "CP.C48_sided",
    "CP.C48_setEndpoints_violated",
    "CP.C48_end_to_end_violated",
    "CP.C48_found",
    "CP.C48_over",
    "CP.C48_ids"
   ],
   "note": "Found/over: for the regular answers of GJK (see C33); neighbours (SetNeighbors) not set; corners flatter than about 1e-15 excluded; the slack is explicit (slopes of the facing sides). For overlapping cores EPA's hull may lose convexity, so that the closest points lie over each other is a hypothesis there (Regular)."
  },
  {
   "property": "C49",
   "status": "proved",
   "theorems": [
    "CP.C49_wakes",
    "CP.C49_awake_iff",
    "CP.C49_no_sleep",
    "CP.C49_setType",
    "CP.C49_step",
    "CP.C49_step_idle"
   ],
   "note": "C49_wakes is exact (awake, asleep, restart, idle) for every operation except SetGravity (C21), SetType (C49_setType) and Step. C49_step is exact for sleep and for woken bodies. C49_step_idle: neighbours of activated bodies may or may not be reset, depending on the order of the arbiters, so that clause is one-sided. Separate and PostSolve callbacks that wake bodies are excluded in C49_step and C49_wakes(removeShape)."
  },
  {
   "property": "C50",
   "status": "proved",
   "theorems": [
    "CP.C50_newton",
    "CP.C50_spin",
    "CP.C50_fall",
    "CP.C50_damped",
    "CP.C50_alone",
    "CP.C50_free",
    "CP.C50_kinematic",
    "CP.C50_static"
   ],
   "note": "Over \u211d. The collision phase and sleeping enter as arbitrary data per step (which arbiters with which contacts, which bodies are in dynamicBodies), so the theorems hold for every outcome of them that keeps the group isolated and awake. Default velocity and position functions. Angular momentum with penetrating contacts is not claimed: position correction moves bodies with bias velocities, which changes the orbital part."
  },
  {
   "property": "C51",
   "status": "proved",
   "theorems": [
    "CP.C51_dispatch",
    "CP.C51_own",
    "CP.C51_wild",
    "CP.C51_silent",
    "CP.C51_userdata_violated",
    "CP.C51_wildcard_loop"
   ],
   "note": "C51_dispatch: for every proper history the calls of user functions are exactly those of the specification `expected` (Spec/Dispatch), for any behaviour of the functions incl. their CallWildcard calls; C51_own, C51_wild, C51_silent spell the cases out; C51_userdata_violated and C51_wildcard_loop are the violations. User functions that change handlers while running, and functions of wildcard handlers that call CallWildcard themselves, are not covered."
  },
  {
   "property": "C52",
   "status": "proved",
   "theorems": [
    "CP.C52_carry",
    "CP.C52_carry_unique",
    "CP.C52_shown",
    "CP.C52_mirror",
    "CP.C52_distance",
    "CP.C52_apart",
    "CP.C52_set_get",
    "CP.C52_get_set",
    "CP.C52_set_count",
    "CP.C52_sticky"
   ],
   "note": "C52_carry/C52_carry_unique (any rounding), C52_shown, C52_mirror, C52_distance, C52_apart, C52_set_get, C52_get_set, C52_set_count (exact arithmetic); C52_sticky is the violation. That TotalImpulse is the impulse given is C43_contact."
  },
  {
   "property": "C53",
   "status": "proved",
   "theorems": [
    "CP.C53_no_panic",
    "CP.C53_step",
    "CP.C53_only",
    "CP.C53_all",
    "CP.C53_fits",
    "CP.C53_touching",
    "CP.C53_apart",
    "CP.C53_circles"
   ],
   "note": "C53_only and C53_all: exactly the pairs of Scene.MustTest, each once; C53_step: the rest of the step is the bookkeeping of C20-C28 on exactly these; C53_no_panic; C53_touching/C53_apart/C53_circles: end to end. Static and sleeping shapes must be within their indexed boxes (Fits; C53_fits says which operations make it so). The index calls inside one operation are modelled as removals followed by insertions (arbitrary re-insertions allowed); position functions and Begin/PreSolve callbacks wake no sleeping body; fewer than 1610612739 shapes."
  },
  {
   "property": "C54",
   "status": "proved",
   "theorems": [
    "CP.C54_fall",
    "CP.C54_rest",
    "CP.C54_contacts",
    "CP.C54_new_pin",
    "CP.C54_new_pivot",
    "CP.C54_new_pivot2",
    "CP.C54_new_slide",
    "CP.C54_new_groove",
    "CP.C54_new_spring",
    "CP.C54_new_rotary_spring",
    "CP.C54_new_gear",
    "CP.C54_new_ratchet",
    "CP.C54_new_limit",
    "CP.C54_new_motor",
    "CP.C54_groove_off"
   ],
   "note": "C54_fall, C54_rest: whole runs; C54_contacts: no impulse in the contacts; C54_new_*: which new joints rest; C54_groove_off: the exception. Exact arithmetic; default position and velocity functions; contacts are data given for each step with no stored impulse (C52 says what contacts inherit, C53 which pairs are tested)."
  },
  {
   "property": "C55",
   "status": "proved",
   "theorems": [
    "CP.C55_ray",
    "CP.C55_first",
    "CP.C55_all",
    "CP.C55_switch",
    "CP.C55_line_violated"
   ],
   "note": "C55_ray (one index, any callback), C55_first, C55_all, C55_switch; exact arithmetic for the walk (C55_switch for any number type). The segment must start well (LeavesWell; C55_line_violated shows what happens otherwise). As with the tree, a query with a radius prunes with the thin segment. Callbacks make no queries of the same index (C31_nested_violated)."
  },
  {
   "property": "C56",
   "status": "proved",
   "theorems": [
    "CP.C56_refines",
    "CP.C56_no_panic",
    "CP.C56_query",
    "CP.C56_each",
    "CP.C56_reindexQuery",
    "CP.C56_first",
    "CP.C56_places",
    "CP.C56_links",
    "CP.C56_leaf",
    "CP.C56_size",
    "CP.C56_no_leak",
    "CP.C56_histories"
   ],
   "note": "C56_refines (all answers equal those of the abstract trees of C06-C09 for the same history), C56_query, C56_each, C56_reindexQuery, C56_first, C56_no_panic; memory: C56_places, C56_links, C56_leaf, C56_size, C56_no_leak; C56_histories: the legal histories are the same. Pair records are those of Model/PairHeap, here with the leaf given by its node."
  },
  {
   "property": "C57",
   "status": "proved",
   "theorems": [
    "CP.C57_leftover_free",
    "CP.C57_leftover_shrinks",
    "CP.C57_gear",
    "CP.C57_motor",
    "CP.C57_limit",
    "CP.C57_ratchet",
    "CP.C57_pivot",
    "CP.C57_pin",
    "CP.C57_slide",
    "CP.C57_leftover_vanishes",
    "CP.C57_gear_steps",
    "CP.C57_motor_steps"
   ],
   "note": "One step: C57_gear, C57_motor, C57_limit, C57_ratchet, C57_pivot, C57_pin; one ApplyImpulse: C57_slide; what leftover means: C57_leftover_free, C57_leftover_shrinks, C57_leftover_vanishes; many steps: C57_gear_steps, C57_motor_steps. Groove joints and springs are not covered here (C19, C54). Real arithmetic."
  },
  {
   "property": "C58",
   "status": "proved",
   "theorems": [
    "CP.C58_push",
    "CP.C58_exact",
    "CP.C58_idle",
    "CP.C58_velocities",
    "CP.C58_step",
    "CP.C58_circles",
    "CP.C58_settle"
   ],
   "note": "C58_push (at least), C58_exact, C58_idle (not more), C58_velocities (no energy), C58_step, C58_circles (overlap from step to step), C58_settle (many steps). Contacts are data given for each step (C52 says how arbiters get them, C53 which pairs are tested); in C58_circles and C58_settle they are what CircleToCircle finds. Only the last contact of a manifold is bounded from below by C58_push; earlier contacts of the same pass can be overruled by later ones. Real arithmetic, default position and velocity functions. Bodies with infinite mass and moment (floors, walls) may touch and join anything, also in C58_exact."
  },
  {
   "property": "C59",
   "status": "proved",
   "theorems": [
    "CP.C59_work",
    "CP.C59_contact",
    "CP.C59_passes",
    "CP.C59_step",
    "CP.C59_dissipates",
    "CP.C59_friction_violated",
    "CP.C59_groove_violated"
   ],
   "note": "C59_work (one impulse), C59_contact (one pass at one contact, with friction), C59_passes (each further iteration), C59_step (against free fall), C59_dissipates (no gravity). Exact failures: C59_friction_violated (for every even number of iterations), C59_groove_violated (for every positive number of iterations). Not covered: stored impulses (warm starting), friction in whole steps, joints with errors to correct (C57 bounds their correction), springs. Bodies, arbiters and joints are listed once (C20, C44). Real arithmetic."
  },
  {
   "property": "C60",
   "status": "proved",
   "theorems": [
    "CP.C60_carried",
    "CP.C60_impulse",
    "CP.C60_bounce",
    "CP.C60_carried_bounce",
    "CP.C60_friction",
    "CP.C60_iterations",
    "CP.C60_restitution",
    "CP.C60_energy",
    "CP.C60_energy_friction",
    "CP.C60_circles",
    "CP.C60_longer_step_violated",
    "CP.C60_longer_step_case"
   ],
   "note": "C60_carried (the impulse with anything stored), C60_impulse (nothing stored or equal steps), C60_bounce, C60_carried_bounce, C60_restitution (Newton), C60_friction (Coulomb), C60_iterations, C60_energy, C60_energy_friction, C60_circles (circles found by CircleToCircle qualify). A body that cannot be moved may touch and join others. Exact failure: C60_longer_step_violated with the case C60_longer_step_case. Not covered: pairs with two contacts or with friction off the line of centres, and bodies that touch several others (C58, C59 bound those). Real arithmetic."
  },
  {
   "property": "C61",
   "status": "proved",
   "theorems": [
    "CP.C61_rotary",
    "CP.C61_rotary_impulse_violated",
    "CP.C61_rotary_swing",
    "CP.C61_rotary_settles",
    "CP.C61_rotary_limit",
    "CP.C61_rotary_explodes",
    "CP.C61_rotary_undamped",
    "CP.C61_spring",
    "CP.C61_coincident_violated",
    "CP.C61_line",
    "CP.C61_settles",
    "CP.C61_bounded",
    "CP.C61_too_stiff",
    "CP.C61_rotary_impulse_case",
    "CP.C61_coincident_case"
   ],
   "note": "One step: C61_rotary, C61_spring (GetImpulse exact there). Any number of steps: C61_rotary_swing, C61_rotary_settles, C61_rotary_limit, C61_rotary_explodes, C61_rotary_undamped; C61_line, C61_settles, C61_bounded, C61_too_stiff. Exact failures: C61_rotary_impulse_violated (case C61_rotary_impulse_case), C61_coincident_violated (case C61_coincident_case). Not covered: springs that share bodies with other joints or contacts over several steps, and linear springs with anchors off the centre or transverse motion over several steps (their single steps are C61_spring). Real arithmetic."
  },
  {
   "property": "C62",
   "status": "proved",
   "theorems": [
    "CP.C62_motor",
    "CP.C62_longer_step_violated",
    "CP.C62_gear",
    "CP.C62_limit",
    "CP.C62_ratchet",
    "CP.C62_pin",
    "CP.C62_pivot",
    "CP.C62_longer_step_case",
    "CP.C62_motor_spins_up",
    "CP.C62_motor_arrives",
    "CP.C62_gear_friction"
   ],
   "note": "One step: C62_motor, C62_gear, C62_limit, C62_ratchet, C62_pin, C62_pivot. Many steps: C62_motor_spins_up, C62_motor_arrives, C62_gear_friction. Exact failure with unequal steps: C62_longer_step_violated, case C62_longer_step_case. Not covered: slide joints (whose normal is not exactly of length 1, Normalize adds 1e-15) and groove joints (see C59_groove_violated). Real arithmetic; pins assume distinct grips."
  },
  {
   "property": "C63",
   "status": "proved",
   "theorems": [
    "CP.C63_no_panic",
    "CP.C63_positions",
    "CP.C63_asleep",
    "CP.C63_history",
    "CP.C63_falls_asleep",
    "CP.C63_resumes",
    "CP.C63_restless",
    "CP.C63_free",
    "CP.C63_group",
    "CP.C63_unmoved"
   ],
   "note": "C63_positions, C63_asleep, C63_history, C63_falls_asleep, C63_resumes, C63_restless, C63_free, C63_no_panic hold for any arithmetic (GoFloat); C63_group, C63_unmoved for real numbers. Programs are Engine.Reach: bookkeeping (Model/Space) and numbers (Model/Motion) joined by Model/Engine. Inputs of a step: the reported pairs and their contacts (C53 says which pairs), the bodies woken by callbacks. As in C44, Begin/PreSolve/position functions wake no sleeping body, callbacks inside Step change no numbers of bodies, and a type is not changed next to sleeping bodies."
  },
  {
   "property": "C64",
   "status": "proved",
   "theorems": [
    "CP.C64_parts",
    "CP.C64_no_panic",
    "CP.C64_inPlace",
    "CP.C64_after_step",
    "CP.C64_tests",
    "CP.C64_free",
    "CP.C64_group",
    "CP.C64_circles",
    "CP.C64_duel",
    "CP.C64_collision",
    "CP.C64_bounce",
    "CP.C64_step"
   ],
   "note": "C64_parts, C64_no_panic, C64_inPlace, C64_after_step, C64_tests, C64_free, C64_step (everything the solver is given in a step: bodies, joints, and exactly the contacts found) hold for any arithmetic with monotone rounding (FloatSigns/FloatLaws), C64_group, C64_circles, C64_duel, C64_collision (velocities and spins after two circles met) and C64_bounce (restitution) for real numbers (Spec/Encounter; Props/SimBounceExamples evaluates a head-on collision). Programs are Sim.Reach (Spec/Sim): Model/Scene and Model/Engine joined by Model/Sim; inputs of a step are its arguments, the settings, and what callbacks do. As in C44, position functions, Begin and PreSolve callbacks wake no sleeping body and callbacks inside Step call no setters of bodies, shapes and constraints."
  },
  {
   "property": "C65",
   "status": "proved",
   "theorems": [
    "CP.C65_step",
    "CP.C65_no_sinking",
    "CP.C65_settle"
   ],
   "note": "C65_step, C65_no_sinking, C65_settle (Props/SimPress): programs are Sim.Reach as in C64; the situation is Encounter/Pressing (Spec/Encounter); Props/SimPressExamples has a case of each. Two circles that are in contact stay a touching pair as long as they overlap (C64_circles)."
  },
  {
   "property": "C66",
   "status": "proved",
   "theorems": [
    "CP.C66_duel",
    "CP.C66_landing",
    "CP.C66_bounce",
    "CP.C66_step",
    "CP.C66_no_sinking",
    "CP.C66_rest"
   ],
   "note": "C66_landing, C66_bounce, C66_step, C66_no_sinking, C66_rest, C66_duel (Props/SimFloor): programs are Sim.Reach as in C64; the situation is Landing/Resting (Spec/Encounter): q is the point of the floor nearest to the ball's centre, `up` the direction from q to the centre, `depth` how deep the ball is along it (at the landing: radii minus distance, depth_distance). Props/SimFloorExamples has a case of each, for any material and any velocity in a range."
  },
  {
   "property": "C67",
   "status": "proved",
   "theorems": [
    "CP.C67_flight",
    "CP.C67_damped",
    "CP.C67_push",
    "CP.C67_drop",
    "CP.C67_comes_back",
    "CP.C67_not_higher"
   ],
   "note": "C67_flight, C67_damped, C67_push, C67_drop, C67_comes_back, C67_not_higher (Props/Flight): programs are Sim.Reach as in C64; the flight is Flying, the drop Dropped (Spec/Flight; the landing itself is C66's Landing). Props/FlightExamples has a ball that is thrown forward, bounces and comes back to its height (thrown_back), and a flight with damping (syrup_flight)."
  },
  {
   "property": "C68",
   "status": "proved",
   "theorems": [
    "CP.C68_momentum",
    "CP.C68_turning",
    "CP.C68_energy",
    "CP.C68_swap",
    "CP.C68_right_angle"
   ],
   "note": "C68_momentum, C68_turning (angular momentum, with the exact violation by friction), C68_energy, C68_swap, C68_right_angle (Props/Billiards): programs are Sim.Reach, the collision is C64's Encounter; Weightless and Ball in Spec/Billiards. Props/BilliardsExamples has a ball that runs into another one and stops."
  },
  {
   "property": "C69",
   "status": "proved",
   "theorems": [
    "CP.C69_toAngle",
    "CP.C69_forAngle",
    "CP.C69_rotate",
    "CP.C69_wrap",
    "CP.C69_wrap_same",
    "CP.C69_wrap_corner",
    "CP.C69_slerp"
   ],
   "note": "Props/Angles over Model/Vec and Model/Wrap: C69_toAngle, C69_forAngle, C69_rotate, C69_slerp, C69_wrap, C69_wrap_same, C69_wrap_corner (the corner of the box, and a concrete case). math.Atan2 is the argument of a complex number, math.Mod the remainder of the truncated quotient, in exact arithmetic."
  },
  {
   "property": "C70",
   "status": "proved",
   "theorems": [
    "CP.C70_shapes",
    "CP.C70_joints",
    "CP.C70_geometry",
    "CP.C70_after_step",
    "CP.C70_marks",
    "CP.C70_spring",
    "CP.C70_contacts",
    "CP.C70_example"
   ],
   "note": "Props/Draw over Model/Draw (the calls of the Drawer as a list; colours and user data left out): C70_shapes, C70_geometry, C70_after_step, C70_joints, C70_marks, C70_spring, C70_contacts; non-vacuity: C70_example. That the spring line is NaN when its ends coincide is a property of floats and not proved."
  },
  {
   "property": "C71",
   "status": "proved",
   "theorems": [
    "CP.C71_load",
    "CP.C71_weight",
    "CP.C71_example"
   ],
   "note": "Props/Load over Model/Motion and Model/Solver: C71_load, C71_weight; non-vacuity: C71_example (a ball bouncing off a wall reports 9/2). Stated for the numeric half of Step (Motion.tick) with the list of active arbiters."
  }
 ]
}