{
 "C05": {
  "note": ""
 },
 "C09": {
  "note": "Whole claim for the thin segment, every history; the failure with a radius is C09_radius_violated with C09_radius_hit."
 },
 "C20": {
  "note": "For every reachable state of every allowed history; the SetType violation is C20_setType_asleep_violated."
 },
 "C21": {
  "note": "Exact: which components stay asleep, for any number; the intended claim is refuted in a reachable state (C21_violated)."
 },
 "C23": {
  "note": "C23_step/C23_remove/C23_quiet: exact callbacks and next state of every pair in every operation of every history (automaton PairSt in Spec/Events); C23_begin/preSolve/postSolve/separate are its readings. The exact step theorems assume that Separate/PostSolve callbacks and functions after the collision phase wake nobody; C23_protocol, C23_touching, C23_in_space, C23_remove do not."
 },
 "C25": {
  "note": "Step level, for steps whose Separate/PostSolve callbacks wake nobody (waking undoes the sleep decision)."
 },
 "C26": {
  "note": ""
 },
 "C44": {
  "note": "Preconditions are Op.Allowed in Spec/History.lean; that they are needed is shown in Props/SpaceFindings.lean."
 },
 "C29": {
  "note": "Rigid transforms (C29_body_rigid: those of all bodies), radius >= 0."
 },
 "C30": {
  "note": "Exact arithmetic. At the excepted points (circle centre, segment core, polygon boundary) the distance is right too (C30_signed_*)."
 },
 "C37": {
  "note": "Exact arithmetic; MomentForPoly with two vertices ignores the offset (C37_moment_two_violated)."
 },
 "C22": {
  "note": ""
 },
 "C45": {
  "note": "Exact arithmetic. Circles: C45_circle; sharp polygons: C45_poly; rounded ones with normals of length exactly 1 (Normalize's 1e-15 left out): C45_poly_round; segment shapes: C45_segment, C45_segment_thin; where it fails: C45_segment_violated, C45_segment_collinear_violated."
 },
 "C28": {
  "status": "proved",
  "note": "In-place quickhull modelled on the array with offsets; refinement to an inductive chain relation, geometry over the reals. C28_strict_violated shows that strict convexity fails for collinear points."
 },
 "C32": {
  "status": "proved",
  "note": "Circle-circle and circle-segment (no neighbour tangents, different ends) exactly; count/no panic for every arithmetic with the sign laws; contacts in the shapes for all pairs over the reals; the three violations are proved with witnesses."
 },
 "C33": {
  "status": "proved",
  "note": "GJK and EPA modelled call by call incl. cached ids and the swap step; the stop reason is a ghost result. Termination for every arithmetic with the sign laws, soundness over the reals for polygons of at most 256 vertices. C33_collinear_violated is the exception at d = 0."
 },
 "C34": {
  "note": "Every set of lines and every sequence of segments, any ordered scalar type; C34_closed for simple contours."
 },
 "C36": {
  "note": "Exact arithmetic for the distances; panics and SimplifyVertexes for any ordered scalar type. Violations: C36_near_ends_panics, C36_left_out_far_violated, C36_vertexes_closed_violated."
 },
 "C35": {
  "note": "Sampling and balance for any ordered scalar type (no rounding assumption), any sample function, also an impure one; closed lines in exact arithmetic."
 },
 "C39": {
  "note": "Index level for every arithmetic and history (C39_calls, C39_result), the violation C39_sensor_violated, geometry for circles (C39_circles); for other classes overlap means what ShapesCollide reports (C32, C33). C39_moved: the box of the given shape is updated first, so no overlap is lost through the boxes."
 },
 "C40": {
  "note": "C40_any: every arithmetic; C40_nearest: circles, segments and strictly convex polygons in exact arithmetic."
 },
 "C46": {
  "note": ""
 },
 "C31": {
  "status": "proved",
  "note": "Exact characterisation for any number type (C31_query, C31_pairs: reported iff a bucket is shared), over all histories including handle recycling; completeness for intersecting boxes over the reals (C31_complete, C31_pairs_complete); panics exactly at 1610612740 stored shapes (C31_no_panic). Reindex and nested queries violate the property (C31_reindex_violated, C31_nested_violated, C31_nested_pair_violated). float-to-int overflow excluded."
 },
 "C42": {
  "status": "proved",
  "note": "Pointer-level memory (threads, heads, pool, allocation in blocks of 1024), every history of PairInsert/PairsClear/marking loop; C42_broadphase: the pairs of the modelled broad phase (C08) always come from such a history."
 },
 "C24": {
  "status": "proved",
  "note": "All moments of all histories: capacity, disjointness of contacts of arbiters of age <= 3, places handed out, reuse exactly of buffers older than 3 steps; C24_calm/C24_read: contacts read are intact as long as resting bodies are roused by collisions only; C24_violated: a program that wakes bodies that fell asleep just after separating reads recycled contacts."
 },
 "C47": {
  "note": "Lebesgue integrals over the plane (Mathlib). Polygons: fan of triangles by induction; rounded border: additivity of rounding over cuts. Polygons that are not convex: C37_*_cut. The radius is not part of MomentForPoly and CentroidForPoly, as in the code."
 },
 "C48": {
  "status": "proved",
  "note": "Found/over: for the regular answers of GJK (see C33); neighbours (SetNeighbors) not set; corners flatter than about 1e-15 excluded; the slack is explicit (slopes of the facing sides). For overlapping cores EPA's hull may lose convexity, so that the closest points lie over each other is a hypothesis there (Regular)."
 },
 "C49": {
  "status": "proved",
  "note": "C49_wakes is exact (awake, asleep, restart, idle) for every operation except SetGravity (C21), SetType (C49_setType) and Step. C49_step is exact for sleep and for woken bodies. C49_step_idle: neighbours of activated bodies may or may not be reset, depending on the order of the arbiters, so that clause is one-sided. Separate and PostSolve callbacks that wake bodies are excluded in C49_step and C49_wakes(removeShape)."
 },
 "C50": {
  "status": "proved",
  "note": "Over \u211d. The collision phase and sleeping enter as arbitrary data per step (which arbiters with which contacts, which bodies are in dynamicBodies), so the theorems hold for every outcome of them that keeps the group isolated and awake. Default velocity and position functions. Angular momentum with penetrating contacts is not claimed: position correction moves bodies with bias velocities, which changes the orbital part."
 },
 "C51": {
  "status": "proved",
  "note": "C51_dispatch: for every proper history the calls of user functions are exactly those of the specification `expected` (Spec/Dispatch), for any behaviour of the functions incl. their CallWildcard calls; C51_own, C51_wild, C51_silent spell the cases out; C51_userdata_violated and C51_wildcard_loop are the violations. User functions that change handlers while running, and functions of wildcard handlers that call CallWildcard themselves, are not covered."
 },
 "C52": {
  "status": "proved",
  "note": "C52_carry/C52_carry_unique (any rounding), C52_shown, C52_mirror, C52_distance, C52_apart, C52_set_get, C52_get_set, C52_set_count (exact arithmetic); C52_sticky is the violation. That TotalImpulse is the impulse given is C43_contact."
 },
 "C53": {
  "status": "proved",
  "note": "C53_only and C53_all: exactly the pairs of Scene.MustTest, each once; C53_step: the rest of the step is the bookkeeping of C20-C28 on exactly these; C53_no_panic; C53_touching/C53_apart/C53_circles: end to end. Static and sleeping shapes must be within their indexed boxes (Fits; C53_fits says which operations make it so). The index calls inside one operation are modelled as removals followed by insertions (arbitrary re-insertions allowed); position functions and Begin/PreSolve callbacks wake no sleeping body; fewer than 1610612739 shapes."
 },
 "C54": {
  "status": "proved",
  "note": "C54_fall, C54_rest: whole runs; C54_contacts: no impulse in the contacts; C54_new_*: which new joints rest; C54_groove_off: the exception. Exact arithmetic; default position and velocity functions; contacts are data given for each step with no stored impulse (C52 says what contacts inherit, C53 which pairs are tested)."
 },
 "C55": {
  "status": "proved",
  "note": "C55_ray (one index, any callback), C55_first, C55_all, C55_switch; exact arithmetic for the walk (C55_switch for any number type). The segment must start well (LeavesWell; C55_line_violated shows what happens otherwise). As with the tree, a query with a radius prunes with the thin segment. Callbacks make no queries of the same index (C31_nested_violated)."
 },
 "C56": {
  "status": "proved",
  "note": "C56_refines (all answers equal those of the abstract trees of C06-C09 for the same history), C56_query, C56_each, C56_reindexQuery, C56_first, C56_no_panic; memory: C56_places, C56_links, C56_leaf, C56_size, C56_no_leak; C56_histories: the legal histories are the same. Pair records are those of Model/PairHeap, here with the leaf given by its node."
 },
 "C57": {
  "status": "proved",
  "note": "One step: C57_gear, C57_motor, C57_limit, C57_ratchet, C57_pivot, C57_pin; one ApplyImpulse: C57_slide; what leftover means: C57_leftover_free, C57_leftover_shrinks, C57_leftover_vanishes; many steps: C57_gear_steps, C57_motor_steps. Groove joints and springs are not covered here (C19, C54). Real arithmetic."
 },
 "C58": {
  "status": "proved",
  "note": "C58_push (at least), C58_exact, C58_idle (not more), C58_velocities (no energy), C58_step, C58_circles (overlap from step to step), C58_settle (many steps). Contacts are data given for each step (C52 says how arbiters get them, C53 which pairs are tested); in C58_circles and C58_settle they are what CircleToCircle finds. Only the last contact of a manifold is bounded from below by C58_push; earlier contacts of the same pass can be overruled by later ones. Real arithmetic, default position and velocity functions. Bodies with infinite mass and moment (floors, walls) may touch and join anything, also in C58_exact."
 },
 "C59": {
  "status": "proved",
  "note": "C59_work (one impulse), C59_contact (one pass at one contact, with friction), C59_passes (each further iteration), C59_step (against free fall), C59_dissipates (no gravity). Exact failures: C59_friction_violated (for every even number of iterations), C59_groove_violated (for every positive number of iterations). Not covered: stored impulses (warm starting), friction in whole steps, joints with errors to correct (C57 bounds their correction), springs. Bodies, arbiters and joints are listed once (C20, C44). Real arithmetic."
 },
 "C60": {
  "status": "proved",
  "note": "C60_carried (the impulse with anything stored), C60_impulse (nothing stored or equal steps), C60_bounce, C60_carried_bounce, C60_restitution (Newton), C60_friction (Coulomb), C60_iterations, C60_energy, C60_energy_friction, C60_circles (circles found by CircleToCircle qualify). A body that cannot be moved may touch and join others. Exact failure: C60_longer_step_violated with the case C60_longer_step_case. Not covered: pairs with two contacts or with friction off the line of centres, and bodies that touch several others (C58, C59 bound those). Real arithmetic."
 },
 "C61": {
  "status": "proved",
  "note": "One step: C61_rotary, C61_spring (GetImpulse exact there). Any number of steps: C61_rotary_swing, C61_rotary_settles, C61_rotary_limit, C61_rotary_explodes, C61_rotary_undamped; C61_line, C61_settles, C61_bounded, C61_too_stiff. Exact failures: C61_rotary_impulse_violated (case C61_rotary_impulse_case), C61_coincident_violated (case C61_coincident_case). Not covered: springs that share bodies with other joints or contacts over several steps, and linear springs with anchors off the centre or transverse motion over several steps (their single steps are C61_spring). Real arithmetic."
 },
 "C62": {
  "status": "proved",
  "note": "One step: C62_motor, C62_gear, C62_limit, C62_ratchet, C62_pin, C62_pivot. Many steps: C62_motor_spins_up, C62_motor_arrives, C62_gear_friction. Exact failure with unequal steps: C62_longer_step_violated, case C62_longer_step_case. Not covered: slide joints (whose normal is not exactly of length 1, Normalize adds 1e-15) and groove joints (see C59_groove_violated). Real arithmetic; pins assume distinct grips."
 },
 "C63": {
  "status": "proved",
  "note": "C63_positions, C63_asleep, C63_history, C63_falls_asleep, C63_resumes, C63_restless, C63_free, C63_no_panic hold for any arithmetic (GoFloat); C63_group, C63_unmoved for real numbers. Programs are Engine.Reach: bookkeeping (Model/Space) and numbers (Model/Motion) joined by Model/Engine. Inputs of a step: the reported pairs and their contacts (C53 says which pairs), the bodies woken by callbacks. As in C44, Begin/PreSolve/position functions wake no sleeping body, callbacks inside Step change no numbers of bodies, and a type is not changed next to sleeping bodies."
 },
 "C64": {
  "status": "proved",
  "note": "C64_parts, C64_no_panic, C64_inPlace, C64_after_step, C64_tests, C64_free, C64_step (everything the solver is given in a step: bodies, joints, and exactly the contacts found) hold for any arithmetic with monotone rounding (FloatSigns/FloatLaws), C64_group, C64_circles, C64_duel, C64_collision (velocities and spins after two circles met) and C64_bounce (restitution) for real numbers (Spec/Encounter; Props/SimBounceExamples evaluates a head-on collision). Programs are Sim.Reach (Spec/Sim): Model/Scene and Model/Engine joined by Model/Sim; inputs of a step are its arguments, the settings, and what callbacks do. As in C44, position functions, Begin and PreSolve callbacks wake no sleeping body and callbacks inside Step call no setters of bodies, shapes and constraints."
 },
 "C65": {
  "status": "proved",
  "note": "C65_step, C65_no_sinking, C65_settle (Props/SimPress): programs are Sim.Reach as in C64; the situation is Encounter/Pressing (Spec/Encounter); Props/SimPressExamples has a case of each. Two circles that are in contact stay a touching pair as long as they overlap (C64_circles)."
 },
 "C66": {
  "status": "proved",
  "note": "C66_landing, C66_bounce, C66_step, C66_no_sinking, C66_rest, C66_duel (Props/SimFloor): programs are Sim.Reach as in C64; the situation is Landing/Resting (Spec/Encounter): q is the point of the floor nearest to the ball's centre, `up` the direction from q to the centre, `depth` how deep the ball is along it (at the landing: radii minus distance, depth_distance). Props/SimFloorExamples has a case of each, for any material and any velocity in a range."
 },
 "C67": {
  "status": "proved",
  "note": "C67_flight, C67_damped, C67_push, C67_drop, C67_comes_back, C67_not_higher (Props/Flight): programs are Sim.Reach as in C64; the flight is Flying, the drop Dropped (Spec/Flight; the landing itself is C66's Landing). Props/FlightExamples has a ball that is thrown forward, bounces and comes back to its height (thrown_back), and a flight with damping (syrup_flight)."
 },
 "C68": {
  "status": "proved",
  "note": "C68_momentum, C68_turning (angular momentum, with the exact violation by friction), C68_energy, C68_swap, C68_right_angle (Props/Billiards): programs are Sim.Reach, the collision is C64's Encounter; Weightless and Ball in Spec/Billiards. Props/BilliardsExamples has a ball that runs into another one and stops."
 },
 "C69": {
  "status": "proved",
  "note": "Props/Angles over Model/Vec and Model/Wrap: C69_toAngle, C69_forAngle, C69_rotate, C69_slerp, C69_wrap, C69_wrap_same, C69_wrap_corner (the corner of the box, and a concrete case). math.Atan2 is the argument of a complex number, math.Mod the remainder of the truncated quotient, in exact arithmetic."
 },
 "C70": {
  "status": "proved",
  "note": "Props/Draw over Model/Draw (the calls of the Drawer as a list; colours and user data left out): C70_shapes, C70_geometry, C70_after_step, C70_joints, C70_marks, C70_spring, C70_contacts; non-vacuity: C70_example. That the spring line is NaN when its ends coincide is a property of floats and not proved."
 },
 "C71": {
  "status": "proved",
  "note": "Props/Load over Model/Motion and Model/Solver: C71_load, C71_weight; non-vacuity: C71_example (a ball bouncing off a wall reports 9/2). Stated for the numeric half of Step (Motion.tick) with the list of active arbiters."
 }
}