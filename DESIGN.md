# Formal model of jakecoffman/cp in Lean 4: design

## Layout

* `properties.jsonl`: the properties (generated by `tools/props.py`).
* `lean/Verif/Model/*.lean`: the model, one module per group of Go files. Every definition cites file:lines of /repo
  (`tools/cite.py` checks that the cited lines exist and mention the cited symbol).
* `lean/Verif/Spec/*.lean`: the small specifications the theorems are stated with: finite maps, sets of boxes, point sets, graphs,
  automata, histories of operations, multisets of edges. They use nothing of the model beyond its data types.
* `lean/Verif/Proofs/*.lean`: helper lemmas. Nothing there needs to be read to understand a theorem.
* `lean/Verif/Props/*.lean`: the property theorems (`C01_...`, namespace `CP`) and the non-vacuity examples (concrete states
  evaluated by the kernel with `decide +kernel`, never compiled).
* `MANIFEST.json`: property -> theorem names and status (generated by `tools/manifest.py` from the sources and `tools/notes.json`).
* `seeded/LOG.jsonl`: wrong-program experiments (`tools/seed.py`).

Modules of the model: Scalar (floats), Vec, BB (boxes, transforms), HashSet, Handlers (filters, collision handlers), BBTree, PairHeap
(pointers of the pair lists), SpaceHash, Body (coordinates, mass, integration), Solver (contacts and all joints), Motion (whole steps as motion), Space (lists,
sleeping, arbiters, contact buffers, Step), Dispatch (which callback runs), ArbView (contact sets), PostStep, Mass, Shapes, Hull, Collide (GJK, EPA, contact points), PolyLine, March,
Queries, Scene (space, indexes and geometry together), Engine (space bookkeeping and motion together), Sim (everything together), JointNew (constructors of the joints), NodeHeap (the trees as linked, pooled nodes), HashRay (segment
queries of the spatial hash).

## Trusted base

* Lean 4.33.0's kernel, and the three standard axioms `propext`, `Classical.choice`, `Quot.sound`. No other axioms, no
  compiled evaluation (`native_decide`, `bv_decide`), no unfinished proof.
* The reading of the Go source: the code is not executed here. The tie is the citation at every definition.
* Scalars. `GoFloat F` is the interface of Go's `float64` used by the code. Theorems that only need the order of the
  scalars (tree, queries, hash sets, histories, protocols) are stated for *every* `GoFloat F`, so they do not assume that
  arithmetic is exact: rounding cannot break them. They do assume comparisons form a linear order, i.e. **no NaN**.
  Theorems that need algebra (transforms, momentum, hull, distances...) are stated for `F = ℝ`, i.e. **exact arithmetic**;
  for float64 they hold up to rounding, which is not modelled.
  Some theorems for every `GoFloat F` need that rounding is monotone or that signs multiply as they should: they take
  `FloatLaws F` or `FloatSigns F` (Verif/Spec/Float.lean) as hypotheses, true of IEEE 754 without overflow, and shown to be true of ℝ.
* `math.MaxFloat64` (`INFINITY`) is a finite constant `maxFloat`; division by zero (±Inf/NaN in Go, 0 in Lean) is
  excluded by hypotheses wherever it matters.
* Machine integers: `uint` time stamps are `Nat` (no wrap after 2^64 steps); hash values are `BitVec 64`/`UInt64`-like where hashing
  matters (`HashPair`), otherwise an arbitrary function.
* `assert` (debug.go/release.go): in a release build a no-op, in a debug build a panic. The model treats the asserted
  condition as an API precondition, and says so where it is used. Nil dereference and index-out-of-range panics are `none`.
* Callbacks are arbitrary pure functions with explicit effects where a property is about them (scripts of actions).
* Single goroutine: the library has no internal concurrency.

## Not modelled

draw.go (drawing callbacks), String methods, user data fields, the speed of anything, NaN, overflow to ±Inf,
`math.Sin/Cos/Exp/Pow` beyond the identities used (`Real.sin`, `Real.cos`, ...); sweep1d is not part of the repository;
the pool of bins of the spatial hash as memory (handles are in the model); multi-threading (the library has none).

In the model of the space (Model/Space.lean) geometry is an input: a step takes the pairs the narrow phase reports and the set of bodies
that move fast enough to stay awake. So the theorems on lists, sleeping, callbacks and memory hold for every geometry. The link
between geometry and pairs is C06-C09, C29-C33; the solver proper is Model/Solver.lean (C15-C19, C43).

## Per property

| id | modelled | proof idea |
|----|----------|------------|
| C01-C03 | hashset.go: buckets, prime table, resize, filter, panics | refinement to a finite map; invariant: an entry lies in the bucket of its hash, one entry per class |
| C04 | collision handler set on top of the hash set, `HashPair` on 64-bit words, arbiter swapped flag | symmetric hash + refinement of C01 |
| C05 | `ShapeFilter.Reject` on machine words | bit algebra |
| C06-C09, C42 | bbtree.go: trees, stamps, pairs, MarkSubtree, queries; pointer-level pair lists | invariants over operation histories; C08 by equivalence of the recursive marking with a flat loop over the leaves |
| C10-C12, C41 | bb.go, transform.go, vector.go, everything.go helpers | real/ordered-field algebra |
| C13-C14 | body.go transform, mass accumulation | algebra, induction over op lists |
| C15-C19 | arbiter.go solver and all joints | algebra per impulse; induction over impulse sequences |
| C20-C22, C38 | space.go / body.go lists, lock, post-step, sleeping, with Go slice aliasing of `range` | invariants; negations with witnesses where the code violates the claim |
| C23-C24 | arbiter state machine, cached arbiters, contact buffers | invariants over step histories |
| C25 | ProcessComponents, FloodFill | graph reachability, DFS invariant |
| C26-C27 | intrusive lists `next_a/next_b`, arbiter threads on a heap | heap representation predicates |
| C28 | QHull | induction on recursion |
| C29-C30, C32 | circle.go, segment.go, poly.go, collision.go parts | real geometry |
| C31 | spacehash.go | invariants over histories |
| C33 | GJK/EPA recursion | fuel = iteration caps in the code; support points are members; axis lower bound |
| C34-C36 | polyline.go, march.go | multiset invariants, induction |
| C37 | everything.go mass formulas | polynomial identities over cyclic sums |
| C47 | everything.go mass formulas | Lebesgue integrals: triangles by change of variables, convex polygons by induction on the fan, rings by polar coordinates, rounded borders by sweeping and additivity |
| C48 | collision.go ContactPoints and the choice of edges | exact parameters of the clamped points with explicit slack for the constant 1e-15; convexity puts the closest point on the chosen side |
| C49 | the space model: Activate, ActivateStatic, SetType, ProcessComponents and every operation that calls them | exact effect of Activate on roots and idle times (SpaceIdle), composed along each operation (SpaceDirect) and along the loops of ProcessComponents (SpaceRouse); the arbiters of the solver are those of the pairs in state active (SpaceRouse2) |
| C50 | Model/Motion: Step as position loop, then the solver phase of Model/Solver on arbitrary contacts; histories of steps, forces, impulses, joint changes | momentum and bias-momentum conservation of every solver action for isolated groups (C15, generalised from closed to isolated groups), pointwise effect of the integration loops, induction over the history; angular momentum with the joints' prepared-before-use invariant |
| C51 | Model/Dispatch: handler table, function fields and data of handlers, default handlers, handler part of Arbiter.Update, CallWildcard functions, user functions as programs over them; recursion with fuel | invariant of the state after a history (fields = last assignments), then the calls computed case by case; nil and endless recursion excluded (`some` for every fuel ≥ 2) |
| C52 | Model/ArbView: Count, Normal, ContactPointSet, SetContactPointSet, TotalImpulse; Update of Model/Solver | list calculations; exact arithmetic for the round trips, any rounding for warm starting |
| C53 | Model/Scene: space, both indexes, geometry and collideBodies flags together; QueryReject, QueryRejectConstraints, the collision phase of Step | the shape lists of the space and the index contents agree (invariant over the history), then the exact pair reports of C08 filtered by QueryReject; C23 for what the callbacks say afterwards |
| C54 | Model/JointNew: the constructors of all joints and NewConstraint; Model/Motion, Model/Solver | invariant over the solver program: velocities equal within the group, bias velocities zero, joints and contacts without impulse; each joint's PreStep and ApplyImpulse computed at rest; induction over the steps |
| C55 | Model/HashRay: segmentQueryHelper, SegmentQuery of spacehash.go as bucket search plus a walk (loop bounded by fuel), SegmentQueryFirst, SegmentQuery and UseSpatialHash of space.go | bucket bookkeeping reduced to that of C31; each coordinate of the walk in closed form (time of the k-th grid line), every point of the segment lies in a cell entered by then; the walk gets arbitrarily late, so the loop ends |
| C56 | Model/NodeHeap: every function of bbtree.go on a memory of nodes with parent and child pointers, two free lists, and the pair records of Model/PairHeap | refinement: a pointer tree with its ids (Rooted) represents the value tree of Model/BBTree, all ids ever allocated are a permutation of the ids of two trees and two free lists; the upward walks (refit, removal, MarkLeaf) by zippers; simulation of each operation, then induction over the history |
| C57 | Model/Motion with the joints of Model/Solver; Spec/Correct: what the joints see (bodies after the step's movement), last word, leftover | the solver phase ends with the joint's last ApplyImpulse on values its PreStep computed from frozen positions (stored impulses aside); C19 gives the velocity, the next position update integrates it (exactly for angles, tangent estimate for points of turning bodies); many steps by induction |
| C58 | Model/Motion with the arbiters of Model/Solver; Spec/Push: overlap at a contact, pushing velocity, last word, circles found by Model/Collide | the pass of the last arbiter ends with its last contact, whose clamped bias impulse leaves at least the target velocity (the clamp only adds); exact case: one contact from zero pushing velocities reaches the target at once and repeats it; velocities: the program erased of the bias fields is the same program; many steps by induction |
| C59 | Model/Motion, Model/Solver, `Body.kineticEnergy`; Spec/Energy: sum of KineticEnergy(), undriven bodies, smooth contacts, still joints, quiet step | an impulse that is a share (0 to 1) of the one that would stop the motion along its direction (or, for pivots, all of it) does no positive work; clamps of values within their limits let such a share through; invariant over the program by induction on its length; counterexamples evaluated as two-periodic and stationary states of the iterations, by induction on their number |
| C60 | Model/Motion, Model/Solver; Spec/Bounce: separation and slip velocity, response to an impulse, pair alone at one contact, carried-over share, velocities after an impulse | invariant over the step's program: the velocities of the two bodies are the free ones after the stored impulse shifted by what was carried over; one call for the contact sets the stored impulse to a value that does not depend on what was stored; induction on the number of passes; energy by algebra |
| C61 | Model/Motion, Model/Solver; Spec/Spring: joint alone on its bodies, one impulse between two bodies, bodies on a line, the spring's recursion | a joint alone on its bodies does what its own calls do on them, by induction over the step's program; the first call of the solver reaches the target so further ones change nothing; the recursion by its quadratic invariant (scaled by the damping each step), convergence by a geometric bound, divergence and sharpness of the limit by growth of the alternating sequence |
| C62 | Model/Motion, Model/Solver; Spec/Alone: goal velocity, one angular impulse between two bodies, response of two points to an impulse, nearer to 0 | the joint alone (C61's lemma): the state is a function of the stored impulse alone, every call of the solver leads to the same stored impulse, so induction over the iterations; closed form by algebra for each joint; many steps by induction with `nearer` composing |
| C63 | Model/Engine: Model/Space and Model/Motion with shared addresses, the kinetic energies of the moved bodies deciding who is idle; Spec/Engine: programs, asleep, awake | the space invariant (C44) between the halves of a step says what the lists contain and that no listed arbiter or constraint has a sleeping end; every solver action changes velocities of its own two bodies only (any arithmetic), so frame lemmas over the program; histories by induction |
| C64 | Model/Sim: Model/Scene and Model/Engine joined: bodies are moved, shapes follow, pairs and contacts are those found there, arbiters remember their contacts, the solver works with the result; Spec/Sim: programs, `InPlace` | every Sim step is a Scene step and an Engine step (refinement both ways), so C53 and C63 apply; `InPlace` by induction over calls; circles by C53_circles at the moved positions; the solver's input by following the contact loop and the caches of the arbiters (C64_step), the collision of two circles by C60 on it |
| C65 | Model/Sim; Spec/Encounter: `overlap`, `Pressing` | C64_duel gives the arbiter of the two circles in the solver's program; it has the last word on both bodies, so C58_circles bounds the overlap after the next move, whose positions are those of the next step (`step_centre`); many steps by induction |
| C66 | Model/Sim; Spec/Encounter: `Meeting`, `Landing`, `up`, `skid`, `depth`, `Resting` | what CircleToSegment finds for the nearest point (`floor_contact`, with the uniqueness of the nearest point), so the step is a duel of C60 (`meeting_duel`, shared with C64) with a body that cannot be moved; C60_impulse and C58_push give the impulse and the push; the next positions as in C65; many steps by induction |
| C67 | Model/Sim; Spec/Flight: `Untouched`, `Flying`, `Dropped`, `height` | one step is C64_free, many by induction with exact sums; the landing is C66_bounce and, for the push, C60's lone contact (`alone_shoved`); the height after the bounce by algebra |
| C68 | Model/Sim; Spec/Billiards: `Weightless`, `Ball`, `momentum`, `turning`; `energy` (Spec/Energy) | algebra from C64_collision: the same impulse, opposite, on both bodies; the energy from `kicked_energy` and the share of the clamped friction |
| C69 | Model/Vec, Model/Wrap: `toAngle`, `fmod`, `wrapVect` | polar form of complex numbers (Mathlib) for the angles; floor and ceiling for the remainder; that SLerp's angle is strictly between 0 and π because Normalize divides by more than the length |
| C70 | Model/Draw on Model/Sim: `DrawShape`, `DrawConstraint`, `DrawSpace` | the lists of calls of the `Drawer`; the indexes agree with the space's lists in every reachable state (C07, C64); a shape in its place has the cache of its body's transform; C26 for the constraints; algebra over ℝ for the spring |
| C71 | Model/Motion, Model/Solver; `bodyLoad` (Props/Load) | invariant of the solver program: velocity = free velocity + stored impulses of all arbiters of the body, seen from it; each contact's call keeps it, joints elsewhere do not touch the body |
| C39-C40, C46 | ShapeQuery, PointQueryNearest, BBQuery over the indexes | folds over the query results of C06 |
| C43 | GetImpulse of all joints, Arbiter.TotalImpulse | invariant over warm start and iterations |
| C44 | all public operations of a space, with callbacks as scripts | one invariant of the space kept by every operation |
| C45 | SegmentQuery of circles, polygons and segments | quadratic equation for circles; first contact by compactness, then the edge it lies on or the vertex it is near; affine functions along the ray |

## Findings: places where the code violates the natural property

Each proved finding is a theorem about a concrete reachable witness; the property list states the exact truth instead of the wish.

* C09 `SegmentQuery` with a radius: the tree is pruned with the thin segment, so shapes within the radius are missed
  (`C09_radius_violated`, `C09_radius_hit`).
* C10 an inverted box reports a hit (`C10_inverted_box_differs`).
* C16 `SetMass`/`SetMoment` on a static body give it a finite mass while its type stays static.
* C18 a slide joint with coinciding anchors keeps a stale impulse. C43 `DampedRotarySpring.GetImpulse` reports the wrong value.
* C20 `SetType` on a sleeping body: `EachBody` visits it twice (`C20_setType_asleep_violated`).
* C21 `SetGravity` with n sleeping components leaves (n-1)/2 of them asleep (`C21_violated`).
* C22 a post-step callback registered inside a post-step callback is lost (`C22_inside_lost`).
* C23 Separate waits while both bodies rest; PostSolve without PreSolve after a wake-up by a collision (Props/Events.lean).
* C24 contacts of a pair that separated just before its bodies fell asleep are read after their memory was recycled (`C24_violated`).
* C26 `SetType` on a static body joined to a sleeping one loses the joint (`C26_setType_static_loses_joint`).
* C27 `SleepTimeThreshold = INFINITY` while bodies sleep: an arbiter list becomes a cycle, `EachArbiter` does not end
  (`C27_threshold_off_cycle`).
* C28 collinear vertices can stay in the hull (`C28_strict_violated`).
* C30 `PointQuery` at the centre of a circle, on the core of a segment, on the boundary of a polygon: only the distance is right.
* C31 `SpaceHash.Reindex` empties the table (`C31_reindex_violated`); queries nested in callbacks give duplicates
  (`C31_nested_violated`, `C31_nested_pair_violated`).
* C32 `ShapesCollide` with swapped shapes has the wrong sign of Distance (`C32_swapped_violated`); circle against a polygon with
  radius: contact point on the wrong side (`C32_circle_poly_violated`); concentric circles are not mirrored.
* C33 GJK reports a collision for collinear edges (`C33_collinear_violated`).
* C36 `SimplifyCurves` panics when the ends are near (`C36_near_ends_panics`), `SimplifyVertexes` opens a closed line.
* C37 `MomentForPoly` with two vertices ignores the offset (`C37_moment_two_violated`).
* C39 the result of `ShapeQuery` is that of the last overlap (`C39_sensor_violated`).
* C44 waking a sleeping body from Begin or PreSolve makes the step hang (`C44_wake_in_begin_hangs`).
* C45 a segment query that starts beside an end cap gets the exit (`C45_segment_violated`); a thin ray along the line of a
  thin segment misses it (`C45_segment_collinear_violated`); hits of polygons and segments exactly at the end of the ray may
  be missed.
* C48 `SetEndpoints` gives the normal the opposite sign of `NewSegment`: contacts then pair opposite ends
  (`C48_setEndpoints_violated`); thick segments in one line are pushed sideways (`C48_end_to_end_violated`).
* C49 a dynamic body that becomes static or kinematic does not restart the idle times of what touches it: `Activate` already sees
  the new type (last clause of `C49_setType`).
* C03 the element number 1610612741 of a hash set panics.

Found by reading, not stated as theorems: `BBTree.Reindex` panics ("implement me"); MarchCells with one column divides by zero;
`SlerpConst` of parallel vectors divides by zero; `SetFriction`/`SetElasticity`
assert the old value; `RemoveConstraint` of a joint from a body to itself dereferences nil; a negative tolerance makes
`SimplifyCurves` recurse forever; `SetType` on a body that is not in the space while its shapes are: a later `RemoveShape` panics.
* C51 PostSolve callbacks get the handler instead of its UserData (`C51_userdata_violated`, /repo/space.go:778); a handler made by
  `NewCollisionHandler(T, WILDCARD)` recurses without end when it is used as wildcard handler (`C51_wildcard_loop`).
* C68 friction changes the total angular momentum of two colliding balls by its impulse times their overlap, because it acts on each at its own surface (C68_turning).
* C69 (not proved, only with rounding): `SlerpConst` of two long parallel vectors (such as (100,0) and (200,0)) divides 0 by 0 and returns NaN, since `Normalize` then rounds to unit vectors and the angle to 0.
* C70: constraints of sleeping bodies are not drawn (their shapes are), since a sleeping body's constraints are out of `space.constraints`; `Flags()` of the `Drawer` is never consulted; (not proved, only in floats) a spring whose ends coincide is drawn with NaN corners.
* C52 a pair that separates and touches again within CollisionPersistence steps keeps its accumulated impulses without warm start, so
  the contact can pull (`C52_sticky`).
* C54 a groove joint whose anchor is between the ends pulls towards the origin of the world by about 2e-15 of the distance, because
  NewGrooveJoint's normal is not a unit vector (`C54_groove_off`).
* C55 with the spatial hash a segment query that starts on a grid line and goes left or down misses the shapes in its way
  (`C55_line_violated`; /repo/spacehash.go:289-298 takes the next line but one as the first).
* C59 friction can create kinetic energy, and the iterations of the solver need not settle: a body in a corner of a wall and a floor, in a
  first collision without bounce, has energy 10.47 instead of 6 after every even number of iterations (the default is 10), and 2.7 after
  every odd one (`C59_friction_violated`). Stored friction is clamped to a limit that shrinks when another contact takes over the load.
* C59 a groove joint gives a body that slides along the groove on an anchor off its centre an impulse across the groove, which adds energy
  and makes the anchor leave the groove (`C59_groove_violated`; /repo/groovejoint.go:68-94 projects the pivot impulse on the normal
  instead of solving for the impulse along the normal).
* C60 a longer time step throws resting contacts apart: the impulse stored by the last step is applied in proportion to the new length, so after
  an inelastic collision a step twice as long makes the bodies bounce as if perfectly elastic (`C60_longer_step_violated`,
  `C60_longer_step_case`; /repo/space.go:744-750, /repo/arbiter.go:113-123).
* C61 `GetImpulse` of a rotary spring counts the damping part with the wrong sign: a spring that only damps reports the opposite of the impulse it
  gave (`C61_rotary_impulse_violated`, `C61_rotary_impulse_case`; /repo/dampedrotaryspring.go:60-64 adds `jDamp` to `jAcc` but applies it to the
  bodies with the other sign than the spring's impulse).
* C61 a linear spring whose grips coincide gives no impulse, however strong, and reports `force * dt` (`C61_coincident_violated`,
  `C61_coincident_case`; /repo/dampedspring.go:44-50). Too stiff for the time step (stiffness * (1/m1 + 1/m2) * dt^2 beyond 2 * (1 + e^decay)) it throws
  its bodies through each other (`C61_too_stiff`).
* C62 `MaxForce` does not bound what a joint does if the time step grows: the stored impulse is applied in proportion to the new length before the
  limit is checked against the unscaled sum, so a motor that used all of its force gives up to `MaxForce * (2 * dt - last dt)` and reports
  `MaxForce * dt` (`C62_longer_step_violated`, `C62_longer_step_case`; /repo/space.go:744-750, /repo/simplemotor.go:29-55).
* C64 moving a body (`SetPosition`, `SetAngle`, `SetTransform`) does not move its shapes: they follow in the next `Step` if the body is awake, and not at all
  if it is static, until `ReindexShape`; until then queries and collisions answer for the old place
  (`C64_inPlace`: `Call.displaces`; documented for static bodies only).
* C63 a body that falls asleep keeps the velocity it had (and its force and torque) and goes on with it when it is woken, however long it slept
  (`C63_falls_asleep`, `C63_resumes`; /repo/space.go:598-624 deactivates it before velocities are integrated). While it sleeps `Velocity()` reports the
  stale value, and contacts with it see it (it is woken first).
