{"id": "C01", "title": "HashSet is a finite map", "statement": "For a HashSet whose equality identifies keys with elements through a class (equal keys have equal hashes), any sequence of Insert, Remove and Filter behaves like a finite map from key classes to elements: Insert returns the stored element if the class is present and otherwise stores the new one, Find returns the stored element or nothing, Remove returns and deletes it, Filter keeps exactly the elements its predicate accepts.", "quantifier": "every key type, equality, hash function, table history (including every resize) and every operation sequence", "why_tests_cant": "Bugs show only for particular hash collisions, bucket orders and resize points; tests sample a handful of keys.", "anchors": ["hashset.go: NewHashSet, Insert, Remove, Find, Filter, resize, nextPrime"]}
{"id": "C02", "title": "HashSet Count and Each are exact", "statement": "After any operation sequence Count equals the number of stored elements, and Each calls its function exactly once for every stored element and for nothing else.", "quantifier": "every operation sequence, hash function and table size", "why_tests_cant": "A double visit or a lost element after a resize needs a specific interleaving of inserts, removes and collisions.", "anchors": ["hashset.go: Count, Each, resize"]}
{"id": "C03", "title": "HashSet growth is safe up to the last prime", "statement": "Insert never divides by zero or indexes the prime table out of range while fewer than 1610612741 elements are stored; the number of entries always stays strictly below the table size; past the end of the prime table growth fails.", "quantifier": "every operation sequence", "why_tests_cant": "No test can insert 1.6 billion elements; the load-factor invariant must hold after every history.", "anchors": ["hashset.go: nextPrime, resize, primes"]}
{"id": "C04", "title": "Collision handler lookup is order-insensitive and stable", "statement": "NewCollisionHandler(a,b) returns one handler per unordered pair of types: registering (a,b) or (b,a) again returns the same handler, a collision between types a and b in either order finds it, other registrations never change it, and a pair never registered gets the default handler. Arbiter.Shapes() then presents the shape whose type is the handler's TypeA first.", "quantifier": "every sequence of registrations and every pair of 64-bit collision types", "why_tests_cant": "2^128 type pairs and every registration history, including hash collisions of the pair hash.", "anchors": ["space.go: NewCollisionHandler, NewWildcardCollisionHandler, LookupHandler", "collision.go: HashPair", "arbiter.go: Update, Shapes"]}
{"id": "C05", "title": "Shape filters", "statement": "ShapeFilter.Reject is symmetric; two shapes in the same non-zero group never collide; otherwise they collide exactly when each one's categories share a bit with the other's mask; SHAPE_FILTER_NONE is rejected by everything and SHAPE_FILTER_ALL collides with every filter having a non-zero category and mask.", "quantifier": "every pair of filters (all 64-bit groups, categories and masks)", "why_tests_cant": "2^384 filter pairs.", "anchors": ["everything.go: ShapeFilter.Reject, SHAPE_FILTER_ALL, SHAPE_FILTER_NONE"]}
{"id": "C06", "title": "Tree queries are complete and report each object once", "statement": "After any history of Insert, Remove, ReindexObject and ReindexQuery on the static and dynamic BBTree indexes, Query(bb) calls its function exactly once for every object whose indexed box intersects bb and for no other object. In particular no object whose current bounding box was inside its indexed box and intersects bb is missed.", "quantifier": "every operation history, every set of boxes, every query box, any float64 rounding behaviour in the insertion cost (non-NaN)", "why_tests_cant": "Tree shape depends on the whole history; a wrong ancestor box after one removal loses objects only for particular queries.", "anchors": ["bbtree.go: Insert, Remove, LeafUpdate, SubtreeInsert, SubtreeRemove, ReplaceChild, Query, SubtreeQuery", "bb.go: Merge, Intersects"]}
{"id": "C07", "title": "Tree membership", "statement": "After any history, Contains, Count and Each of a BBTree index reflect exactly the objects inserted and not yet removed, and the leaves of the tree are exactly these objects, each once.", "quantifier": "every operation history", "why_tests_cant": "History-dependent: remove/reindex of leaves at every depth.", "anchors": ["bbtree.go: Count, Contains, Each, Insert, Remove"]}
{"id": "C08", "title": "Broad phase reports every overlapping pair exactly once", "statement": "ReindexQuery on the dynamic index calls its function exactly once for every unordered pair of distinct dynamic objects, and every pair of a dynamic and a static object, whose indexed boxes intersect, and for no other pair, whatever objects moved, were added, removed or reindexed before; so two shapes with overlapping bounding boxes never miss, and never get twice, a collision check in a step.", "quantifier": "every history of Insert/Remove/ReindexObject/ReindexQuery on both indexes and every motion of the objects", "why_tests_cant": "The pair cache depends on time stamps and on tree order; a missed or doubled pair needs a specific history.", "anchors": ["bbtree.go: ReindexQuery, MarkSubtree, MarkLeaf, MarkLeafQuery, PairInsert, PairsClear, LeafAddPairs, IncrementStamp"]}
{"id": "C09", "title": "Ray casts through the tree find the first hit", "statement": "BBTree.SegmentQuery with a first-hit callback returns the smallest hit fraction over all objects, whatever the tree shape, provided every object's hits lie inside its indexed box; with a callback returning 1 it visits every object whose box is entered before the end of the segment exactly once. With a non-zero query radius Space.SegmentQuery/SegmentQueryFirst do not have this property: a shape within the radius whose box the thin segment misses is not reported.", "quantifier": "every tree, segment and set of hit fractions", "why_tests_cant": "Pruning errors need specific tree shapes and hit orders.", "anchors": ["bbtree.go: SubtreeSegmentQuery, SegmentQuery", "space.go: SegmentQuery, SegmentQueryFirst, queryFirst, segmentQuery"]}
{"id": "C10", "title": "BB.SegmentQuery is the exact first entry fraction", "statement": "BB.SegmentQuery(a,b) returns the least t in [0,1] with a+t(b-a) inside the box when there is one and INFINITY otherwise; IntersectsSegment is true exactly when the segment meets the box.", "quantifier": "every box and segment, including axis-parallel and degenerate segments (exact real arithmetic)", "why_tests_cant": "Infinitely many boxes and segments; parallel and touching cases.", "anchors": ["bb.go: SegmentQuery, IntersectsSegment"]}
{"id": "C11", "title": "Bounding-box algebra", "statement": "Merge is the least box containing both arguments, Expand the least box containing the box and the point; Contains and ContainsVect agree with point-set inclusion; Intersects holds exactly when the boxes share a point; ClampVect returns the point of the box nearest to the argument; MergedArea is the area of Merge; Transform.BB contains the image of every point of the box and is the least such box.", "quantifier": "all boxes and points", "why_tests_cant": "Universally quantified over reals; degenerate boxes.", "anchors": ["bb.go: Merge, Expand, Contains, ContainsVect, Intersects, ClampVect, MergedArea", "transform.go: BB"]}
{"id": "C12", "title": "Transform algebra", "statement": "Mult composes transforms, is associative with identity NewTransformIdentity; Inverse is a two-sided inverse of every transform with non-zero determinant; NewTransformRigidInverse inverts every rigid transform; Wrap conjugates; rigid transforms preserve distances and cross products.", "quantifier": "all transforms, points and angles (exact real arithmetic)", "why_tests_cant": "Algebraic identities over all reals.", "anchors": ["transform.go: Mult, Inverse, NewTransformRigidInverse, NewTransformRigid, Point, Vect, Wrap"]}
{"id": "C13", "title": "Body coordinates are consistent", "statement": "After any sequence of SetPosition, SetAngle, mass/shape changes and position integration the body's transform is the rigid motion of its angle and position: SetPosition(p) makes Position() return p, Angle() returns the last angle set, Rotation() is a unit vector, LocalToWorld and WorldToLocal are inverse to each other, the centre of gravity maps to the internal position, SetAngle rotates about the centre of gravity, and changing the mass distribution never moves Position().", "quantifier": "every operation sequence and all real arguments (exact arithmetic)", "why_tests_cant": "Every history of mixed setters; identities over the reals.", "anchors": ["body.go: SetPosition, Position, SetAngle, SetTransform, BodyUpdatePosition, AccumulateMassFromShapes, WorldToLocal, LocalToWorld"]}
{"id": "C14", "title": "Mass, centre of gravity and moment from shapes", "statement": "For any list of shapes AccumulateMassFromShapes yields total mass = sum of positive shape masses, centre of gravity = mass-weighted mean, and moment = sum of m*(i+|c-cog|^2) (parallel axis theorem about the combined centre of gravity); the result does not depend on the order of the shapes, and RemoveShape followed by AddShape restores it.", "quantifier": "every number, order and mass distribution of shapes", "why_tests_cant": "Unbounded number of shapes; order independence.", "anchors": ["body.go: AccumulateMassFromShapes, AddShape, RemoveShape"]}
{"id": "C15", "title": "The solver conserves momentum", "statement": "Every contact and joint impulse between finite-mass bodies (and any sequence of them, for any number of iterations and bodies) leaves their total linear momentum unchanged, so over a whole step without damping it changes only by gravity and applied forces; contact, pivot, pin, slide and spring impulses applied at a shared point (or along the line between anchors) and motor, rotary-limit, ratchet and rotary-spring impulses leave total angular momentum unchanged.", "quantifier": "all bodies, anchors, impulses, iteration counts and interleavings of contacts and joints (exact arithmetic)", "why_tests_cant": "Conservation over arbitrary sequences of impulses over the reals.", "anchors": ["arbiter.go: apply_impulses, apply_bias_impulses, ApplyImpulse, ApplyCachedImpulse", "*joint.go, dampedspring.go, dampedrotaryspring.go, simplemotor.go: ApplyImpulse, ApplyCachedImpulse, PreStep"]}
{"id": "C16", "title": "Static and kinematic bodies are immovable", "statement": "No contact or joint impulse, in any sequence, changes the linear or angular velocity (or bias velocity) of a static or kinematic body, and gravity, forces and damping do not change a kinematic body's velocity. Calling SetMass or SetMoment on a static body breaks this: it keeps its static type but impulses then move it.", "quantifier": "all impulse sequences and bodies", "why_tests_cant": "Every sequence of solver operations.", "anchors": ["body.go: SetType, BodyUpdateVelocity", "arbiter.go: apply_impulses, apply_bias_impulses"]}
{"id": "C17", "title": "Contacts only push, within the friction cone", "statement": "After any number of solver iterations on an arbiter whose stored impulses came from earlier iterations, every contact's accumulated normal impulse and bias impulse are non-negative and its tangential impulse is at most friction times the normal impulse.", "quantifier": "every number of iterations, contacts, bodies and velocities", "why_tests_cant": "Invariant over unbounded iteration.", "anchors": ["arbiter.go: ApplyImpulse", "vector.go: Clamp"]}
{"id": "C18", "title": "Joints respect MaxForce and their direction", "statement": "After ApplyImpulse with time step dt the impulse reported by GetImpulse is at most MaxForce*dt for pin, slide, pivot, groove, gear, ratchet, rotary-limit and motor joints; slide joints only pull towards the allowed range, rotary-limit joints only push back into range, ratchets only act in their direction; the bias of every joint is at most MaxBias.", "quantifier": "every joint state, body state and dt > 0, over any number of iterations", "why_tests_cant": "Invariant over unbounded iteration and all reals.", "anchors": ["pinjoint.go, slidejoint.go, pivotjoint.go, groovejoint.go, gearjoint.go, ratchetjoint.go, rotarylimitjoint.go, simplemotor.go: ApplyImpulse, PreStep"]}
{"id": "C19", "title": "An unclamped impulse solves its constraint", "statement": "If the impulse limit does not bind, ApplyImpulse makes the joint's relative velocity equal its target: the relative normal velocity equals the bias for pin joints, the full relative velocity equals the bias for pivot joints, b.w*ratio-a.w equals the bias for gear joints, the relative spin equals -Rate for motors, and an unclamped frictionless contact impulse makes the normal velocity equal minus the bounce target.", "quantifier": "all bodies, anchors and velocities with non-singular effective mass (exact arithmetic)", "why_tests_cant": "Algebraic identity over all reals; a wrong effective mass still looks plausible in tests.", "anchors": ["everything.go: k_scalar, k_tensor", "pinjoint.go, pivotjoint.go, gearjoint.go, simplemotor.go: PreStep, ApplyImpulse", "arbiter.go: PreStep, ApplyImpulse"]}
{"id": "C20", "title": "Every body is in exactly one list", "statement": "After any sequence of AddBody, RemoveBody, SetType, putting components to sleep, Activate and locked/unlocked wake-ups, EachBody visits exactly the bodies of the space, each once: a static body is in the static list, an awake one in the dynamic list, a sleeping one in exactly one sleeping component (the space's own static body is not visited). SetType on a sleeping body violates this: the body is then visited twice.", "quantifier": "every history of body operations (any number of bodies and components)", "why_tests_cant": "Histories mixing sleeping, waking while locked and type changes.", "anchors": ["space.go: AddBody, RemoveBody, Activate, Deactivate, Unlock, EachBody", "body.go: SetType, Activate"]}
{"id": "C21", "title": "SetGravity wakes everything", "statement": "After SetGravity no body is sleeping, if at most two components slept before. With three or more the code violates the intended property: of the n sleeping components exactly (n-1)/2 stay asleep, the second, fourth, ... in the order in which they fell asleep, not counting the last.", "quantifier": "every number of sleeping components", "why_tests_cant": "Depends on removing from a slice while ranging over it; fails only from three components on.", "anchors": ["space.go: SetGravity", "body.go: Activate"]}
{"id": "C22", "title": "Post-step callbacks run exactly once", "statement": "Every callback for which AddPostStepCallback returned true is executed exactly once, at the first moment after registration the outermost lock is released with callbacks enabled, in registration order; at most one pending callback per non-nil key.", "quantifier": "every nesting of locks, every registration history including registrations made from inside callbacks", "why_tests_cant": "Re-entrancy histories.", "anchors": ["space.go: Lock, Unlock, AddPostStepCallback, PostStepCallback"]}
{"id": "C23", "title": "Collision callback protocol", "statement": "Every pair of shapes is at any moment apart, touching, ignored or in the hands of the solver. Begin is called exactly in the steps in which the shapes have contacts and were apart; PreSolve exactly in the steps with contacts that are not ignored (by an earlier answer or by the Begin of that step); PostSolve exactly in the steps that leave the pair in the hands of the solver with a body that does not rest; Separate once when a shape of a pair that is not apart is removed, and exactly in the steps without contacts of a pair that is not apart whose bodies do not both rest. No other operation calls a callback or changes the state of a pair. In every history no second Begin without a Separate, no Separate without a Begin. Separate waits while both bodies rest; a pair woken by a collision gets PostSolve without PreSolve; a pair whose bodies fall asleep in the step gets none.", "quantifier": "every sequence of steps, contact sets, callback return values and shape removals", "why_tests_cant": "Temporal property over all contact histories and callback answers.", "anchors": ["space.go: SpaceCollideShapesFunc, Step", "hashset_arbiter.go: SpaceArbiterSetFilter, CachedArbitersFilter", "arbiter.go: Init, Update, Ignore"]}
{"id": "C24", "title": "Contact memory is not recycled while in use", "statement": "At every moment of every history: contacts lie within their buffer of 1024; contacts of two arbiters updated within the last three steps never overlap; the memory handed out for new contacts holds no contact of such an arbiter (in particular not the old contacts of the same pair, which are read while the new ones are written); a buffer is reused exactly when it is older than three steps. As long as resting bodies are roused by collisions only, every arbiter the collision function finds in its cache was updated within the last three steps, so what it reads is intact. A program that itself wakes two bodies which fell asleep in the step after they separated makes the next collision read contacts that have been overwritten by another pair.", "quantifier": "every history of operations, steps and collision counts, every moment between the pairs of a step", "why_tests_cant": "Use-after-recycle depends on step history and buffer overflow.", "anchors": ["space.go: PushFreshContactBuffer, ContactBufferGetArray, PushContacts, PopContacts, Activate, SpaceCollideShapesFunc", "contactbuffer.go: InitHeader", "hashset_arbiter.go: SpaceArbiterSetFilter"]}
{"id": "C25", "title": "Islands fall asleep exactly together", "statement": "When sleeping is enabled, after the contact-graph pass a dynamic body is put to sleep exactly when every dynamic body connected to it through contacts and joints (paths through dynamic bodies) has been idle for at least SleepTimeThreshold; components are exactly the connected components of that graph.", "quantifier": "every contact graph, joint graph and idle times", "why_tests_cant": "Arbitrary graphs.", "anchors": ["space.go: ProcessComponents, FloodFillComponent, ComponentActive, Deactivate", "body.go: ComponentAdd"]}
{"id": "C26", "title": "Constraint lists", "statement": "After any sequence of AddConstraint and RemoveConstraint, Body.EachConstraint visits exactly the space's constraints attached to that body, each once, newest first, and Space.EachConstraint exactly the added and not removed constraints, except those attached to a sleeping body. SetType on a static body joined to a sleeping one violates this: the joint is lost to Space.EachConstraint and the solver.", "quantifier": "every history of additions and removals over any bodies (constraints between two different bodies)", "why_tests_cant": "Intrusive linked lists threaded through two bodies; pointer histories.", "anchors": ["space.go: AddConstraint, RemoveConstraint, EachConstraint", "body.go: RemoveConstraint, filterConstraints, EachConstraint", "constraint.go: Next"]}
{"id": "C27", "title": "Arbiter lists", "statement": "After any history of threading and unthreading arbiters, Body.EachArbiter visits exactly the arbiters threaded for that body, each once, and unthreading an arbiter that is in no list changes nothing.", "quantifier": "every history over any contact graph", "why_tests_cant": "Doubly linked intrusive lists shared between two bodies.", "anchors": ["body.go: PushArbiter, EachArbiter", "arbiter.go: Unthread, unthreadHelper, ThreadForBody, Next"]}
{"id": "C28", "title": "Convex hull", "statement": "ConvexHull with zero tolerance never goes out of bounds, returns a count between 1 and the number of points and overwrites the array (at most the given elements) so that the first count vertices are different input points in counter-clockwise order, no input point is to the right of an edge, and their convex hull is that of the input; the first one is the least by x, then y, and its old index is reported. If the points are not all on one line there are at least three vertices; if no three different points are on one line they form a strictly convex polygon (in general a vertex can be left in the middle of an edge: of equally far points the first is taken). NewPolyShape therefore makes a shape that consists of the points within its radius of the hull of the transformed points.", "quantifier": "every list of points (any length, duplicates and collinear points included), exact arithmetic", "why_tests_cant": "In-place quickhull with aliasing of input and output; unbounded inputs.", "anchors": ["poly.go: ConvexHull, LoopIndexes, QHullReduce, QHullPartition, NewPolyShape"]}
{"id": "C29", "title": "Shape bounding boxes are sound", "statement": "The box returned by Update/CacheBB contains every point of the transformed shape: all points within the radius of the circle centre, of the segment, and of the convex hull of the polygon's vertices; and each side touches the shape.", "quantifier": "every shape, radius >= 0 and rigid transform", "why_tests_cant": "Universally quantified over points of the shape.", "anchors": ["circle.go: CacheData", "segment.go: CacheData", "poly.go: CacheData"]}
{"id": "C30", "title": "Point queries return true distances", "statement": "Circle, Segment and (strictly convex) PolyShape PointQuery return the signed distance from the point to the shape and a surface point at that distance; for any query point the closest point on a segment is really the closest. Exceptions: for the centre of a circle, a point on the core of a segment or on the boundary of the core polygon only the distance is right, the surface point is not (NaN or the query point itself).", "quantifier": "all shapes and points", "why_tests_cant": "Universally quantified over reals.", "anchors": ["circle.go: PointQuery", "segment.go: PointQuery", "vector.go: ClosestPointOnSegment"]}
{"id": "C31", "title": "Spatial hash queries are complete and report each object once", "statement": "With UseSpatialHash, Query calls its function at most once per stored object and for every stored object whose box intersects the query box, after any history of Insert, Remove, ReindexObject and ReindexQuery; ReindexQuery reports each pair at most once and every pair with intersecting boxes. Objects reported without intersecting share a bucket. Two violations: Reindex empties the table, so every later query is empty; a callback that queries the same index makes the outer query (or ReindexQuery) report objects (pairs) twice.", "quantifier": "every history, cell size > 0, table size > 0 and all boxes", "why_tests_cant": "Hash collisions between cells and handle reuse depend on the history.", "anchors": ["spacehash.go: hashHandle, Query, queryHelper, ReindexQuery, Remove, ReindexObject, Reindex"]}
{"id": "C32", "title": "Circle collisions and contact counts", "statement": "Two circles produce a contact exactly when the distance of their centres is less than the sum of radii, with unit normal and surface points at penetration distance; a circle and a segment exactly when a point of the segment is closer to the centre than that sum. No pair of shapes ever yields more than two contacts or panics, and every contact point lies in its shape. ShapesCollide(b,a) mirrors ShapesCollide(a,b) for circles with different centres; for shapes of different classes normal and points are mirrored but the sign of Distance is wrong (violation), concentric circles get the same normal in both orders (violation), and a circle against a polygon with a radius gets its contact on the wrong side of the polygon (violation).", "quantifier": "all circles and segments; all shape pairs for the contact bound, the position of contacts and the order of arguments", "why_tests_cant": "Universally quantified.", "anchors": ["collision.go: CircleToCircle, CircleToSegment, ContactPoints, Collide", "shape.go: ShapesCollide", "everything.go: PushContact"]}
{"id": "C33", "title": "GJK terminates and its answer is sound", "statement": "GJK/EPA terminate for every pair of shapes and starting id, whatever the rounding of the comparisons; the closest points returned are points of the two shapes; if the iteration limit is not hit, the returned distance never exceeds the distance of any two points of the shapes (no collision is missed), a positive distance is the true distance with a separating normal, a negative one is the depth of a true overlap along the normal. A distance of exactly 0 from the axis check can be wrong: shapes further apart than their radii are then reported as touching (violation).", "quantifier": "all shapes and cached collision ids", "why_tests_cant": "Termination must hold for every input; the swap step does not count as an iteration.", "anchors": ["collision.go: GJK, GJKRecurse, EPA, EPARecurse, ClosestPoints", "vector.go: PointGreater, CheckAxis, ClosestT"]}
{"id": "C34", "title": "Collecting segments keeps exactly the segments", "statement": "PolyLineCollectSegment adds exactly the given directed segment to the multiset of directed edges of the polyline set and loses none; segments that form simple closed contours come out as closed lines, in whatever order they are collected.", "quantifier": "every polyline set and every sequence of segments", "why_tests_cant": "Joining, extending and closing lines depends on the whole history.", "anchors": ["polyline.go: PolyLineCollectSegment, Join, FindEnds, FindStarts, Push, Enqueue"]}
{"id": "C35", "title": "Marching squares sample once and give balanced contours", "statement": "MarchSoft and MarchHard sample every grid point exactly once, row by row, and the emitted directed segments form contours with no loose end inside the sampled area: at every point strictly inside, the number of segments starting there equals the number ending there. If no sample on the border exceeds the threshold (and, for MarchSoft, none equals it), collecting the segments with PolyLineCollectSegment gives only closed lines, made of exactly these segments.", "quantifier": "every grid size and sample function", "why_tests_cant": "All grids and sample values.", "anchors": ["march.go: MarchCells, MarchCellSoft, MarchCellHard, seg, segs"]}
{"id": "C36", "title": "Polyline simplification is safe", "statement": "With a tolerance that is not negative, SimplifyCurves, when it returns, keeps the first and last vertex of an open line (of a closed line: the least vertex, and the result is closed) and a subsequence of the others, leaves a vertex out only when it is within the tolerance of the line through its kept neighbours, and the reduced line is nowhere farther than the tolerance from the original. It returns whenever no two vertices are within tol/2. It panics on every open line of three or more vertices whose ends are within tol/2 (violation), and a vertex it leaves out can be arbitrarily far from the reduced line (violation). SimplifyVertexes keeps the ends of an open line and a subsequence of the rest; a closed line can come back open (violation).", "quantifier": "every polyline and tolerance", "why_tests_cant": "Unbounded polylines.", "anchors": ["polyline.go: SimplifyCurves, SimplifyVertexes, DouglasPeucker, IsShort, Sharpness", "poly.go: LoopIndexes"]}
{"id": "C37", "title": "Mass property formulas are invariant", "statement": "CentroidForPoly is translation-equivariant and independent of the starting vertex, AreaForPoly is translation-invariant, MomentForPoly about the centroid does not change when the polygon is translated with the offset following, and for boxes the formulas agree with MomentForBox and width*height.", "quantifier": "every polygon with any number of vertices and non-zero area", "why_tests_cant": "Unbounded vertex lists over the reals.", "anchors": ["everything.go: CentroidForPoly, AreaForPoly, MomentForPoly, MomentForBox, MomentForBox2"]}
{"id": "C38", "title": "Locking", "statement": "Every public query and iteration leaves the lock count as it found it, wake-ups requested while locked are deferred and all performed, each once, when the outermost lock is released.", "quantifier": "every nesting depth and sequence of wake-ups", "why_tests_cant": "Nesting histories.", "anchors": ["space.go: Lock, Unlock, Activate, EachBody, EachShape, BBQuery"]}
{"id": "C39", "title": "ShapeQuery's result", "statement": "ShapeQuery calls the callback exactly once for every other non-filtered shape that overlaps the given shape (ShapesCollide finds contacts and the boxes meet). If it returns true, some overlapping shape and the given one are not sensors; when no sensor is involved it returns true exactly when there is an overlap. With sensors it can return false although there is a real collision (violation): only the last overlap found decides, and static shapes are visited last. The given shape's box is first brought to its body's transform, so an overlap with a shape whose own box is up to date is never missed because of the boxes.", "quantifier": "every set of shapes and every iteration order", "why_tests_cant": "Depends on the order in which overlaps are found.", "anchors": ["space.go: ShapeQuery"]}
{"id": "C40", "title": "Nearest point query", "statement": "PointQueryNearest returns a shape with the smallest signed distance (negative inside) among the non-sensor, non-filtered shapes closer than maxDistance, or no shape if there is none, for any history of the index.", "quantifier": "every set of shapes, point and maxDistance >= 0", "why_tests_cant": "Depends on tree pruning and on visiting order.", "anchors": ["space.go: PointQueryNearest, NearestPointQueryNearest"]}
{"id": "C41", "title": "Clamping and interpolation helpers", "statement": "Clamp(f,min,max) with min<=max is the nearest value in [min,max]; Clamp01 likewise in [0,1]; Vector.Clamp never exceeds the length; LerpConst moves towards the target by at most d and reaches it if closer; Lerp hits the end points.", "quantifier": "all arguments", "why_tests_cant": "Universally quantified.", "anchors": ["vector.go: Clamp, Clamp01, Vector.Clamp, LerpConst, Lerp"]}
{"id": "C42", "title": "Pair list pointers of the broad phase", "statement": "The doubly linked pair lists threaded through two leaves stay consistent: after any history of pair insertions and leaf clears every leaf's list contains exactly the live pairs of that leaf, each once, and clearing one leaf removes its pairs from all partners' lists without touching others; recycled pairs are never reachable from a live list.", "quantifier": "every history of pair operations", "why_tests_cant": "Pointer aliasing between two intrusive lists and a free list.", "anchors": ["bbtree.go: PairInsert, PairsClear, Unlink, PairFromPool, RecyclePair"]}
{"id": "C43", "title": "Reported impulses are the impulses applied", "statement": "With an unchanged time step, Constraint.GetImpulse (for every joint type except DampedRotarySpring) and Arbiter.TotalImpulse describe exactly the impulse the joint or contact gave to its second body during the step: the warm start plus every iteration, linear part and moment, whatever other contacts and joints did in between. DampedRotarySpring violates this: its damping impulses enter the reported value with the wrong sign.", "quantifier": "every joint type, body state, number of iterations and interleaving (exact arithmetic)", "why_tests_cant": "Sum over an unbounded, interleaved sequence of impulses.", "anchors": ["constraint.go: Constrainer.GetImpulse", "*joint.go, dampedspring.go, dampedrotaryspring.go, simplemotor.go: PreStep, ApplyCachedImpulse, ApplyImpulse, GetImpulse", "arbiter.go: TotalImpulse, ApplyCachedImpulse, ApplyImpulse"]}
{"id": "C44", "title": "No panic, no hang, no side effects", "statement": "No sequence of the public operations AddBody/Shape/Constraint, RemoveBody/Shape/Constraint, SetType, Activate, ActivateStatic, SetGravity, SleepTimeThreshold, queries with callbacks (nested in any way) and Step panics, fails an assertion or loops forever, as long as the program respects the documented preconditions and position functions and Begin/PreSolve callbacks wake no sleeping body; and every operation adds or removes exactly the named object. Waking a sleeping body from a Begin or PreSolve callback violates it: Step never returns.", "quantifier": "every history of operations, any number of bodies, shapes and constraints, any contacts reported in any order", "why_tests_cant": "Unbounded histories over intrusive lists.", "anchors": ["space.go: Step, ProcessComponents, FloodFillComponent, Activate, Deactivate, AddShape, RemoveShape", "body.go: Activate, SetType"]}
{"id": "C45", "title": "Segment queries against a shape give the first contact", "statement": "SegmentQuery of a circle, and of a polygon without radius with a thin ray, reports a hit exactly when a disc of the query radius moved from a to b touches the shape, with the smallest such fraction as Alpha (0 when it already touches at the start), and the point of a thin ray's hit is that point of the ray. For rounded polygons, rays with a radius against polygons (both with unit normals) and segment shapes seen from a start farther from the line of the segment than the radii the reported hit is the first contact as well, and a miss means that there is no contact before the very end of the ray. Violations: a ray that starts beside an end cap of a thick segment, between the two long sides, and leaves through a long side gets the fraction of the way out; a thin ray along the line of a thin segment misses it.", "quantifier": "every circle, strictly convex polygon with any number of vertices, segment shape, ray with different end points and radius >= 0 (exact arithmetic)", "why_tests_cant": "Universally quantified geometry; any number of vertices.", "anchors": ["shape.go: SegmentQuery", "circle.go: SegmentQuery, CircleSegmentQuery", "segment.go: SegmentQuery", "poly.go: SegmentQuery"]}
{"id": "C46", "title": "BBQuery", "statement": "After any history of the indexes, BBQuery calls its function exactly once for every shape of the space that passes the filter and whose current bounding box meets the given box, sensors included, and for no other shape (the indexed boxes containing the current ones).", "quantifier": "every history, set of shapes, filter and query box", "why_tests_cant": "Depends on the tree shape of both indexes.", "anchors": ["space.go: BBQuery, bbQuery", "bbtree.go: Query"]}
{"id": "C47", "title": "Mass properties are the integrals over the shapes", "statement": "In exact arithmetic AreaForPoly, CentroidForPoly and MomentForPoly of a strictly convex counter-clockwise polygon are its area including the rounded border of the radius, its centre of gravity and the integral of the squared distance from the body's centre over the polygon moved by the offset (per unit of area, times the mass); AreaForSegment is the area of the thick segment; AreaForCircle and MomentForCircle are those of the ring between the two radii; MomentForBox and MomentForBox2 are those of the rectangle; MomentForSegment is that of the rectangle reaching the radius beyond the segment on all sides, and without radius that of the mass spread along the segment.", "quantifier": "every strictly convex polygon with any number of vertices, every radius, offset, mass, segment, ring and box (exact arithmetic)", "why_tests_cant": "Integrals over regions; any number of vertices.", "anchors": ["everything.go: AreaForPoly, CentroidForPoly, MomentForPoly, AreaForSegment, MomentForSegment, AreaForCircle, MomentForCircle, MomentForBox, MomentForBox2"]}
{"id": "C48", "title": "Contacts of segments and polygons", "statement": "Two segments made by NewSegment or strictly convex polygons (radii included) that overlap by more than the code's constant 1e-15 costs get at least one contact, whenever GJK ends regularly with the cores apart (or, for overlapping cores, with closest points over each other along the normal); the two points of every contact lie over each other along the normal up to 3e-15. The contacts of two segments or polygons carry ids made of the shapes' ids and one vertex of each, and two contacts of one pair differ in both vertices; contacts with circles carry the id 0. After SetEndpoints the normal of a segment has the opposite sign and the points of a contact belong to opposite ends (violation); thick segments in one line that touch end to end get a normal across the line (violation).", "quantifier": "every pair of segments and strictly convex polygons in every position, every radius and id (exact arithmetic)", "why_tests_cant": "All positions and shapes; the contact construction has a case for every relative position.", "anchors": ["collision.go: ContactPoints, SupportEdgeForPoly, SupportEdgeForSegment, SegmentToSegment, SegmentToPoly, PolyToPoly", "segment.go: NewSegment, SetEndpoints"]}
{"id": "C49", "title": "Who wakes, and whose idle time starts again", "statement": "AddBody/RemoveBody, AddShape/RemoveShape, AddConstraint/RemoveConstraint, Activate, ActivateStatic, SetSleepTimeThreshold and queries with waking callbacks wake exactly the sleeping components of the dynamic bodies they disturb (the body added to or removed from, the ends of a constraint, the bodies touching the removed shape of a static body) and start the idle time again of exactly those components, the disturbed bodies and the non-static bodies touching them; every other body keeps its sleep and its idle time. Step wakes exactly the components with a body that has a contact handed to the solver; the idle time of a body touched or joined by a kinematic body is zero after the step, and an undisturbed body's idle time is what its speed says. SetType wakes nobody; it resets the idle times of touching bodies only when a kinematic body becomes dynamic (not when a dynamic body becomes static or kinematic, because Activate then sees the new type).", "quantifier": "every history of public operations with callbacks, every body", "why_tests_cant": "Which components exist and who touches whom depends on the whole history; an unwoken body stays frozen in mid-air only in rare configurations.", "anchors": ["body.go: Activate, ActivateStatic, SetType", "space.go: AddShape, RemoveShape, AddConstraint, RemoveConstraint, RemoveBody, ProcessComponents, Step"]}
{"id": "C50", "title": "Whole runs obey Newton's laws", "statement": "For every history of Steps (any contacts, joints, iteration counts and time steps) and of ApplyForce/ApplyImpulse calls, a group of awake dynamic bodies that is in contact with and joined to no other body has, as a whole, the momentum and the centre of mass of a single point mass under the same gravity, damping, forces and impulses: contacts (position correction included) and joints within the group never move its centre of mass. In closed form n undamped steps of length t take the velocity V to V+n*t*g and move the centre by n*t*V+n(n-1)/2*t^2*g; with damping the velocity approaches t*g/(1-d). Without contacts, and with joints other than pivots, grooves and gears of ratio not 1, the angular momentum changes only by the weight's moment at the centre of mass, damping and the impulses' moments. A body nothing touches is a function of its own history alone; a kinematic body keeps its velocity and moves by it, and a static body does not move, whatever hits or is joined to them.", "quantifier": "every history of steps and pushes, every group of bodies, every contact set, joint configuration and iteration count", "why_tests_cant": "Drift of the centre of mass accumulates over many steps and only shows for particular contact and joint configurations; no finite set of scenes covers them.", "anchors": ["space.go: Step", "body.go: BodyUpdatePosition, BodyUpdateVelocity, ApplyForceAtWorldPoint, ApplyImpulseAtWorldPoint", "arbiter.go: ApplyImpulse, ApplyCachedImpulse, PreStep"]}
{"id": "C51", "title": "Which collision callbacks run and what they are told", "statement": "After any history of NewCollisionHandler, NewWildcardCollisionHandler and assignments to handler fields, each Begin, PreSolve, PostSolve and Separate of a pair of shapes calls exactly these user functions: the function stored in the handler of the two types (the first one registered for them in either order), with the shape of the handler's TypeA first; if there is none, the function of the wildcard handler of the first type with that shape first and then that of the second type with its shape first (Begin and PreSolve: the second only after a yes, the answer being the conjunction). The handlers are those registered when the shapes last touched, the functions and the data those stored now. CallWildcard functions called by user functions follow the same rule, and afterwards the order of the shapes is as before. Nothing is dereferenced through nil and nothing recurses without end. Begin, PreSolve, Separate and the wildcard functions get UserData, but PostSolve gets the handler itself (violation of the documentation), and NewCollisionHandler with the wildcard type makes collisions recurse without end (violation).", "quantifier": "every history of registrations and assignments, every pair of collision types, every behaviour of the user functions", "why_tests_cant": "All registration orders and all combinations of present and absent handlers and functions; the answers of user functions are arbitrary.", "anchors": ["arbiter.go: Update, CallWildcardBeginA, CallWildcardBeginB, DefaultBegin, DefaultPreSolve, DefaultPostSolve, DefaultSeparate, Shapes", "space.go: NewCollisionHandler, NewWildcardCollisionHandler, LookupHandler, UseWildcardDefaultHandler, SpaceCollideShapesFunc, Step"]}
{"id": "C52", "title": "What an arbiter shows and what it remembers", "statement": "Right after a collision is detected ContactPointSet lists exactly the detected points with their signed gap along the normal; when the shapes are presented in the other order, normal and TotalImpulse are reversed, the points exchanged and the distances equal, and every distance is the gap from the first shape's point to the second's along the reported normal. SetContactPointSet with the right number of points is read back unchanged (distances measured anew) and changes nothing but normal and points; writing back what was read changes nothing. A separated pair shows no points and no impulse. A contact starts from the accumulated impulses of the old contact with the same identity and from zero if there is none. A pair that separates and touches again within CollisionPersistence steps keeps the old impulses but gets no warm start, so its contacts can pull bodies together (violation).", "quantifier": "every arbiter, contact set, pair of bodies and order of shapes; warm starting for every float rounding", "why_tests_cant": "All contact configurations and orders; the pulling contact needs a particular history.", "anchors": ["arbiter.go: Update, ContactPointSet, SetContactPointSet, Normal, Count, TotalImpulse, ApplyCachedImpulse"]}
{"id": "C53", "title": "Which pairs a step tests", "statement": "After any history of public operations (adding, removing, moving and reindexing shapes, filters, joints, sleeping, waking, steps), Step runs the narrow phase for a pair of shapes exactly once if both are in the space, on different bodies, at least one body being neither static nor asleep, their filters accept each other, their boxes overlap and no constraint of the space with collideBodies off joins the two bodies (for static and sleeping shapes: while they are within their indexed boxes), and for no other pair; so two circles are reported as touching after a step exactly if they overlap. No operation panics.", "quantifier": "every history, number of shapes, geometry, tree shape and callback answer", "why_tests_cant": "Depends on the cached pairs and stamps of both trees after an unbounded history.", "anchors": ["space.go: Step, SpaceCollideShapesFunc, QueryReject, QueryRejectConstraints, ReindexShape", "bbtree.go: ReindexQuery"]}
{"id": "C54", "title": "Joints that rest and light contacts push nobody", "statement": "Bodies that all move with one velocity and do not turn, that are joined only to each other by joints that rest (pin, slide, pivot, groove, spring, rotary spring, gear, ratchet, rotary limit, motor: satisfied where the bodies are, no stored impulse) and that touch only each other within the collision slop and without stored impulses, move through any number of steps exactly like one point mass under gravity and damping: none turns, none is pushed, the joints still rest, and the contacts end the step with no impulse; at rest and without gravity (or static) they do not change at all. New joints rest where one expects: NewPinJoint and NewPivotJoint and NewRatchetJoint always, NewPivotJoint2 iff the anchors coincide, NewSlideJoint and NewRotaryLimitJoint iff within the limits, springs iff at rest length (angle) or without stiffness, NewGearJoint iff the angles fit, NewSimpleMotor iff off, NewGrooveJoint at the ends of the groove; between the ends the groove's normal is 1e-15 too short, so the joint pulls towards the origin of the world by that much (violation).", "quantifier": "every number of steps, time steps, iterations, bodies, contacts and joints; every anchor and parameter of the constructors; other bodies and joints around them arbitrary", "why_tests_cant": "A joint or contact that injects a tiny impulse at rest shows only for particular anchors, angles and histories, and as a drift over many steps.", "anchors": ["space.go: Step", "constraint.go: NewConstraint", "pinjoint.go: NewPinJoint, PreStep, ApplyImpulse", "groovejoint.go: NewGrooveJoint, PreStep", "pivotjoint.go: NewPivotJoint, NewPivotJoint2", "arbiter.go: PreStep, ApplyImpulse"]}
{"id": "C55", "title": "Segment queries after UseSpatialHash", "statement": "UseSpatialHash moves exactly the shapes of the old indexes into the new ones. After any history on the new indexes a segment query ends, asks each shape at most once, asks only shapes that share a bucket with a grid cell the segment goes through, and asks every shape whose indexed box contains a point of the segment before the segment was cut off; so SegmentQueryFirst returns a hit with the least alpha of all shapes and SegmentQuery calls back exactly once for every hit. Exceptions: a segment that starts on a grid line (multiple of the cell size, e.g. 0) and goes towards smaller coordinates goes through the wrong cells and misses shapes in its way (violation); a box touched only with its lower left corner on a crossing of the grid may be missed; hits at the very end (alpha = 1) are not looked for.", "quantifier": "every history of insertions, removals, reindexing and queries, every segment, cell size, number of buckets, callback and handle-pool choice", "why_tests_cant": "The walk through the grid has a case for every direction and every position relative to the grid lines, and the buckets, stamps and orphaned handles depend on the history.", "anchors": ["spacehash.go: SegmentQuery, segmentQueryHelper", "space.go: UseSpatialHash, SegmentQuery, SegmentQueryFirst"]}
{"id": "C56", "title": "Pooled, linked tree nodes give the same answers and none leaks", "statement": "The trees are built from nodes that are linked by parent and child pointers and are recycled through free lists. After any history of insertions, removals, moves, reindexing and pair queries: no call follows a nil or stale pointer and every call ends (only an Insert beyond the largest hash size panics); Query, Each, Count, Contains, SegmentQueryFirst and ReindexQuery answer exactly as for the abstract index; every allocated node is in exactly one of the two trees or two free lists; parent and child pointers agree and an inner node's box is the least one around its children; a shape has exactly one leaf, in the tree it was inserted into; a tree of c shapes has 2c - 1 nodes; and if an index never had more than M shapes, at most 2M + 1023 nodes were allocated for it, however long the history.", "quantifier": "every history of index operations, every tree shape, every box and velocity function, every number type with linear order", "why_tests_cant": "A pointer left unset by one removal shows only when a particular later reinsertion or refit walks through that node, and leaks only show over unbounded histories.", "anchors": ["bbtree.go: SubtreeInsert, SubtreeRemove, ReplaceChild, NewNode, NewLeaf, NodeFromPool, NodeRecycle, NodeSetA, NodeSetB, LeafUpdate, Insert, Remove, ReindexObject, ReindexQuery, Query, SegmentQuery, MarkLeaf, MarkSubtree"]}
{"id": "C57", "title": "Joints correct their errors at the rate their settings promise", "statement": "If a joint that is out of place has the last word on its bodies in a step (no later constraint of the list joins them, the step has iterations), its bodies are carried by their velocities and MaxForce does not bind, then when it next looks the share ErrorBias^dt of the error is left, or more if MaxBias limits the correction: exactly for gears and motors (rate*dt), at most (and exactly, if the joint had to push) for rotary limits and ratchets; for pivots and pins up to half of arm length times the square of the angle each body turns, and for pins up to the way the grips make across the line; what contacts push bodies apart comes on top. For slide joints one ApplyImpulse leaves the grips moving back at least that fast (up to Normalize's 1e-15). An error corrected again and again shrinks at least geometrically and vanishes; an undisturbed gear's error after n steps is the initial one corrected n times, an undisturbed motor has turned n*rate*dt.", "quantifier": "every motion, every step, every joint settings and position in the constraint list, every number of steps; real arithmetic", "why_tests_cant": "A wrong sign or factor in a bias is masked by other joints and contacts in any one scene, and drift shows only over many steps.", "anchors": ["gearjoint.go: PreStep, ApplyImpulse", "simplemotor.go: PreStep, ApplyImpulse", "rotarylimitjoint.go: PreStep, ApplyImpulse", "ratchetjoint.go: PreStep, ApplyImpulse", "pivotjoint.go: PreStep, ApplyImpulse", "pinjoint.go: PreStep, ApplyImpulse", "slidejoint.go: PreStep, ApplyImpulse", "space.go: Step", "everything.go: bias_coef"]}
{"id": "C58", "title": "Overlapping bodies are pushed apart at the configured rate, without adding speed", "statement": "If an arbiter has the last word on its two bodies in a step (the step has iterations, no later arbiter touches them), then at its last contact the pushing (pseudo) velocities separate the bodies at least at the rate (1 - collisionBias^dt) * max(0, overlap - collisionSlop) / dt, whatever joints, friction and other contacts there are; exactly at that rate, along the normal and split between the bodies in proportion to their inverse masses, if they touch only each other at one contact. (Each of the two bodies may also be one that cannot be moved, whatever else touches or joins it.) If no contact of the step is deeper than the slop no body is pushed at all. collisionSlop and collisionBias have no influence on velocities, angular velocities, positions, forces or joints of that step. So from one step to the next of the overlap beyond the slop at most the share collisionBias^dt is left (minus the way the velocities separate the points, up to half of arm length times the square of the angle each body turns); for two circles without joints exactly that holds for the overlap of the circles, plus what an elastic bounce moves; and circles pressed together without bounce for n steps overlap by at most slop + (collisionBias^dt)^n times the initial excess.", "quantifier": "every motion, step, set of arbiters, contacts and joints, every slop, bias, time step and number of steps; real arithmetic", "why_tests_cant": "The pushing velocities of overlapping contacts interact in the iterations, and a wrong sign, a lost clamp or a leak into the velocities shows only for particular masses and histories, as jitter or drift.", "anchors": ["arbiter.go: PreStep, ApplyImpulse, ApplyCachedImpulse", "body.go: BodyUpdatePosition, BodyUpdateVelocity", "arbiter.go: apply_bias_impulses", "everything.go: k_scalar", "space.go: Step, NewSpace, SetCollisionSlop", "collision.go: CircleToCircle"]}
{"id": "C59", "title": "Contacts without friction and joints without errors add no kinetic energy", "statement": "An impulse between two bodies changes the sum of KineticEnergy() by the impulse times the sum of the relative velocities of its points before and after. In a step of bodies that are not driven from outside (finite mass or not moving, finite moment or not turning), whose contacts have no bounce, no friction, no conveyor velocity and no impulse stored from before, and whose joints are pins, slides, pivots, gears, ratchets, rotary limits and switched-off motors without error to correct, without stored impulse (pivots below MaxForce), each further iteration leaves at most the kinetic energy there was before, so the step ends with at most the energy the bodies would have without contacts and joints, and, without gravity, forces and with damping at most 1, with at most the energy before the step. One ApplyImpulse of a contact with friction adds no energy either, as long as its stored friction is within the limit of the new normal impulse. Violations: friction between passes can create energy, and the iterations need not settle (a body in a corner of wall and floor ends with energy 10.47 instead of 6 for every even number of iterations, 2.7 for every odd one); a groove joint gives a body that slides along the groove by an anchor off its centre extra energy and makes the anchor leave the groove.", "quantifier": "every motion, step, number of iterations, set of contacts and joints; real arithmetic", "why_tests_cant": "Energy gained by the interplay of clamped impulses shows only for particular contact configurations and is mistaken for bounce; no finite set of scenes shows its absence.", "anchors": ["body.go: KineticEnergy", "arbiter.go: PreStep, ApplyImpulse, ApplyCachedImpulse", "everything.go: apply_impulses, relative_velocity, k_scalar, k_tensor", "groovejoint.go: PreStep, ApplyImpulse, grooveConstrain", "pinjoint.go: ApplyImpulse", "slidejoint.go: ApplyImpulse", "pivotjoint.go: ApplyImpulse", "gearjoint.go: ApplyImpulse", "simplemotor.go: ApplyImpulse", "space.go: Step"]}
{"id": "C60", "title": "Two bodies bounce as their elasticity and slide as their friction says", "statement": "If two bodies without joints touch only each other, at one contact that is straight above both centres of gravity (circles) or frictionless, and either no impulse is stored from before or the last step was as long, then a step with any positive number of iterations gives them exactly the textbook impulse: along the normal J = max(0, -(free + e * before)) / k, along the surface the one that would stop the slip, limited to u * J (Coulomb), where before is their separation velocity before the step, free that to which gravity, damping and forces take it; it is what TotalImpulse reports. So they part with max(free, -e * before): with e times their velocity of approach without gravity; they stick if friction can stop the slip, else friction slows it by u * J * k. Without friction exactly the share 1 - e^2 of the energy of the approach is lost, none for e = 1; with friction at least that. Violation: the stored impulse is carried over in proportion to the length of the step, so if the next step is q times as long two inelastic bodies that came with velocity v and stopped are thrown apart with (q - 1) v.", "quantifier": "every motion of the two bodies, masses, moments, elasticity, friction, surface velocities, gravity, forces, time steps and number of iterations, whatever other bodies, contacts and joints the step solves; real arithmetic", "why_tests_cant": "The bounce depends on masses, velocities, stored impulses and the previous time step; a test checks single collisions with constant time steps.", "anchors": ["arbiter.go: PreStep, ApplyImpulse, ApplyCachedImpulse, Update, TotalImpulse", "everything.go: apply_impulses, k_scalar, normal_relative_velocity", "space.go: Step", "body.go: BodyUpdateVelocity, KineticEnergy"]}
{"id": "C61", "title": "Damped springs pull as Hooke's law says and settle at their rest length", "statement": "If a damped spring (linear or rotary) alone acts on its two bodies in a step without gravity, damping or forces, the step gives them one impulse along the line between the grips (one angular impulse for the rotary spring) and its opposite, and the speed with which the grips move apart (the relative spin) becomes exactly the share exp(-damping*dt*K) of what the spring's force at the new length makes of it, however many iterations the solver makes; for the linear spring GetImpulse reports that impulse. Over any number of steps the rotary spring with the default torque follows the recursion angle += spin*dt; spin = q*(spin - strength*angle), so with damping and strength = stiffness*K*dt^2 below 2*(1 + exp(decay)) it comes to rest at the rest angle; at or above that limit, let go from rest anywhere else, it never settles, above it swings beyond any bound; without damping below 4 it swings within a fixed bound for ever. A linear spring between the centres of two bodies moving along their line does the same as long as they do not pass each other, which they do not if it is let go from rest near enough to the rest length; too stiff, it throws them through each other. Violations: GetImpulse of a rotary spring counts the damping part with the wrong sign; a linear spring whose grips coincide applies no impulse at all but reports the impulse of its force.", "quantifier": "every motion, masses, moments, stiffness, damping, force function, time step, number of iterations and number of steps, whatever else the step solves; real arithmetic", "why_tests_cant": "Stability depends on stiffness, masses and time step together and shows only in the limit of many steps; sign errors in damping are masked in single scenes.", "anchors": ["dampedspring.go: PreStep, ApplyImpulse, GetImpulse, DefaultSpringForce", "dampedrotaryspring.go: PreStep, ApplyImpulse, GetImpulse, DefaultSpringTorque", "space.go: Step", "everything.go: k_scalar, apply_impulses", "body.go: BodyUpdatePosition, BodyUpdateVelocity"]}
{"id": "C62", "title": "A joint alone on its bodies gives exactly the impulse its settings ask for", "statement": "If a motor, gear, rotary-limit, ratchet, pin or pivot joint alone acts on its two bodies in a step and has nothing stored or the last step was equally long, the step's effect on the velocities, on top of forces, gravity and damping, is one impulse (angular impulse, ratio-scaled for gears; along the line of the grips for pins; at the grips for pivots) and its opposite: the one that makes the relative velocity equal the joint's goal (-Rate for a motor; otherwise the velocity removing the share 1 - errorBias^dt of the error in the step, at most MaxBias), cut to MaxForce*dt and, for rotary limits and ratchets, to the direction back into range (nothing while in range or turning forward); it does not depend on the number of iterations or on the impulse stored, and GetImpulse reports its size. Over any number of equal steps without other forces a motor brings the spins nearer to its rate by K*MaxForce*dt per step without overshooting, reaches the rate and stays there; a gear with MaxBias 0 does the same as angular friction. Violation: in a step longer than the last, a motor that used all of its force in the last step gives up to MaxForce*(2*dt - last dt), more than MaxForce*dt, while GetImpulse reports MaxForce*dt.", "quantifier": "every motion, masses, moments, joint settings, stored impulse, time step, number of iterations and number of steps, whatever else the step solves on other bodies; real arithmetic", "why_tests_cant": "The solver is an iteration with warm starting; that its result is one closed-form impulse independent of both needs a proof over all iterations counts and stored impulses. Varying time steps are rarely tested.", "anchors": ["simplemotor.go, gearjoint.go, rotarylimitjoint.go, ratchetjoint.go, pinjoint.go, pivotjoint.go: PreStep, ApplyCachedImpulse, ApplyImpulse, GetImpulse", "space.go: Step", "everything.go: k_scalar, k_tensor, bias_coef"]}
{"id": "C63", "title": "A step moves exactly the awake bodies; sleeping bodies stand still until they are woken", "statement": "In every program: Step moves a body exactly if the body is in the space, not static and not sleeping, and then exactly once, with the velocity it had before the step; no other position or angle changes. No call (Step, setters of other bodies, adding, removing, queries) changes any number of a body that is asleep before and after it, so over any history a sleeping body stays exactly where and as it is; setters of a body wake it. A body that falls asleep is moved once more and keeps its velocity, force and torque, with which it goes on when it is woken, however long it slept. A body whose kinetic energy is above the threshold does not fall asleep in that step. An awake body with no contacts found and no constraints attached is exactly moved and then accelerated by gravity, force and damping (only moved if it falls asleep). Static bodies are never changed by a step, kinematic ones only moved. A group of awake bodies touching nothing outside moves as one point mass. No allowed call panics.", "quantifier": "every reachable state of a space with bodies of any numbers, every sequence of calls, any gravity, damping, iterations, contacts and joints; any arithmetic (exact or rounded) except the last two claims, which are for real arithmetic", "why_tests_cant": "Which lists the solver runs over is decided by the sleeping bookkeeping of arbitrary histories; a sleeping body that is still integrated, an awake one listed twice or a constraint of a sleeping component left in the solver shows only in particular histories.", "anchors": ["space.go: Step, ProcessComponents, Activate, Deactivate, AddBody", "body.go: Activate, IsSleeping, setters, BodyUpdatePosition, BodyUpdateVelocity, KineticEnergy", "arbiter.go: ApplyImpulse, ApplyCachedImpulse, apply_impulses, apply_bias_impulses", "constraint.go: Constrainer"]}
{"id": "C64", "title": "The whole engine together: shapes are where their bodies are, and a step tests, reports and solves what is there", "statement": "In every program, with nothing of a step given but its arguments and what callbacks do: no allowed call panics (fewer than 1610612739 shapes). AddShape, ReindexShape and Step put a shape where its body is (Step, if its body is neither static nor asleep), in geometry, bounding box and index, and every other call leaves it there unless it moves the body or changes the shape; so after a step every shape of the space is in its place if those of static and sleeping bodies were. A step tests exactly the acceptable pairs with overlapping boxes at the positions the bodies then have, each once, and hands the contacts found for them to the solver. From end to end: an awake body without joints that touches nothing where the step has moved it is exactly moved with its velocity and accelerated by gravity, forces and damping; a group of awake bodies touching nothing outside keeps its total momentum up to gravity, forces and damping, whatever collides inside it; after a step two circles are a touching pair (Begin called, no Separate since) exactly if the distance of their centres, where the bodies are, is less than the sum of the radii. The solver works with the contacts that the narrow phase finds where the bodies are, with the materials of the shapes and the impulses remembered for the same two shapes, one arbiter a pair. When two circles meet (on their own centres of gravity, touching nothing else they could move), the velocities and spins after the step are exactly those of one impulse: along the line of centres the larger of nothing and what makes them part with the product of the elasticities times the speed of the approach, across it what stops the surfaces from sliding, clamped by the product of the frictions times the first; so Newton's law of restitution holds from one step to the next.", "quantifier": "every state reachable from NewSpace by any sequence of calls (adding, removing, setters of bodies, shapes and constraints, queries, waking, steps), any shapes and bodies, any callbacks' answers; any arithmetic except the group, circle and collision claims, which are for real numbers", "why_tests_cant": "Every part can be right alone and the whole still wrong: shapes updated from the wrong body or before it moved, a pair tested with stale geometry, an arbiter solved with the contacts of another pair. The claim ranges over all histories and positions.", "anchors": ["space.go: Step, SpaceCollideShapesFunc, AddShape, ReindexShape, Activate, Deactivate", "shape.go: CacheBB, Update", "bbtree.go: ReindexQuery", "collision.go: Collide", "arbiter.go: Update", "body.go: setters, BodyUpdatePosition, BodyUpdateVelocity"]}
{"id": "C65", "title": "Circles pressed together do not sink into each other", "statement": "Whatever presses two circles together (gravity, forces, their own motion), from the step in which they met (as in C64: on their own centres of gravity, bodies that touch and join nothing else they could move) to the next: of the overlap beyond CollisionSlop at most the share collisionBias^dt is left, and if it was within the slop it does not grow, plus the way the circles come closer because they bounce less than they went apart. So if one of them has no elasticity, or they came closer when they met, they are not closer after the next step than when they met; and however many steps circles without elasticity are pressed together, they are never closer than when they met, and the overlap beyond the slop decays at least geometrically.", "quantifier": "every state reachable from NewSpace by any sequence of calls, any radii, masses, gravity, forces, damping, friction, slop, bias, step and number of steps; real arithmetic", "why_tests_cant": "A ball that slowly sinks into the floor, or jitters on it, does so only for some masses, speeds and time steps and after many steps; a test looks at a few.", "anchors": ["space.go: Step", "arbiter.go: Update, PreStep, ApplyCachedImpulse, ApplyImpulse", "collision.go: CircleToCircle", "body.go: BodyUpdatePosition, BodyUpdateVelocity"]}
{"id": "C66", "title": "A ball bounces off a floor, rolls on it, and does not sink into it", "statement": "A ball (a circle on its body's centre of gravity, touching nothing else and joined to nothing) that a step moves onto a floor (a segment of a static body, with or without rounding, at any angle, hit anywhere but at an end that has a neighbour): the floor does not move. The floor pushes the ball with one impulse. Its part away from the floor makes the ball leave with the product of the elasticities times the speed with which it came, or faster if gravity and forces alone take it away faster; its part along the floor stops the ball's surface from sliding over the floor's (with their surface velocities), as far as the product of the frictions times the first part allows, and gives the ball the spin that belongs to it, so that a rough floor makes it roll. One step later at most the share collisionBias^dt of its depth beyond CollisionSlop is left (and if it was within the slop it does not grow), plus the way it comes closer because it bounces less than it went away; so however long a ball lies on a floor, if one of them has no elasticity, it never gets deeper than when it landed and the depth beyond the slop decays at least geometrically, whatever presses it down.", "quantifier": "every state reachable from NewSpace by any sequence of calls, any radii, rounding, direction and place of the floor, masses, velocities, spins, gravity, damping, elasticities, frictions, surface velocities, slop, bias, step and number of steps; real arithmetic", "why_tests_cant": "Tests drop a ball and print a few numbers; a sign or a swapped arm shows only for balls that spin, floors that slope or move their surface, off-centre segments or bodies, or after many steps.", "anchors": ["space.go: Step", "arbiter.go: Update, PreStep, ApplyCachedImpulse, ApplyImpulse", "collision.go: CircleToSegment", "segment.go: CacheData", "body.go: BodyUpdatePosition, BodyUpdateVelocity"]}
{"id": "C67", "title": "A thrown body flies the parabola; a dropped ball comes back to its height", "statement": "While a dynamic body that is awake has no joint and touches nothing, whatever happens around it, each step under the gravity g without damping adds dt\u00b7g to its velocity: after n steps (n at least 1) it has its first velocity + n\u00b7dt\u00b7g (+ what the forces applied before the first step give it, once), its spin is its first spin (+ what the torque gave it), it is on the discrete parabola p + v\u00b7T + g\u00b7T(T-dt)/2 with T = n\u00b7dt, and it has turned uniformly; with damping its velocity comes closer to the terminal velocity g\u00b7dt/(1-damping^dt) by the factor damping^dt in each step, and its spin dies out by the same factor. A ball that is let go, falls for N steps onto a floor and flies up again is, n steps after it has landed, at its first height + (e\u00b7N\u00b7n - N(N+1)/2 - n(n-1)/2)\u00b7|g|\u00b7dt^2, where e is the product of the elasticities (+ what the floor pushes it out: the share 1-collisionBias^dt of its depth beyond the slop, straight up, without a spin). So with e = 1 it is back at exactly its first height after N steps (+ the push), and with e at most 1 it never comes higher.", "quantifier": "every state reachable from NewSpace by any sequence of calls, any number of steps, length of step, gravity, damping, forces, masses, velocities, and any other bodies, joints, contacts and callbacks-free events elsewhere; any direction of the floor; real arithmetic", "why_tests_cant": "Tests look at one or two steps of one body; a half-step too many, a force that is applied twice, a push that stays in the velocity or an energy gained at each bounce show only in exact formulas over arbitrarily many steps.", "anchors": ["space.go: Step", "body.go: BodyUpdatePosition, BodyUpdateVelocity", "arbiter.go: PreStep, ApplyCachedImpulse, ApplyImpulse", "collision.go: CircleToSegment"]}
{"id": "C68", "title": "Collisions of balls conserve what they should", "statement": "When two balls meet (circles on their own centres of gravity, touching and joined to nothing else, as in C64), the step changes their total momentum only by what gravity, forces and damping do. Without gravity, forces and damping they lose at least the share 1-e^2 of the energy of their approach, where e is the product of the elasticities (friction >= 0, surfaces with equal surface velocities), exactly this without friction; so none for e = 1, and they never gain any for e at most 1; this holds for bodies that cannot be moved, too. Balls of equal mass that collide without friction and loss swap what of their velocities is along the line of their centres and keep the rest and their spins; if one was at rest they go off at a right angle. Without friction the total angular momentum about any point is kept. Violation: with friction it is not; it changes by the impulse of the friction times the overlap of the balls, because the friction acts on each ball at its own surface.", "quantifier": "every state reachable from NewSpace by any sequence of calls, any radii, masses, moments, places, velocities, spins, elasticities, frictions and lengths of the step, whatever else is in the space; real arithmetic", "why_tests_cant": "Tests look at single collisions; a wrong sign or a missing term in the impulse or a swapped body keeps many of them plausible but breaks a conservation law for some masses, angles or spins.", "anchors": ["space.go: Step", "arbiter.go: Update, PreStep, ApplyCachedImpulse, ApplyImpulse", "collision.go: CircleToCircle", "arbiter.go: apply_impulses", "body.go: KineticEnergy"]}
{"id": "C69", "title": "Directions, angles and wrapped coordinates", "statement": "ToAngle lies in (-pi, pi] and a vector is its length times ForAngle of its ToAngle; ToAngle of r*ForAngle(a), r > 0, is a up to whole turns, exactly a for a in (-pi, pi]. Rotate multiplies lengths and Unrotate undoes it (up to the square of the length); Rotate by ForAngle(a) keeps the length and adds a to the angle up to whole turns; Perp is a quarter turn to the left. SLerp(v, o, 0) = v, SLerp(v, o, 1) = o for all vectors, zero, parallel and opposite ones too, and SLerp(v, o, t) = SLerp(o, v, 1-t); SlerpConst by 0 stays and by pi or more arrives. BB.WrapVect moves every point into the box by whole widths and heights of it, leaves points of the box where they are, gives points that differ by whole widths and heights the same image, and is idempotent; the box is the one without its left and bottom side: points on these go to the right and top side.", "quantifier": "all vectors, angles, proper boxes and parameters; real arithmetic", "why_tests_cant": "Tests check a few angles in one quadrant and a few points; signs of the remainder, the edges, whole turns and opposite vectors show only in the general law.", "anchors": ["vector.go: ForAngle, ToAngle, Rotate, Unrotate, Perp, SLerp, SlerpConst, Normalize", "bb.go: WrapVect"]}
{"id": "C70", "title": "Drawing shows what is there", "statement": "DrawSpace draws exactly the shapes that are in the space - moving, static and sleeping - each once. A shape is drawn where its body is: a circle round the place of its centre with its radius and the angle of its body, a segment between the places of its ends, a polygon with its corners at their places in order; this holds for a shape added or reindexed and not moved since, and after every Step for every shape, if the shapes of static and sleeping bodies were in their places before. Each constraint of the space is drawn once unless one of its bodies sleeps (constraints of sleeping bodies are not drawn although their shapes are): pin, slide and pivot joints and springs by dots at the places of the anchors on its own two bodies, a groove by its line. A spring between two different places is an unbroken line of 14 pieces from the one to the other that stays between them and at most 6 to the side. Each contact is marked by a dash along the normal from 2 beyond the reported contact point of the one shape to 2 beyond that of the other. (Flags() of the Drawer is never consulted.)", "quantifier": "all reachable states of a simulation, all kinds of shapes and joints, all steps and all numbers of objects; the geometry of a spring in real arithmetic", "why_tests_cant": "The repository has no test of the drawing; which shapes are drawn, and from which caches, depends on the history of sleeping, waking, moving and reindexing.", "anchors": ["draw.go: DrawSpace, DrawShape, DrawConstraint", "spatialindex.go: Each", "shape.go: Update", "space.go: Step"]}
{"id": "C71", "title": "The load on a body is what its arbiters report", "statement": "In a step as long as the one before, the velocity of a body without joints after the step is the one that gravity, forces and damping give it plus, divided by its mass, the sum of what TotalImpulse reports for the arbiters of the body, each seen from the body (as Body.EachArbiter shows them). So if a body with a mass keeps its velocity, this sum is exactly what gravity, forces and damping would have taken: a body at rest on whatever it touches weighs -mass * gravity * dt. Excepted are steps of another length (the warm start is scaled, the report is not) and pairs in their first step that already store impulses.", "quantifier": "all steps, any number of contacts of the body, of other bodies, contacts and joints elsewhere, and of iterations, in any order; real arithmetic", "why_tests_cant": "The sum runs over an unbounded, interleaved sequence of impulses on many bodies; tests look at one resting pair.", "anchors": ["arbiter.go: TotalImpulse, ApplyCachedImpulse, ApplyImpulse", "body.go: EachArbiter", "space.go: Step"]}
