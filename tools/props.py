#!/usr/bin/env python3
"""Regenerates properties.jsonl (one JSON object per line)."""
import json, os
P = []
def p(id, title, statement, quantifier, why, anchors):
    P.append(dict(id=id, title=title, statement=statement, quantifier=quantifier, why_tests_cant=why, anchors=anchors))

p("C01","HashSet is a finite map",
  "For a HashSet whose equality identifies keys with elements through a class (equal keys have equal hashes), any sequence of Insert, Remove and Filter behaves like a finite map from key classes to elements: Insert returns the stored element if the class is present and otherwise stores the new one, Find returns the stored element or nothing, Remove returns and deletes it, Filter keeps exactly the elements its predicate accepts.",
  "every key type, equality, hash function, table history (including every resize) and every operation sequence",
  "Bugs show only for particular hash collisions, bucket orders and resize points; tests sample a handful of keys.",
  ["hashset.go: NewHashSet, Insert, Remove, Find, Filter, resize, nextPrime"])
p("C02","HashSet Count and Each are exact",
  "After any operation sequence Count equals the number of stored elements, and Each calls its function exactly once for every stored element and for nothing else.",
  "every operation sequence, hash function and table size",
  "A double visit or a lost element after a resize needs a specific interleaving of inserts, removes and collisions.",
  ["hashset.go: Count, Each, resize"])
p("C03","HashSet growth is safe up to the last prime",
  "Insert never divides by zero or indexes the prime table out of range while fewer than 1610612741 elements are stored; the number of entries always stays strictly below the table size; past the end of the prime table growth fails.",
  "every operation sequence",
  "No test can insert 1.6 billion elements; the load-factor invariant must hold after every history.",
  ["hashset.go: nextPrime, resize, primes"])
p("C04","Collision handler lookup is order-insensitive and stable",
  "NewCollisionHandler(a,b) returns one handler per unordered pair of types: registering (a,b) or (b,a) again returns the same handler, a collision between types a and b in either order finds it, other registrations never change it, and a pair never registered gets the default handler. Arbiter.Shapes() then presents the shape whose type is the handler's TypeA first.",
  "every sequence of registrations and every pair of 64-bit collision types",
  "2^128 type pairs and every registration history, including hash collisions of the pair hash.",
  ["space.go: NewCollisionHandler, NewWildcardCollisionHandler, LookupHandler","collision.go: HashPair","arbiter.go: Update, Shapes"])
p("C05","Shape filters",
  "ShapeFilter.Reject is symmetric; two shapes in the same non-zero group never collide; otherwise they collide exactly when each one's categories share a bit with the other's mask; SHAPE_FILTER_NONE is rejected by everything and SHAPE_FILTER_ALL collides with every filter having a non-zero category and mask.",
  "every pair of filters (all 64-bit groups, categories and masks)",
  "2^384 filter pairs.",
  ["everything.go: ShapeFilter.Reject, SHAPE_FILTER_ALL, SHAPE_FILTER_NONE"])
p("C06","Tree queries are complete and report each object once",
  "After any history of Insert, Remove, ReindexObject and ReindexQuery on the static and dynamic BBTree indexes, Query(bb) calls its function exactly once for every object whose indexed box intersects bb and for no other object. In particular no object whose current bounding box was inside its indexed box and intersects bb is missed.",
  "every operation history, every set of boxes, every query box, any float64 rounding behaviour in the insertion cost (non-NaN)",
  "Tree shape depends on the whole history; a wrong ancestor box after one removal loses objects only for particular queries.",
  ["bbtree.go: Insert, Remove, LeafUpdate, SubtreeInsert, SubtreeRemove, ReplaceChild, Query, SubtreeQuery","bb.go: Merge, Intersects"])
p("C07","Tree membership",
  "After any history, Contains, Count and Each of a BBTree index reflect exactly the objects inserted and not yet removed, and the leaves of the tree are exactly these objects, each once.",
  "every operation history",
  "History-dependent: remove/reindex of leaves at every depth.",
  ["bbtree.go: Count, Contains, Each, Insert, Remove"])
p("C08","Broad phase reports every overlapping pair exactly once",
  "ReindexQuery on the dynamic index calls its function exactly once for every unordered pair of distinct dynamic objects, and every pair of a dynamic and a static object, whose indexed boxes intersect, and for no other pair, whatever objects moved, were added, removed or reindexed before; so two shapes with overlapping bounding boxes never miss, and never get twice, a collision check in a step.",
  "every history of Insert/Remove/ReindexObject/ReindexQuery on both indexes and every motion of the objects",
  "The pair cache depends on time stamps and on tree order; a missed or doubled pair needs a specific history.",
  ["bbtree.go: ReindexQuery, MarkSubtree, MarkLeaf, MarkLeafQuery, PairInsert, PairsClear, LeafAddPairs, IncrementStamp"])
p("C09","Ray casts through the tree find the first hit",
  "BBTree.SegmentQuery with a first-hit callback returns the smallest hit fraction over all objects, whatever the tree shape, provided every object's hits lie inside its indexed box; with a callback returning 1 it visits every object whose box is entered before the end of the segment exactly once. With a non-zero query radius Space.SegmentQuery/SegmentQueryFirst do not have this property: a shape within the radius whose box the thin segment misses is not reported.",
  "every tree, segment and set of hit fractions",
  "Pruning errors need specific tree shapes and hit orders.",
  ["bbtree.go: SubtreeSegmentQuery, SegmentQuery","space.go: SegmentQuery, SegmentQueryFirst, queryFirst, segmentQuery"])
p("C10","BB.SegmentQuery is the exact first entry fraction",
  "BB.SegmentQuery(a,b) returns the least t in [0,1] with a+t(b-a) inside the box when there is one and INFINITY otherwise; IntersectsSegment is true exactly when the segment meets the box.",
  "every box and segment, including axis-parallel and degenerate segments (exact real arithmetic)",
  "Infinitely many boxes and segments; parallel and touching cases.",
  ["bb.go: SegmentQuery, IntersectsSegment"])
p("C11","Bounding-box algebra",
  "Merge is the least box containing both arguments, Expand the least box containing the box and the point; Contains and ContainsVect agree with point-set inclusion; Intersects holds exactly when the boxes share a point; ClampVect returns the point of the box nearest to the argument; MergedArea is the area of Merge; Transform.BB contains the image of every point of the box and is the least such box.",
  "all boxes and points",
  "Universally quantified over reals; degenerate boxes.",
  ["bb.go: Merge, Expand, Contains, ContainsVect, Intersects, ClampVect, MergedArea","transform.go: BB"])
p("C12","Transform algebra",
  "Mult composes transforms, is associative with identity NewTransformIdentity; Inverse is a two-sided inverse of every transform with non-zero determinant; NewTransformRigidInverse inverts every rigid transform; Wrap conjugates; rigid transforms preserve distances and cross products.",
  "all transforms, points and angles (exact real arithmetic)",
  "Algebraic identities over all reals.",
  ["transform.go: Mult, Inverse, NewTransformRigidInverse, NewTransformRigid, Point, Vect, Wrap"])
p("C13","Body coordinates are consistent",
  "After any sequence of SetPosition, SetAngle, mass/shape changes and position integration the body's transform is the rigid motion of its angle and position: SetPosition(p) makes Position() return p, Angle() returns the last angle set, Rotation() is a unit vector, LocalToWorld and WorldToLocal are inverse to each other, the centre of gravity maps to the internal position, SetAngle rotates about the centre of gravity, and changing the mass distribution never moves Position().",
  "every operation sequence and all real arguments (exact arithmetic)",
  "Every history of mixed setters; identities over the reals.",
  ["body.go: SetPosition, Position, SetAngle, SetTransform, BodyUpdatePosition, AccumulateMassFromShapes, WorldToLocal, LocalToWorld"])
p("C14","Mass, centre of gravity and moment from shapes",
  "For any list of shapes AccumulateMassFromShapes yields total mass = sum of positive shape masses, centre of gravity = mass-weighted mean, and moment = sum of m*(i+|c-cog|^2) (parallel axis theorem about the combined centre of gravity); the result does not depend on the order of the shapes, and RemoveShape followed by AddShape restores it.",
  "every number, order and mass distribution of shapes",
  "Unbounded number of shapes; order independence.",
  ["body.go: AccumulateMassFromShapes, AddShape, RemoveShape"])
p("C15","The solver conserves momentum",
  "Every contact and joint impulse between finite-mass bodies (and any sequence of them, for any number of iterations and bodies) leaves their total linear momentum unchanged, so over a whole step without damping it changes only by gravity and applied forces; contact, pivot, pin, slide and spring impulses applied at a shared point (or along the line between anchors) and motor, rotary-limit, ratchet and rotary-spring impulses leave total angular momentum unchanged.",
  "all bodies, anchors, impulses, iteration counts and interleavings of contacts and joints (exact arithmetic)",
  "Conservation over arbitrary sequences of impulses over the reals.",
  ["arbiter.go: apply_impulses, apply_bias_impulses, ApplyImpulse, ApplyCachedImpulse","*joint.go, dampedspring.go, dampedrotaryspring.go, simplemotor.go: ApplyImpulse, ApplyCachedImpulse, PreStep"])
p("C16","Static and kinematic bodies are immovable",
  "No contact or joint impulse, in any sequence, changes the linear or angular velocity (or bias velocity) of a static or kinematic body, and gravity, forces and damping do not change a kinematic body's velocity. Calling SetMass or SetMoment on a static body breaks this: it keeps its static type but impulses then move it.",
  "all impulse sequences and bodies",
  "Every sequence of solver operations.",
  ["body.go: SetType, BodyUpdateVelocity","arbiter.go: apply_impulses, apply_bias_impulses"])
p("C17","Contacts only push, within the friction cone",
  "After any number of solver iterations on an arbiter whose stored impulses came from earlier iterations, every contact's accumulated normal impulse and bias impulse are non-negative and its tangential impulse is at most friction times the normal impulse.",
  "every number of iterations, contacts, bodies and velocities",
  "Invariant over unbounded iteration.",
  ["arbiter.go: ApplyImpulse","vector.go: Clamp"])
p("C18","Joints respect MaxForce and their direction",
  "After ApplyImpulse with time step dt the impulse reported by GetImpulse is at most MaxForce*dt for pin, slide, pivot, groove, gear, ratchet, rotary-limit and motor joints; slide joints only pull towards the allowed range, rotary-limit joints only push back into range, ratchets only act in their direction; the bias of every joint is at most MaxBias.",
  "every joint state, body state and dt > 0, over any number of iterations",
  "Invariant over unbounded iteration and all reals.",
  ["pinjoint.go, slidejoint.go, pivotjoint.go, groovejoint.go, gearjoint.go, ratchetjoint.go, rotarylimitjoint.go, simplemotor.go: ApplyImpulse, PreStep"])
p("C19","An unclamped impulse solves its constraint",
  "If the impulse limit does not bind, ApplyImpulse makes the joint's relative velocity equal its target: the relative normal velocity equals the bias for pin joints, the full relative velocity equals the bias for pivot joints, b.w*ratio-a.w equals the bias for gear joints, the relative spin equals -Rate for motors, and an unclamped frictionless contact impulse makes the normal velocity equal minus the bounce target.",
  "all bodies, anchors and velocities with non-singular effective mass (exact arithmetic)",
  "Algebraic identity over all reals; a wrong effective mass still looks plausible in tests.",
  ["everything.go: k_scalar, k_tensor","pinjoint.go, pivotjoint.go, gearjoint.go, simplemotor.go: PreStep, ApplyImpulse","arbiter.go: PreStep, ApplyImpulse"])
p("C20","Every body is in exactly one list",
  "After any sequence of AddBody, RemoveBody, SetType, putting components to sleep, Activate and locked/unlocked wake-ups, EachBody visits exactly the bodies of the space, each once: a static body is in the static list, an awake one in the dynamic list, a sleeping one in exactly one sleeping component (the space's own static body is not visited). SetType on a sleeping body violates this: the body is then visited twice.",
  "every history of body operations (any number of bodies and components)",
  "Histories mixing sleeping, waking while locked and type changes.",
  ["space.go: AddBody, RemoveBody, Activate, Deactivate, Unlock, EachBody","body.go: SetType, Activate"])
p("C21","SetGravity wakes everything",
  "After SetGravity no body is sleeping, if at most two components slept before. With three or more the code violates the intended property: of the n sleeping components exactly (n-1)/2 stay asleep, the second, fourth, ... in the order in which they fell asleep, not counting the last.",
  "every number of sleeping components",
  "Depends on removing from a slice while ranging over it; fails only from three components on.",
  ["space.go: SetGravity","body.go: Activate"])
p("C22","Post-step callbacks run exactly once",
  "Every callback for which AddPostStepCallback returned true is executed exactly once, at the first moment after registration the outermost lock is released with callbacks enabled, in registration order; at most one pending callback per non-nil key.",
  "every nesting of locks, every registration history including registrations made from inside callbacks",
  "Re-entrancy histories.",
  ["space.go: Lock, Unlock, AddPostStepCallback, PostStepCallback"])
p("C23","Collision callback protocol",
  "Every pair of shapes is at any moment apart, touching, ignored or in the hands of the solver. Begin is called exactly in the steps in which the shapes have contacts and were apart; PreSolve exactly in the steps with contacts that are not ignored (by an earlier answer or by the Begin of that step); PostSolve exactly in the steps that leave the pair in the hands of the solver with a body that does not rest; Separate once when a shape of a pair that is not apart is removed, and exactly in the steps without contacts of a pair that is not apart whose bodies do not both rest. No other operation calls a callback or changes the state of a pair. In every history no second Begin without a Separate, no Separate without a Begin. Separate waits while both bodies rest; a pair woken by a collision gets PostSolve without PreSolve; a pair whose bodies fall asleep in the step gets none.",
  "every sequence of steps, contact sets, callback return values and shape removals",
  "Temporal property over all contact histories and callback answers.",
  ["space.go: SpaceCollideShapesFunc, Step","hashset_arbiter.go: SpaceArbiterSetFilter, CachedArbitersFilter","arbiter.go: Init, Update, Ignore"])
p("C24","Contact memory is not recycled while in use",
  "At every moment of every history: contacts lie within their buffer of 1024; contacts of two arbiters updated within the last three steps never overlap; the memory handed out for new contacts holds no contact of such an arbiter (in particular not the old contacts of the same pair, which are read while the new ones are written); a buffer is reused exactly when it is older than three steps. As long as resting bodies are roused by collisions only, every arbiter the collision function finds in its cache was updated within the last three steps, so what it reads is intact. A program that itself wakes two bodies which fell asleep in the step after they separated makes the next collision read contacts that have been overwritten by another pair.",
  "every history of operations, steps and collision counts, every moment between the pairs of a step",
  "Use-after-recycle depends on step history and buffer overflow.",
  ["space.go: PushFreshContactBuffer, ContactBufferGetArray, PushContacts, PopContacts, Activate, SpaceCollideShapesFunc","contactbuffer.go: InitHeader","hashset_arbiter.go: SpaceArbiterSetFilter"])
p("C25","Islands fall asleep exactly together",
  "When sleeping is enabled, after the contact-graph pass a dynamic body is put to sleep exactly when every dynamic body connected to it through contacts and joints (paths through dynamic bodies) has been idle for at least SleepTimeThreshold; components are exactly the connected components of that graph.",
  "every contact graph, joint graph and idle times",
  "Arbitrary graphs.",
  ["space.go: ProcessComponents, FloodFillComponent, ComponentActive, Deactivate","body.go: ComponentAdd"])
p("C26","Constraint lists",
  "After any sequence of AddConstraint and RemoveConstraint, Body.EachConstraint visits exactly the space's constraints attached to that body, each once, newest first, and Space.EachConstraint exactly the added and not removed constraints, except those attached to a sleeping body. SetType on a static body joined to a sleeping one violates this: the joint is lost to Space.EachConstraint and the solver.",
  "every history of additions and removals over any bodies (constraints between two different bodies)",
  "Intrusive linked lists threaded through two bodies; pointer histories.",
  ["space.go: AddConstraint, RemoveConstraint, EachConstraint","body.go: RemoveConstraint, filterConstraints, EachConstraint","constraint.go: Next"])
p("C27","Arbiter lists",
  "After any history of threading and unthreading arbiters, Body.EachArbiter visits exactly the arbiters threaded for that body, each once, and unthreading an arbiter that is in no list changes nothing.",
  "every history over any contact graph",
  "Doubly linked intrusive lists shared between two bodies.",
  ["body.go: PushArbiter, EachArbiter","arbiter.go: Unthread, unthreadHelper, ThreadForBody, Next"])
p("C28","Convex hull",
  "ConvexHull with zero tolerance never goes out of bounds, returns a count between 1 and the number of points and overwrites the array (at most the given elements) so that the first count vertices are different input points in counter-clockwise order, no input point is to the right of an edge, and their convex hull is that of the input; the first one is the least by x, then y, and its old index is reported. If the points are not all on one line there are at least three vertices; if no three different points are on one line they form a strictly convex polygon (in general a vertex can be left in the middle of an edge: of equally far points the first is taken). NewPolyShape therefore makes a shape that consists of the points within its radius of the hull of the transformed points.",
  "every list of points (any length, duplicates and collinear points included), exact arithmetic",
  "In-place quickhull with aliasing of input and output; unbounded inputs.",
  ["poly.go: ConvexHull, LoopIndexes, QHullReduce, QHullPartition, NewPolyShape"])
p("C29","Shape bounding boxes are sound",
  "The box returned by Update/CacheBB contains every point of the transformed shape: all points within the radius of the circle centre, of the segment, and of the convex hull of the polygon's vertices; and each side touches the shape.",
  "every shape, radius >= 0 and rigid transform",
  "Universally quantified over points of the shape.",
  ["circle.go: CacheData","segment.go: CacheData","poly.go: CacheData"])
p("C30","Point queries return true distances",
  "Circle, Segment and (strictly convex) PolyShape PointQuery return the signed distance from the point to the shape and a surface point at that distance; for any query point the closest point on a segment is really the closest. Exceptions: for the centre of a circle, a point on the core of a segment or on the boundary of the core polygon only the distance is right, the surface point is not (NaN or the query point itself).",
  "all shapes and points",
  "Universally quantified over reals.",
  ["circle.go: PointQuery","segment.go: PointQuery","vector.go: ClosestPointOnSegment"])
p("C31","Spatial hash queries are complete and report each object once",
  "With UseSpatialHash, Query calls its function at most once per stored object and for every stored object whose box intersects the query box, after any history of Insert, Remove, ReindexObject and ReindexQuery; ReindexQuery reports each pair at most once and every pair with intersecting boxes. Objects reported without intersecting share a bucket. Two violations: Reindex empties the table, so every later query is empty; a callback that queries the same index makes the outer query (or ReindexQuery) report objects (pairs) twice.",
  "every history, cell size > 0, table size > 0 and all boxes",
  "Hash collisions between cells and handle reuse depend on the history.",
  ["spacehash.go: hashHandle, Query, queryHelper, ReindexQuery, Remove, ReindexObject, Reindex"])
p("C32","Circle collisions and contact counts",
  "Two circles produce a contact exactly when the distance of their centres is less than the sum of radii, with unit normal and surface points at penetration distance; a circle and a segment exactly when a point of the segment is closer to the centre than that sum. No pair of shapes ever yields more than two contacts or panics, and every contact point lies in its shape. ShapesCollide(b,a) mirrors ShapesCollide(a,b) for circles with different centres; for shapes of different classes normal and points are mirrored but the sign of Distance is wrong (violation), concentric circles get the same normal in both orders (violation), and a circle against a polygon with a radius gets its contact on the wrong side of the polygon (violation).",
  "all circles and segments; all shape pairs for the contact bound, the position of contacts and the order of arguments",
  "Universally quantified.",
  ["collision.go: CircleToCircle, CircleToSegment, ContactPoints, Collide","shape.go: ShapesCollide","everything.go: PushContact"])
p("C33","GJK terminates and its answer is sound",
  "GJK/EPA terminate for every pair of shapes and starting id, whatever the rounding of the comparisons; the closest points returned are points of the two shapes; if the iteration limit is not hit, the returned distance never exceeds the distance of any two points of the shapes (no collision is missed), a positive distance is the true distance with a separating normal, a negative one is the depth of a true overlap along the normal. A distance of exactly 0 from the axis check can be wrong: shapes further apart than their radii are then reported as touching (violation).",
  "all shapes and cached collision ids",
  "Termination must hold for every input; the swap step does not count as an iteration.",
  ["collision.go: GJK, GJKRecurse, EPA, EPARecurse, ClosestPoints","vector.go: PointGreater, CheckAxis, ClosestT"])
p("C34","Collecting segments keeps exactly the segments",
  "PolyLineCollectSegment adds exactly the given directed segment to the multiset of directed edges of the polyline set and loses none; segments that form simple closed contours come out as closed lines, in whatever order they are collected.",
  "every polyline set and every sequence of segments",
  "Joining, extending and closing lines depends on the whole history.",
  ["polyline.go: PolyLineCollectSegment, Join, FindEnds, FindStarts, Push, Enqueue"])
p("C35","Marching squares sample once and give balanced contours",
  "MarchSoft and MarchHard sample every grid point exactly once, row by row, and the emitted directed segments form contours with no loose end inside the sampled area: at every point strictly inside, the number of segments starting there equals the number ending there. If no sample on the border exceeds the threshold (and, for MarchSoft, none equals it), collecting the segments with PolyLineCollectSegment gives only closed lines, made of exactly these segments.",
  "every grid size and sample function",
  "All grids and sample values.",
  ["march.go: MarchCells, MarchCellSoft, MarchCellHard, seg, segs"])
p("C36","Polyline simplification is safe",
  "With a tolerance that is not negative, SimplifyCurves, when it returns, keeps the first and last vertex of an open line (of a closed line: the least vertex, and the result is closed) and a subsequence of the others, leaves a vertex out only when it is within the tolerance of the line through its kept neighbours, and the reduced line is nowhere farther than the tolerance from the original. It returns whenever no two vertices are within tol/2. It panics on every open line of three or more vertices whose ends are within tol/2 (violation), and a vertex it leaves out can be arbitrarily far from the reduced line (violation). SimplifyVertexes keeps the ends of an open line and a subsequence of the rest; a closed line can come back open (violation).",
  "every polyline and tolerance",
  "Unbounded polylines.",
  ["polyline.go: SimplifyCurves, SimplifyVertexes, DouglasPeucker, IsShort, Sharpness","poly.go: LoopIndexes"])
p("C37","Mass property formulas are invariant",
  "CentroidForPoly is translation-equivariant and independent of the starting vertex, AreaForPoly is translation-invariant, MomentForPoly about the centroid does not change when the polygon is translated with the offset following, and for boxes the formulas agree with MomentForBox and width*height.",
  "every polygon with any number of vertices and non-zero area",
  "Unbounded vertex lists over the reals.",
  ["everything.go: CentroidForPoly, AreaForPoly, MomentForPoly, MomentForBox, MomentForBox2"])
p("C38","Locking",
  "Every public query and iteration leaves the lock count as it found it, wake-ups requested while locked are deferred and all performed, each once, when the outermost lock is released.",
  "every nesting depth and sequence of wake-ups",
  "Nesting histories.",
  ["space.go: Lock, Unlock, Activate, EachBody, EachShape, BBQuery"])
p("C39","ShapeQuery's result",
  "ShapeQuery calls the callback exactly once for every other non-filtered shape that overlaps the given shape (ShapesCollide finds contacts and the boxes meet). If it returns true, some overlapping shape and the given one are not sensors; when no sensor is involved it returns true exactly when there is an overlap. With sensors it can return false although there is a real collision (violation): only the last overlap found decides, and static shapes are visited last. The given shape's box is first brought to its body's transform, so an overlap with a shape whose own box is up to date is never missed because of the boxes.",
  "every set of shapes and every iteration order",
  "Depends on the order in which overlaps are found.",
  ["space.go: ShapeQuery"])
p("C40","Nearest point query",
  "PointQueryNearest returns a shape with the smallest signed distance (negative inside) among the non-sensor, non-filtered shapes closer than maxDistance, or no shape if there is none, for any history of the index.",
  "every set of shapes, point and maxDistance >= 0",
  "Depends on tree pruning and on visiting order.",
  ["space.go: PointQueryNearest, NearestPointQueryNearest"])
p("C41","Clamping and interpolation helpers",
  "Clamp(f,min,max) with min<=max is the nearest value in [min,max]; Clamp01 likewise in [0,1]; Vector.Clamp never exceeds the length; LerpConst moves towards the target by at most d and reaches it if closer; Lerp hits the end points.",
  "all arguments",
  "Universally quantified.",
  ["vector.go: Clamp, Clamp01, Vector.Clamp, LerpConst, Lerp"])
p("C42","Pair list pointers of the broad phase",
  "The doubly linked pair lists threaded through two leaves stay consistent: after any history of pair insertions and leaf clears every leaf's list contains exactly the live pairs of that leaf, each once, and clearing one leaf removes its pairs from all partners' lists without touching others; recycled pairs are never reachable from a live list.",
  "every history of pair operations",
  "Pointer aliasing between two intrusive lists and a free list.",
  ["bbtree.go: PairInsert, PairsClear, Unlink, PairFromPool, RecyclePair"])
p("C43","Reported impulses are the impulses applied",
  "With an unchanged time step, Constraint.GetImpulse (for every joint type except DampedRotarySpring) and Arbiter.TotalImpulse describe exactly the impulse the joint or contact gave to its second body during the step: the warm start plus every iteration, linear part and moment, whatever other contacts and joints did in between. DampedRotarySpring violates this: its damping impulses enter the reported value with the wrong sign.",
  "every joint type, body state, number of iterations and interleaving (exact arithmetic)",
  "Sum over an unbounded, interleaved sequence of impulses.",
  ["constraint.go: Constrainer.GetImpulse","*joint.go, dampedspring.go, dampedrotaryspring.go, simplemotor.go: PreStep, ApplyCachedImpulse, ApplyImpulse, GetImpulse","arbiter.go: TotalImpulse, ApplyCachedImpulse, ApplyImpulse"])
p("C44","No panic, no hang, no side effects",
  "No sequence of the public operations AddBody/Shape/Constraint, RemoveBody/Shape/Constraint, SetType, Activate, ActivateStatic, SetGravity, SleepTimeThreshold, queries with callbacks (nested in any way) and Step panics, fails an assertion or loops forever, as long as the program respects the documented preconditions and position functions and Begin/PreSolve callbacks wake no sleeping body; and every operation adds or removes exactly the named object. Waking a sleeping body from a Begin or PreSolve callback violates it: Step never returns.",
  "every history of operations, any number of bodies, shapes and constraints, any contacts reported in any order",
  "Unbounded histories over intrusive lists.",
  ["space.go: Step, ProcessComponents, FloodFillComponent, Activate, Deactivate, AddShape, RemoveShape","body.go: Activate, SetType"])
p("C45","Segment queries against a shape give the first contact",
  "SegmentQuery of a circle, and of a polygon without radius with a thin ray, reports a hit exactly when a disc of the query radius moved from a to b touches the shape, with the smallest such fraction as Alpha (0 when it already touches at the start), and the point of a thin ray's hit is that point of the ray. For rounded polygons, rays with a radius against polygons (both with unit normals) and segment shapes seen from a start farther from the line of the segment than the radii the reported hit is the first contact as well, and a miss means that there is no contact before the very end of the ray. Violations: a ray that starts beside an end cap of a thick segment, between the two long sides, and leaves through a long side gets the fraction of the way out; a thin ray along the line of a thin segment misses it.",
  "every circle, strictly convex polygon with any number of vertices, segment shape, ray with different end points and radius >= 0 (exact arithmetic)",
  "Universally quantified geometry; any number of vertices.",
  ["shape.go: SegmentQuery","circle.go: SegmentQuery, CircleSegmentQuery","segment.go: SegmentQuery","poly.go: SegmentQuery"])
p("C46","BBQuery",
  "After any history of the indexes, BBQuery calls its function exactly once for every shape of the space that passes the filter and whose current bounding box meets the given box, sensors included, and for no other shape (the indexed boxes containing the current ones).",
  "every history, set of shapes, filter and query box",
  "Depends on the tree shape of both indexes.",
  ["space.go: BBQuery, bbQuery","bbtree.go: Query"])
p("C47","Mass properties are the integrals over the shapes",
  "In exact arithmetic AreaForPoly, CentroidForPoly and MomentForPoly of a strictly convex counter-clockwise polygon are its area including the rounded border of the radius, its centre of gravity and the integral of the squared distance from the body's centre over the polygon moved by the offset (per unit of area, times the mass); AreaForSegment is the area of the thick segment; AreaForCircle and MomentForCircle are those of the ring between the two radii; MomentForBox and MomentForBox2 are those of the rectangle; MomentForSegment is that of the rectangle reaching the radius beyond the segment on all sides, and without radius that of the mass spread along the segment.",
  "every strictly convex polygon with any number of vertices, every radius, offset, mass, segment, ring and box (exact arithmetic)",
  "Integrals over regions; any number of vertices.",
  ["everything.go: AreaForPoly, CentroidForPoly, MomentForPoly, AreaForSegment, MomentForSegment, AreaForCircle, MomentForCircle, MomentForBox, MomentForBox2"])
p("C48","Contacts of segments and polygons",
  "Two segments made by NewSegment or strictly convex polygons (radii included) that overlap by more than the code's constant 1e-15 costs get at least one contact, whenever GJK ends regularly with the cores apart (or, for overlapping cores, with closest points over each other along the normal); the two points of every contact lie over each other along the normal up to 3e-15. The contacts of two segments or polygons carry ids made of the shapes' ids and one vertex of each, and two contacts of one pair differ in both vertices; contacts with circles carry the id 0. After SetEndpoints the normal of a segment has the opposite sign and the points of a contact belong to opposite ends (violation); thick segments in one line that touch end to end get a normal across the line (violation).",
  "every pair of segments and strictly convex polygons in every position, every radius and id (exact arithmetic)",
  "All positions and shapes; the contact construction has a case for every relative position.",
  ["collision.go: ContactPoints, SupportEdgeForPoly, SupportEdgeForSegment, SegmentToSegment, SegmentToPoly, PolyToPoly","segment.go: NewSegment, SetEndpoints"])
p("C49","Who wakes, and whose idle time starts again",
  "AddBody/RemoveBody, AddShape/RemoveShape, AddConstraint/RemoveConstraint, Activate, ActivateStatic, SetSleepTimeThreshold and queries with waking callbacks wake exactly the sleeping components of the dynamic bodies they disturb (the body added to or removed from, the ends of a constraint, the bodies touching the removed shape of a static body) and start the idle time again of exactly those components, the disturbed bodies and the non-static bodies touching them; every other body keeps its sleep and its idle time. Step wakes exactly the components with a body that has a contact handed to the solver; the idle time of a body touched or joined by a kinematic body is zero after the step, and an undisturbed body's idle time is what its speed says. SetType wakes nobody; it resets the idle times of touching bodies only when a kinematic body becomes dynamic (not when a dynamic body becomes static or kinematic, because Activate then sees the new type).",
  "every history of public operations with callbacks, every body",
  "Which components exist and who touches whom depends on the whole history; an unwoken body stays frozen in mid-air only in rare configurations.",
  ["body.go: Activate, ActivateStatic, SetType","space.go: AddShape, RemoveShape, AddConstraint, RemoveConstraint, RemoveBody, ProcessComponents, Step"])
p("C50","Whole runs obey Newton's laws",
  "For every history of Steps (any contacts, joints, iteration counts and time steps) and of ApplyForce/ApplyImpulse calls, a group of awake dynamic bodies that is in contact with and joined to no other body has, as a whole, the momentum and the centre of mass of a single point mass under the same gravity, damping, forces and impulses: contacts (position correction included) and joints within the group never move its centre of mass. In closed form n undamped steps of length t take the velocity V to V+n*t*g and move the centre by n*t*V+n(n-1)/2*t^2*g; with damping the velocity approaches t*g/(1-d). Without contacts, and with joints other than pivots, grooves and gears of ratio not 1, the angular momentum changes only by the weight's moment at the centre of mass, damping and the impulses' moments. A body nothing touches is a function of its own history alone; a kinematic body keeps its velocity and moves by it, and a static body does not move, whatever hits or is joined to them.",
  "every history of steps and pushes, every group of bodies, every contact set, joint configuration and iteration count",
  "Drift of the centre of mass accumulates over many steps and only shows for particular contact and joint configurations; no finite set of scenes covers them.",
  ["space.go: Step","body.go: BodyUpdatePosition, BodyUpdateVelocity, ApplyForceAtWorldPoint, ApplyImpulseAtWorldPoint","arbiter.go: ApplyImpulse, ApplyCachedImpulse, PreStep"])
p("C51","Which collision callbacks run and what they are told",
  "After any history of NewCollisionHandler, NewWildcardCollisionHandler and assignments to handler fields, each Begin, PreSolve, PostSolve and Separate of a pair of shapes calls exactly these user functions: the function stored in the handler of the two types (the first one registered for them in either order), with the shape of the handler's TypeA first; if there is none, the function of the wildcard handler of the first type with that shape first and then that of the second type with its shape first (Begin and PreSolve: the second only after a yes, the answer being the conjunction). The handlers are those registered when the shapes last touched, the functions and the data those stored now. CallWildcard functions called by user functions follow the same rule, and afterwards the order of the shapes is as before. Nothing is dereferenced through nil and nothing recurses without end. Begin, PreSolve, Separate and the wildcard functions get UserData, but PostSolve gets the handler itself (violation of the documentation), and NewCollisionHandler with the wildcard type makes collisions recurse without end (violation).",
  "every history of registrations and assignments, every pair of collision types, every behaviour of the user functions",
  "All registration orders and all combinations of present and absent handlers and functions; the answers of user functions are arbitrary.",
  ["arbiter.go: Update, CallWildcardBeginA, CallWildcardBeginB, DefaultBegin, DefaultPreSolve, DefaultPostSolve, DefaultSeparate, Shapes","space.go: NewCollisionHandler, NewWildcardCollisionHandler, LookupHandler, UseWildcardDefaultHandler, SpaceCollideShapesFunc, Step"])
p("C52","What an arbiter shows and what it remembers",
  "Right after a collision is detected ContactPointSet lists exactly the detected points with their signed gap along the normal; when the shapes are presented in the other order, normal and TotalImpulse are reversed, the points exchanged and the distances equal, and every distance is the gap from the first shape's point to the second's along the reported normal. SetContactPointSet with the right number of points is read back unchanged (distances measured anew) and changes nothing but normal and points; writing back what was read changes nothing. A separated pair shows no points and no impulse. A contact starts from the accumulated impulses of the old contact with the same identity and from zero if there is none. A pair that separates and touches again within CollisionPersistence steps keeps the old impulses but gets no warm start, so its contacts can pull bodies together (violation).",
  "every arbiter, contact set, pair of bodies and order of shapes; warm starting for every float rounding",
  "All contact configurations and orders; the pulling contact needs a particular history.",
  ["arbiter.go: Update, ContactPointSet, SetContactPointSet, Normal, Count, TotalImpulse, ApplyCachedImpulse"])
p("C53","Which pairs a step tests",
  "After any history of public operations (adding, removing, moving and reindexing shapes, filters, joints, sleeping, waking, steps), Step runs the narrow phase for a pair of shapes exactly once if both are in the space, on different bodies, at least one body being neither static nor asleep, their filters accept each other, their boxes overlap and no constraint of the space with collideBodies off joins the two bodies (for static and sleeping shapes: while they are within their indexed boxes), and for no other pair; so two circles are reported as touching after a step exactly if they overlap. No operation panics.",
  "every history, number of shapes, geometry, tree shape and callback answer",
  "Depends on the cached pairs and stamps of both trees after an unbounded history.",
  ["space.go: Step, SpaceCollideShapesFunc, QueryReject, QueryRejectConstraints, ReindexShape","bbtree.go: ReindexQuery"])
p("C54","Joints that rest and light contacts push nobody",
  "Bodies that all move with one velocity and do not turn, that are joined only to each other by joints that rest (pin, slide, pivot, groove, spring, rotary spring, gear, ratchet, rotary limit, motor: satisfied where the bodies are, no stored impulse) and that touch only each other within the collision slop and without stored impulses, move through any number of steps exactly like one point mass under gravity and damping: none turns, none is pushed, the joints still rest, and the contacts end the step with no impulse; at rest and without gravity (or static) they do not change at all. New joints rest where one expects: NewPinJoint and NewPivotJoint and NewRatchetJoint always, NewPivotJoint2 iff the anchors coincide, NewSlideJoint and NewRotaryLimitJoint iff within the limits, springs iff at rest length (angle) or without stiffness, NewGearJoint iff the angles fit, NewSimpleMotor iff off, NewGrooveJoint at the ends of the groove; between the ends the groove's normal is 1e-15 too short, so the joint pulls towards the origin of the world by that much (violation).",
  "every number of steps, time steps, iterations, bodies, contacts and joints; every anchor and parameter of the constructors; other bodies and joints around them arbitrary",
  "A joint or contact that injects a tiny impulse at rest shows only for particular anchors, angles and histories, and as a drift over many steps.",
  ["space.go: Step","constraint.go: NewConstraint","pinjoint.go: NewPinJoint, PreStep, ApplyImpulse","groovejoint.go: NewGrooveJoint, PreStep","pivotjoint.go: NewPivotJoint, NewPivotJoint2","arbiter.go: PreStep, ApplyImpulse"])
p("C55","Segment queries after UseSpatialHash",
  "UseSpatialHash moves exactly the shapes of the old indexes into the new ones. After any history on the new indexes a segment query ends, asks each shape at most once, asks only shapes that share a bucket with a grid cell the segment goes through, and asks every shape whose indexed box contains a point of the segment before the segment was cut off; so SegmentQueryFirst returns a hit with the least alpha of all shapes and SegmentQuery calls back exactly once for every hit. Exceptions: a segment that starts on a grid line (multiple of the cell size, e.g. 0) and goes towards smaller coordinates goes through the wrong cells and misses shapes in its way (violation); a box touched only with its lower left corner on a crossing of the grid may be missed; hits at the very end (alpha = 1) are not looked for.",
  "every history of insertions, removals, reindexing and queries, every segment, cell size, number of buckets, callback and handle-pool choice",
  "The walk through the grid has a case for every direction and every position relative to the grid lines, and the buckets, stamps and orphaned handles depend on the history.",
  ["spacehash.go: SegmentQuery, segmentQueryHelper","space.go: UseSpatialHash, SegmentQuery, SegmentQueryFirst"])
p("C56","Pooled, linked tree nodes give the same answers and none leaks",
  "The trees are built from nodes that are linked by parent and child pointers and are recycled through free lists. After any history of insertions, removals, moves, reindexing and pair queries: no call follows a nil or stale pointer and every call ends (only an Insert beyond the largest hash size panics); Query, Each, Count, Contains, SegmentQueryFirst and ReindexQuery answer exactly as for the abstract index; every allocated node is in exactly one of the two trees or two free lists; parent and child pointers agree and an inner node's box is the least one around its children; a shape has exactly one leaf, in the tree it was inserted into; a tree of c shapes has 2c - 1 nodes; and if an index never had more than M shapes, at most 2M + 1023 nodes were allocated for it, however long the history.",
  "every history of index operations, every tree shape, every box and velocity function, every number type with linear order",
  "A pointer left unset by one removal shows only when a particular later reinsertion or refit walks through that node, and leaks only show over unbounded histories.",
  ["bbtree.go: SubtreeInsert, SubtreeRemove, ReplaceChild, NewNode, NewLeaf, NodeFromPool, NodeRecycle, NodeSetA, NodeSetB, LeafUpdate, Insert, Remove, ReindexObject, ReindexQuery, Query, SegmentQuery, MarkLeaf, MarkSubtree"])
p("C57","Joints correct their errors at the rate their settings promise",
  "If a joint that is out of place has the last word on its bodies in a step (no later constraint of the list joins them, the step has iterations), its bodies are carried by their velocities and MaxForce does not bind, then when it next looks the share ErrorBias^dt of the error is left, or more if MaxBias limits the correction: exactly for gears and motors (rate*dt), at most (and exactly, if the joint had to push) for rotary limits and ratchets; for pivots and pins up to half of arm length times the square of the angle each body turns, and for pins up to the way the grips make across the line; what contacts push bodies apart comes on top. For slide joints one ApplyImpulse leaves the grips moving back at least that fast (up to Normalize's 1e-15). An error corrected again and again shrinks at least geometrically and vanishes; an undisturbed gear's error after n steps is the initial one corrected n times, an undisturbed motor has turned n*rate*dt.",
  "every motion, every step, every joint settings and position in the constraint list, every number of steps; real arithmetic",
  "A wrong sign or factor in a bias is masked by other joints and contacts in any one scene, and drift shows only over many steps.",
  ["gearjoint.go: PreStep, ApplyImpulse", "simplemotor.go: PreStep, ApplyImpulse", "rotarylimitjoint.go: PreStep, ApplyImpulse", "ratchetjoint.go: PreStep, ApplyImpulse", "pivotjoint.go: PreStep, ApplyImpulse", "pinjoint.go: PreStep, ApplyImpulse", "slidejoint.go: PreStep, ApplyImpulse", "space.go: Step", "everything.go: bias_coef"])
p("C58","Overlapping bodies are pushed apart at the configured rate, without adding speed",
  "If an arbiter has the last word on its two bodies in a step (the step has iterations, no later arbiter touches them), then at its last contact the pushing (pseudo) velocities separate the bodies at least at the rate (1 - collisionBias^dt) * max(0, overlap - collisionSlop) / dt, whatever joints, friction and other contacts there are; exactly at that rate, along the normal and split between the bodies in proportion to their inverse masses, if they touch only each other at one contact. (Each of the two bodies may also be one that cannot be moved, whatever else touches or joins it.) If no contact of the step is deeper than the slop no body is pushed at all. collisionSlop and collisionBias have no influence on velocities, angular velocities, positions, forces or joints of that step. So from one step to the next of the overlap beyond the slop at most the share collisionBias^dt is left (minus the way the velocities separate the points, up to half of arm length times the square of the angle each body turns); for two circles without joints exactly that holds for the overlap of the circles, plus what an elastic bounce moves; and circles pressed together without bounce for n steps overlap by at most slop + (collisionBias^dt)^n times the initial excess.",
  "every motion, step, set of arbiters, contacts and joints, every slop, bias, time step and number of steps; real arithmetic",
  "The pushing velocities of overlapping contacts interact in the iterations, and a wrong sign, a lost clamp or a leak into the velocities shows only for particular masses and histories, as jitter or drift.",
  ["arbiter.go: PreStep, ApplyImpulse, ApplyCachedImpulse", "body.go: BodyUpdatePosition, BodyUpdateVelocity", "arbiter.go: apply_bias_impulses", "everything.go: k_scalar", "space.go: Step, NewSpace, SetCollisionSlop", "collision.go: CircleToCircle"])
p("C59","Contacts without friction and joints without errors add no kinetic energy",
  "An impulse between two bodies changes the sum of KineticEnergy() by the impulse times the sum of the relative velocities of its points before and after. In a step of bodies that are not driven from outside (finite mass or not moving, finite moment or not turning), whose contacts have no bounce, no friction, no conveyor velocity and no impulse stored from before, and whose joints are pins, slides, pivots, gears, ratchets, rotary limits and switched-off motors without error to correct, without stored impulse (pivots below MaxForce), each further iteration leaves at most the kinetic energy there was before, so the step ends with at most the energy the bodies would have without contacts and joints, and, without gravity, forces and with damping at most 1, with at most the energy before the step. One ApplyImpulse of a contact with friction adds no energy either, as long as its stored friction is within the limit of the new normal impulse. Violations: friction between passes can create energy, and the iterations need not settle (a body in a corner of wall and floor ends with energy 10.47 instead of 6 for every even number of iterations, 2.7 for every odd one); a groove joint gives a body that slides along the groove by an anchor off its centre extra energy and makes the anchor leave the groove.",
  "every motion, step, number of iterations, set of contacts and joints; real arithmetic",
  "Energy gained by the interplay of clamped impulses shows only for particular contact configurations and is mistaken for bounce; no finite set of scenes shows its absence.",
  ["body.go: KineticEnergy", "arbiter.go: PreStep, ApplyImpulse, ApplyCachedImpulse", "everything.go: apply_impulses, relative_velocity, k_scalar, k_tensor", "groovejoint.go: PreStep, ApplyImpulse, grooveConstrain", "pinjoint.go: ApplyImpulse", "slidejoint.go: ApplyImpulse", "pivotjoint.go: ApplyImpulse", "gearjoint.go: ApplyImpulse", "simplemotor.go: ApplyImpulse", "space.go: Step"])
p("C60","Two bodies bounce as their elasticity and slide as their friction says",
  "If two bodies without joints touch only each other, at one contact that is straight above both centres of gravity (circles) or frictionless, and either no impulse is stored from before or the last step was as long, then a step with any positive number of iterations gives them exactly the textbook impulse: along the normal J = max(0, -(free + e * before)) / k, along the surface the one that would stop the slip, limited to u * J (Coulomb), where before is their separation velocity before the step, free that to which gravity, damping and forces take it; it is what TotalImpulse reports. So they part with max(free, -e * before): with e times their velocity of approach without gravity; they stick if friction can stop the slip, else friction slows it by u * J * k. Without friction exactly the share 1 - e^2 of the energy of the approach is lost, none for e = 1; with friction at least that. Violation: the stored impulse is carried over in proportion to the length of the step, so if the next step is q times as long two inelastic bodies that came with velocity v and stopped are thrown apart with (q - 1) v.",
  "every motion of the two bodies, masses, moments, elasticity, friction, surface velocities, gravity, forces, time steps and number of iterations, whatever other bodies, contacts and joints the step solves; real arithmetic",
  "The bounce depends on masses, velocities, stored impulses and the previous time step; a test checks single collisions with constant time steps.",
  ["arbiter.go: PreStep, ApplyImpulse, ApplyCachedImpulse, Update, TotalImpulse", "everything.go: apply_impulses, k_scalar, normal_relative_velocity", "space.go: Step", "body.go: BodyUpdateVelocity, KineticEnergy"])
p("C61","Damped springs pull as Hooke's law says and settle at their rest length",
  "If a damped spring (linear or rotary) alone acts on its two bodies in a step without gravity, damping or forces, the step gives them one impulse along the line between the grips (one angular impulse for the rotary spring) and its opposite, and the speed with which the grips move apart (the relative spin) becomes exactly the share exp(-damping*dt*K) of what the spring's force at the new length makes of it, however many iterations the solver makes; for the linear spring GetImpulse reports that impulse. Over any number of steps the rotary spring with the default torque follows the recursion angle += spin*dt; spin = q*(spin - strength*angle), so with damping and strength = stiffness*K*dt^2 below 2*(1 + exp(decay)) it comes to rest at the rest angle; at or above that limit, let go from rest anywhere else, it never settles, above it swings beyond any bound; without damping below 4 it swings within a fixed bound for ever. A linear spring between the centres of two bodies moving along their line does the same as long as they do not pass each other, which they do not if it is let go from rest near enough to the rest length; too stiff, it throws them through each other. Violations: GetImpulse of a rotary spring counts the damping part with the wrong sign; a linear spring whose grips coincide applies no impulse at all but reports the impulse of its force.",
  "every motion, masses, moments, stiffness, damping, force function, time step, number of iterations and number of steps, whatever else the step solves; real arithmetic",
  "Stability depends on stiffness, masses and time step together and shows only in the limit of many steps; sign errors in damping are masked in single scenes.",
  ["dampedspring.go: PreStep, ApplyImpulse, GetImpulse, DefaultSpringForce", "dampedrotaryspring.go: PreStep, ApplyImpulse, GetImpulse, DefaultSpringTorque", "space.go: Step", "everything.go: k_scalar, apply_impulses", "body.go: BodyUpdatePosition, BodyUpdateVelocity"])
p("C62","A joint alone on its bodies gives exactly the impulse its settings ask for",
  "If a motor, gear, rotary-limit, ratchet, pin or pivot joint alone acts on its two bodies in a step and has nothing stored or the last step was equally long, the step's effect on the velocities, on top of forces, gravity and damping, is one impulse (angular impulse, ratio-scaled for gears; along the line of the grips for pins; at the grips for pivots) and its opposite: the one that makes the relative velocity equal the joint's goal (-Rate for a motor; otherwise the velocity removing the share 1 - errorBias^dt of the error in the step, at most MaxBias), cut to MaxForce*dt and, for rotary limits and ratchets, to the direction back into range (nothing while in range or turning forward); it does not depend on the number of iterations or on the impulse stored, and GetImpulse reports its size. Over any number of equal steps without other forces a motor brings the spins nearer to its rate by K*MaxForce*dt per step without overshooting, reaches the rate and stays there; a gear with MaxBias 0 does the same as angular friction. Violation: in a step longer than the last, a motor that used all of its force in the last step gives up to MaxForce*(2*dt - last dt), more than MaxForce*dt, while GetImpulse reports MaxForce*dt.",
  "every motion, masses, moments, joint settings, stored impulse, time step, number of iterations and number of steps, whatever else the step solves on other bodies; real arithmetic",
  "The solver is an iteration with warm starting; that its result is one closed-form impulse independent of both needs a proof over all iterations counts and stored impulses. Varying time steps are rarely tested.",
  ["simplemotor.go, gearjoint.go, rotarylimitjoint.go, ratchetjoint.go, pinjoint.go, pivotjoint.go: PreStep, ApplyCachedImpulse, ApplyImpulse, GetImpulse", "space.go: Step", "everything.go: k_scalar, k_tensor, bias_coef"])
p("C63","A step moves exactly the awake bodies; sleeping bodies stand still until they are woken",
  "In every program: Step moves a body exactly if the body is in the space, not static and not sleeping, and then exactly once, with the velocity it had before the step; no other position or angle changes. No call (Step, setters of other bodies, adding, removing, queries) changes any number of a body that is asleep before and after it, so over any history a sleeping body stays exactly where and as it is; setters of a body wake it. A body that falls asleep is moved once more and keeps its velocity, force and torque, with which it goes on when it is woken, however long it slept. A body whose kinetic energy is above the threshold does not fall asleep in that step. An awake body with no contacts found and no constraints attached is exactly moved and then accelerated by gravity, force and damping (only moved if it falls asleep). Static bodies are never changed by a step, kinematic ones only moved. A group of awake bodies touching nothing outside moves as one point mass. No allowed call panics.",
  "every reachable state of a space with bodies of any numbers, every sequence of calls, any gravity, damping, iterations, contacts and joints; any arithmetic (exact or rounded) except the last two claims, which are for real arithmetic",
  "Which lists the solver runs over is decided by the sleeping bookkeeping of arbitrary histories; a sleeping body that is still integrated, an awake one listed twice or a constraint of a sleeping component left in the solver shows only in particular histories.",
  ["space.go: Step, ProcessComponents, Activate, Deactivate, AddBody", "body.go: Activate, IsSleeping, setters, BodyUpdatePosition, BodyUpdateVelocity, KineticEnergy", "arbiter.go: ApplyImpulse, ApplyCachedImpulse, apply_impulses, apply_bias_impulses", "constraint.go: Constrainer"])
p("C64","The whole engine together: shapes are where their bodies are, and a step tests, reports and solves what is there",
  "In every program, with nothing of a step given but its arguments and what callbacks do: no allowed call panics (fewer than 1610612739 shapes). AddShape, ReindexShape and Step put a shape where its body is (Step, if its body is neither static nor asleep), in geometry, bounding box and index, and every other call leaves it there unless it moves the body or changes the shape; so after a step every shape of the space is in its place if those of static and sleeping bodies were. A step tests exactly the acceptable pairs with overlapping boxes at the positions the bodies then have, each once, and hands the contacts found for them to the solver. From end to end: an awake body without joints that touches nothing where the step has moved it is exactly moved with its velocity and accelerated by gravity, forces and damping; a group of awake bodies touching nothing outside keeps its total momentum up to gravity, forces and damping, whatever collides inside it; after a step two circles are a touching pair (Begin called, no Separate since) exactly if the distance of their centres, where the bodies are, is less than the sum of the radii. The solver works with the contacts that the narrow phase finds where the bodies are, with the materials of the shapes and the impulses remembered for the same two shapes, one arbiter a pair. When two circles meet (on their own centres of gravity, touching nothing else they could move), the velocities and spins after the step are exactly those of one impulse: along the line of centres the larger of nothing and what makes them part with the product of the elasticities times the speed of the approach, across it what stops the surfaces from sliding, clamped by the product of the frictions times the first; so Newton's law of restitution holds from one step to the next.",
  "every state reachable from NewSpace by any sequence of calls (adding, removing, setters of bodies, shapes and constraints, queries, waking, steps), any shapes and bodies, any callbacks' answers; any arithmetic except the group, circle and collision claims, which are for real numbers",
  "Every part can be right alone and the whole still wrong: shapes updated from the wrong body or before it moved, a pair tested with stale geometry, an arbiter solved with the contacts of another pair. The claim ranges over all histories and positions.",
  ["space.go: Step, SpaceCollideShapesFunc, AddShape, ReindexShape, Activate, Deactivate", "shape.go: CacheBB, Update", "bbtree.go: ReindexQuery", "collision.go: Collide", "arbiter.go: Update", "body.go: setters, BodyUpdatePosition, BodyUpdateVelocity"])
p("C65","Circles pressed together do not sink into each other",
  "Whatever presses two circles together (gravity, forces, their own motion), from the step in which they met (as in C64: on their own centres of gravity, bodies that touch and join nothing else they could move) to the next: of the overlap beyond CollisionSlop at most the share collisionBias^dt is left, and if it was within the slop it does not grow, plus the way the circles come closer because they bounce less than they went apart. So if one of them has no elasticity, or they came closer when they met, they are not closer after the next step than when they met; and however many steps circles without elasticity are pressed together, they are never closer than when they met, and the overlap beyond the slop decays at least geometrically.",
  "every state reachable from NewSpace by any sequence of calls, any radii, masses, gravity, forces, damping, friction, slop, bias, step and number of steps; real arithmetic",
  "A ball that slowly sinks into the floor, or jitters on it, does so only for some masses, speeds and time steps and after many steps; a test looks at a few.",
  ["space.go: Step", "arbiter.go: Update, PreStep, ApplyCachedImpulse, ApplyImpulse", "collision.go: CircleToCircle", "body.go: BodyUpdatePosition, BodyUpdateVelocity"])
p("C66","A ball bounces off a floor, rolls on it, and does not sink into it",
  "A ball (a circle on its body's centre of gravity, touching nothing else and joined to nothing) that a step moves onto a floor (a segment of a static body, with or without rounding, at any angle, hit anywhere but at an end that has a neighbour): the floor does not move. The floor pushes the ball with one impulse. Its part away from the floor makes the ball leave with the product of the elasticities times the speed with which it came, or faster if gravity and forces alone take it away faster; its part along the floor stops the ball's surface from sliding over the floor's (with their surface velocities), as far as the product of the frictions times the first part allows, and gives the ball the spin that belongs to it, so that a rough floor makes it roll. One step later at most the share collisionBias^dt of its depth beyond CollisionSlop is left (and if it was within the slop it does not grow), plus the way it comes closer because it bounces less than it went away; so however long a ball lies on a floor, if one of them has no elasticity, it never gets deeper than when it landed and the depth beyond the slop decays at least geometrically, whatever presses it down.",
  "every state reachable from NewSpace by any sequence of calls, any radii, rounding, direction and place of the floor, masses, velocities, spins, gravity, damping, elasticities, frictions, surface velocities, slop, bias, step and number of steps; real arithmetic",
  "Tests drop a ball and print a few numbers; a sign or a swapped arm shows only for balls that spin, floors that slope or move their surface, off-centre segments or bodies, or after many steps.",
  ["space.go: Step", "arbiter.go: Update, PreStep, ApplyCachedImpulse, ApplyImpulse", "collision.go: CircleToSegment", "segment.go: CacheData", "body.go: BodyUpdatePosition, BodyUpdateVelocity"])
p("C67", "A thrown body flies the parabola; a dropped ball comes back to its height",
  "While a dynamic body that is awake has no joint and touches nothing, whatever happens around it, each step under the gravity g without damping adds dt·g to its velocity: after n steps (n at least 1) it has its first velocity + n·dt·g (+ what the forces applied before the first step give it, once), its spin is its first spin (+ what the torque gave it), it is on the discrete parabola p + v·T + g·T(T-dt)/2 with T = n·dt, and it has turned uniformly; with damping its velocity comes closer to the terminal velocity g·dt/(1-damping^dt) by the factor damping^dt in each step, and its spin dies out by the same factor. A ball that is let go, falls for N steps onto a floor and flies up again is, n steps after it has landed, at its first height + (e·N·n - N(N+1)/2 - n(n-1)/2)·|g|·dt^2, where e is the product of the elasticities (+ what the floor pushes it out: the share 1-collisionBias^dt of its depth beyond the slop, straight up, without a spin). So with e = 1 it is back at exactly its first height after N steps (+ the push), and with e at most 1 it never comes higher.",
  "every state reachable from NewSpace by any sequence of calls, any number of steps, length of step, gravity, damping, forces, masses, velocities, and any other bodies, joints, contacts and callbacks-free events elsewhere; any direction of the floor; real arithmetic",
  "Tests look at one or two steps of one body; a half-step too many, a force that is applied twice, a push that stays in the velocity or an energy gained at each bounce show only in exact formulas over arbitrarily many steps.",
  ["space.go: Step", "body.go: BodyUpdatePosition, BodyUpdateVelocity", "arbiter.go: PreStep, ApplyCachedImpulse, ApplyImpulse", "collision.go: CircleToSegment"])
p("C68", "Collisions of balls conserve what they should",
  "When two balls meet (circles on their own centres of gravity, touching and joined to nothing else, as in C64), the step changes their total momentum only by what gravity, forces and damping do. Without gravity, forces and damping they lose at least the share 1-e^2 of the energy of their approach, where e is the product of the elasticities (friction >= 0, surfaces with equal surface velocities), exactly this without friction; so none for e = 1, and they never gain any for e at most 1; this holds for bodies that cannot be moved, too. Balls of equal mass that collide without friction and loss swap what of their velocities is along the line of their centres and keep the rest and their spins; if one was at rest they go off at a right angle. Without friction the total angular momentum about any point is kept. Violation: with friction it is not; it changes by the impulse of the friction times the overlap of the balls, because the friction acts on each ball at its own surface.",
  "every state reachable from NewSpace by any sequence of calls, any radii, masses, moments, places, velocities, spins, elasticities, frictions and lengths of the step, whatever else is in the space; real arithmetic",
  "Tests look at single collisions; a wrong sign or a missing term in the impulse or a swapped body keeps many of them plausible but breaks a conservation law for some masses, angles or spins.",
  ["space.go: Step", "arbiter.go: Update, PreStep, ApplyCachedImpulse, ApplyImpulse", "collision.go: CircleToCircle", "arbiter.go: apply_impulses", "body.go: KineticEnergy"])
p("C69", "Directions, angles and wrapped coordinates",
  "ToAngle lies in (-pi, pi] and a vector is its length times ForAngle of its ToAngle; ToAngle of r*ForAngle(a), r > 0, is a up to whole turns, exactly a for a in (-pi, pi]. Rotate multiplies lengths and Unrotate undoes it (up to the square of the length); Rotate by ForAngle(a) keeps the length and adds a to the angle up to whole turns; Perp is a quarter turn to the left. SLerp(v, o, 0) = v, SLerp(v, o, 1) = o for all vectors, zero, parallel and opposite ones too, and SLerp(v, o, t) = SLerp(o, v, 1-t); SlerpConst by 0 stays and by pi or more arrives. BB.WrapVect moves every point into the box by whole widths and heights of it, leaves points of the box where they are, gives points that differ by whole widths and heights the same image, and is idempotent; the box is the one without its left and bottom side: points on these go to the right and top side.",
  "all vectors, angles, proper boxes and parameters; real arithmetic",
  "Tests check a few angles in one quadrant and a few points; signs of the remainder, the edges, whole turns and opposite vectors show only in the general law.",
  ["vector.go: ForAngle, ToAngle, Rotate, Unrotate, Perp, SLerp, SlerpConst, Normalize", "bb.go: WrapVect"])
p("C70", "Drawing shows what is there",
  "DrawSpace draws exactly the shapes that are in the space - moving, static and sleeping - each once. A shape is drawn where its body is: a circle round the place of its centre with its radius and the angle of its body, a segment between the places of its ends, a polygon with its corners at their places in order; this holds for a shape added or reindexed and not moved since, and after every Step for every shape, if the shapes of static and sleeping bodies were in their places before. Each constraint of the space is drawn once unless one of its bodies sleeps (constraints of sleeping bodies are not drawn although their shapes are): pin, slide and pivot joints and springs by dots at the places of the anchors on its own two bodies, a groove by its line. A spring between two different places is an unbroken line of 14 pieces from the one to the other that stays between them and at most 6 to the side. Each contact is marked by a dash along the normal from 2 beyond the reported contact point of the one shape to 2 beyond that of the other. (Flags() of the Drawer is never consulted.)",
  "all reachable states of a simulation, all kinds of shapes and joints, all steps and all numbers of objects; the geometry of a spring in real arithmetic",
  "The repository has no test of the drawing; which shapes are drawn, and from which caches, depends on the history of sleeping, waking, moving and reindexing.",
  ["draw.go: DrawSpace, DrawShape, DrawConstraint", "spatialindex.go: Each", "shape.go: Update", "space.go: Step"])
p("C71", "The load on a body is what its arbiters report",
  "In a step as long as the one before, the velocity of a body without joints after the step is the one that gravity, forces and damping give it plus, divided by its mass, the sum of what TotalImpulse reports for the arbiters of the body, each seen from the body (as Body.EachArbiter shows them). So if a body with a mass keeps its velocity, this sum is exactly what gravity, forces and damping would have taken: a body at rest on whatever it touches weighs -mass * gravity * dt. Excepted are steps of another length (the warm start is scaled, the report is not) and pairs in their first step that already store impulses.",
  "all steps, any number of contacts of the body, of other bodies, contacts and joints elsewhere, and of iterations, in any order; real arithmetic",
  "The sum runs over an unbounded, interleaved sequence of impulses on many bodies; tests look at one resting pair.",
  ["arbiter.go: TotalImpulse, ApplyCachedImpulse, ApplyImpulse", "body.go: EachArbiter", "space.go: Step"])
with open(os.path.join(os.path.dirname(__file__), "..", "properties.jsonl"), "w") as f:
    for x in P: f.write(json.dumps(x)+"\n")
print(len(P))
