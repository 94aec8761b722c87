import Verif.Spec.Sim
import Verif.Spec.Bounce
import Verif.Spec.Shapes

/-! # Specification: two circles meet, or a circle lands on a floor, in a simulation -/

namespace CP
namespace Sim

/-- The direction from body `a` to body `b` (from one centre of gravity to the other). -/
noncomputable def direction (s : Sim ℝ) (a b : Nat) : Vec ℝ :=
  ((s.mo.bodies b).p.sub (s.mo.bodies a).p).mult (1 / (s.mo.bodies a).p.distance (s.mo.bodies b).p)

/-- How fast body `b` goes away from body `a`, with the velocities `v`, along the line through their centres of gravity. -/
noncomputable def parting (s : Sim ℝ) (a b : Nat) (v : Nat → Vec ℝ) : ℝ := ((v b).sub (v a)).dot (s.direction a b)

/-- How fast the surface of the circle `y` slides along that of the circle `x`, with the velocities `v` and spins `w` of the bodies `a`, `b` (and the surface
velocities of the shapes). -/
noncomputable def sliding (s : Sim ℝ) (a b x y : Nat) (rx ry : ℝ) (v : Nat → Vec ℝ) (w : Nat → ℝ) : ℝ :=
  (((v b).sub (v a)).add ((s.surf y).v.sub (s.surf x).v)).dot (s.direction a b).perp - ry * w b - rx * w a

/-- The velocities of the bodies. -/
noncomputable def velocity (s : Sim ℝ) (b : Nat) : Vec ℝ := (s.mo.bodies b).v

/-- The spins of the bodies. -/
noncomputable def spin (s : Sim ℝ) (b : Nat) : ℝ := (s.mo.bodies b).w

open Classical in
/-- The velocities to which gravity, forces and damping alone take the bodies in the step from `s` to `s'`. -/
noncomputable def freeVel (s s' : Sim ℝ) (i : SimIn ℝ) (b : Nat) : Vec ℝ :=
  if s'.engine.awake b then ((s.mo.bodies b).updateVelocity i.gravity (i.damping ^ i.dt) i.dt).v else (s.mo.bodies b).v

open Classical in
/-- … and the spins. -/
noncomputable def freeSpin (s s' : Sim ℝ) (i : SimIn ℝ) (b : Nat) : ℝ :=
  if s'.engine.awake b then ((s.mo.bodies b).updateVelocity i.gravity (i.damping ^ i.dt) i.dt).w else (s.mo.bodies b).w

/-- Where the step has moved it, body `b` touches no other body, except with the shapes `x` and `y`. -/
def ClearBut (s s' : Sim ℝ) (b x y : Nat) : Prop :=
  ∀ u w, (s.sc.sp.shapes u).inSpace = true → (s.sc.sp.shapes w).inSpace = true → (s.sc.sp.shapes u).body = b → (s.sc.sp.shapes w).body ≠ b →
    ¬ (u = x ∧ w = y) → ¬ (u = y ∧ w = x) →
    (s.sc.shapes u).filter.reject (s.sc.shapes w).filter = true ∨ (s'.sc.shapes u).shp.bb.intersects (s'.sc.shapes w).shp.bb = false ∨
    Misses (s'.sc.shapes u) (s'.sc.shapes w)

/-- The body has no velocity and no spin, and nothing pushes it out of another. -/
def motionless (s : Sim ℝ) (b : Nat) : Prop :=
  (s.mo.bodies b).v = ⟨0, 0⟩ ∧ (s.mo.bodies b).w = 0 ∧ (s.mo.bodies b).v_bias = ⟨0, 0⟩ ∧ (s.mo.bodies b).w_bias = 0

/-- In the step from `s` to `s'` the shapes `x` and `y` may meet, and nothing else happens to their bodies:
* both shapes are in the space, on different bodies, with filters that accept each other;
* the body of `x` is neither static nor asleep, before and after the step; if that of `y` is, then `y` is in its place;
* each of the two bodies is one that cannot be moved, or it is not static or asleep, no joint joins it, and it touches nothing else;
* no callback refuses or changes the contact; the space iterates; the bodies do not both have infinite mass;
* the shapes have not touched lately (no impulse is remembered), or they touched in the last step, and it was as long. -/
structure Meeting (s s' : Sim ℝ) (i : SimIn ℝ) (x y : Nat) : Prop where
  inX : (s.sc.sp.shapes x).inSpace = true
  inY : (s.sc.sp.shapes y).inSpace = true
  bodies : (s.sc.sp.shapes x).body ≠ (s.sc.sp.shapes y).body
  filters : (s.sc.shapes x).filter.reject (s.sc.shapes y).filter = false
  mobileX : s.sc.Mobile x ∧ s'.mobile (s.sc.sp.shapes x).body
  placeY : s.sc.Mobile y ∨ s.InPlace y
  lone : ∀ b, b = (s.sc.sp.shapes x).body ∨ b = (s.sc.sp.shapes y).body →
    Immovable (s.mo.bodies b) ∨ (s.mobile b ∧ ¬ s.engine.joined b ∧ s.ClearBut s' b x y)
  admitted : Admitted s i x y
  unchanged : ∀ arb, i.adjust x y arb = arb ∧ i.adjust y x arb = arb
  iterations : 0 < i.iterations
  masses : 0 < (s.mo.bodies (s.sc.sp.shapes x).body).m_inv + (s.mo.bodies (s.sc.sp.shapes y).body).m_inv
  moments : 0 ≤ (s.mo.bodies (s.sc.sp.shapes x).body).i_inv ∧ 0 ≤ (s.mo.bodies (s.sc.sp.shapes y).body).i_inv
  memory : (∀ k ∈ s.sc.sp.cached, s.sc.sp.samePair x y k = true → ∀ c ∈ (s.arbs k).contacts, c.jnAcc = 0 ∧ c.jtAcc = 0) ∨
    (proto x y s.sc.sp.trace = some true ∧ s.mo.currDt = i.dt)

/-- In the step from `s` to `s'` the circles `x` and `y` meet, and nothing else happens to their bodies:
* both circles are centred on the centres of gravity;
* where the step has moved the bodies, the centres are closer than the sum of the radii (and not the same point). -/
structure Encounter (s s' : Sim ℝ) (i : SimIn ℝ) (x y : Nat) (cx cy : Circle ℝ) : Prop extends Meeting s s' i x y where
  circleX : (s.sc.shapes x).shp.cls = .circle cx
  circleY : (s.sc.shapes y).shp.cls = .circle cy
  radiusX : 0 ≤ cx.r
  radiusY : 0 ≤ cy.r
  centreX : s'.worldPoint (s.sc.sp.shapes x).body cx.c = (s'.mo.bodies (s.sc.sp.shapes x).body).p
  centreY : s'.worldPoint (s.sc.sp.shapes y).body cy.c = (s'.mo.bodies (s.sc.sp.shapes y).body).p
  close : (s'.mo.bodies (s.sc.sp.shapes x).body).p.distance (s'.mo.bodies (s.sc.sp.shapes y).body).p < cx.r + cy.r
  apart : (s'.mo.bodies (s.sc.sp.shapes x).body).p ≠ (s'.mo.bodies (s.sc.sp.shapes y).body).p

/-- In the step from `s` to `s'` the circle `x` (a ball) lands on the segment `y` (a floor) of a static body that does not move, and nothing else happens to
the ball:
* the circle is centred on its body's centre of gravity;
* where the step has moved the ball, `q` is the point of the segment that is nearest to its centre, and closer than the sum of the radii (but not the centre
itself);
* the segment has no neighbours (SetNeighbors), or `q` is not one of its ends. -/
structure Landing (s s' : Sim ℝ) (i : SimIn ℝ) (x y : Nat) (cx : Circle ℝ) (sy : Segment ℝ) (q : Vec ℝ) : Prop extends Meeting s s' i x y where
  ball : (s.sc.shapes x).shp.cls = .circle cx
  floor : (s.sc.shapes y).shp.cls = .seg sy
  radiusX : 0 ≤ cx.r
  radiusY : 0 ≤ sy.r
  centreX : s'.worldPoint (s.sc.sp.shapes x).body cx.c = (s'.mo.bodies (s.sc.sp.shapes x).body).p
  ends : s'.worldPoint (s.sc.sp.shapes y).body sy.a ≠ s'.worldPoint (s.sc.sp.shapes y).body sy.b
  on : OnSegment (s'.worldPoint (s.sc.sp.shapes y).body sy.a) (s'.worldPoint (s.sc.sp.shapes y).body sy.b) q
  nearest : ∀ z, OnSegment (s'.worldPoint (s.sc.sp.shapes y).body sy.a) (s'.worldPoint (s.sc.sp.shapes y).body sy.b) z →
    (s'.mo.bodies (s.sc.sp.shapes x).body).p.distance q ≤ (s'.mo.bodies (s.sc.sp.shapes x).body).p.distance z
  close : (s'.mo.bodies (s.sc.sp.shapes x).body).p.distance q < cx.r + sy.r
  apart : (s'.mo.bodies (s.sc.sp.shapes x).body).p ≠ q
  free : (sy.aTangent = ⟨0, 0⟩ ∧ sy.bTangent = ⟨0, 0⟩) ∨
    (q ≠ s'.worldPoint (s.sc.sp.shapes y).body sy.a ∧ q ≠ s'.worldPoint (s.sc.sp.shapes y).body sy.b)
  static : s.sc.sp.typ (s.sc.sp.shapes y).body = .static ∧ Immovable (s.mo.bodies (s.sc.sp.shapes y).body)
  still : s.motionless (s.sc.sp.shapes y).body

/-- The direction from the point `q` to the centre of gravity of body `a`: up, if `q` is on a floor below. -/
noncomputable def up (s : Sim ℝ) (a : Nat) (q : Vec ℝ) : Vec ℝ := ((s.mo.bodies a).p.sub q).mult (1 / (s.mo.bodies a).p.distance q)

/-- How fast the surface of the ball `x` (of radius `r`, with velocity `v` and spin `w`) slides along that of the floor `y` at rest, where `u` is up (with the surface
velocities of the shapes). -/
noncomputable def skid (s : Sim ℝ) (x y : Nat) (r : ℝ) (u v : Vec ℝ) (w : ℝ) : ℝ :=
  (v.add ((s.surf x).v.sub (s.surf y).v)).dot u.perp - r * w

/-- How deep a ball of radius `r` on body `a` is in a floor with rounding `r'` that has the point `q` on its middle line, where `u` is up. -/
noncomputable def depth (s : Sim ℝ) (a : Nat) (u q : Vec ℝ) (r r' : ℝ) : ℝ := r + r' - ((s.mo.bodies a).p.sub q).dot u

/-- Steps `0` to `N` of the same length, one after the other, in all of which but the last the ball `x` (on body `a`) lies on the floor `y` where `u` is up (`h` is the
height of the floor's middle line), and does not fall asleep, unless it does not move. -/
structure Resting (N : Nat) (hash : Obj → Nat) (ss : Nat → Sim ℝ) (is : Nat → SimIn ℝ) (dt slop bias : ℝ) (x y a : Nat) (r r' : ℝ) (u : Vec ℝ) (h : ℝ) : Prop where
  start : (ss 0).Reach hash
  allowed : ∀ n ≤ N, (Call.step (is n)).Allowed (ss n)
  quiet : ∀ n < N, (∀ y, (is n).sepActs y = []) ∧ (is n).lateActs = []
  run : ∀ n ≤ N, (ss n).call hash (.step (is n)) = some (ss (n + 1))
  kind : ∀ n ≤ N, (is n).dt = dt ∧ (is n).slop = slop ∧ (is n).collisionBias = bias
  body : ∀ n < N, ((ss n).sc.sp.shapes x).body = a
  lies : ∀ n < N, ∃ (cx : Circle ℝ) (sy : Segment ℝ) (q : Vec ℝ), Landing (ss n) (ss (n + 1)) (is n) x y cx sy q ∧ cx.r = r ∧ sy.r = r' ∧
    (ss (n + 1)).up a q = u ∧ q.dot u = h
  carried : ∀ n < N, (ss (n + 1)).engine.awake a ∨ (ss (n + 1)).motionless a

/-- By how much circles of the radii `r` and `r'` around the centres of gravity of the bodies `a` and `b` overlap (negative: how far they are apart). -/
noncomputable def overlap (s : Sim ℝ) (a b : Nat) (r r' : ℝ) : ℝ := r + r' - (s.mo.bodies a).p.distance (s.mo.bodies b).p

/-- Steps `0` to `N` of the same length, one after the other, in all of which but the last the circles `x` and `y` (on the bodies `a` and `b`, with the radii `ra` and `rb`) meet,
and neither of the two bodies falls asleep, unless it does not move. -/
structure Pressing (N : Nat) (hash : Obj → Nat) (ss : Nat → Sim ℝ) (is : Nat → SimIn ℝ) (dt slop bias : ℝ) (x y a b : Nat) (ra rb : ℝ) : Prop where
  start : (ss 0).Reach hash
  allowed : ∀ n ≤ N, (Call.step (is n)).Allowed (ss n)
  quiet : ∀ n < N, (∀ y, (is n).sepActs y = []) ∧ (is n).lateActs = []
  run : ∀ n ≤ N, (ss n).call hash (.step (is n)) = some (ss (n + 1))
  kind : ∀ n ≤ N, (is n).dt = dt ∧ (is n).slop = slop ∧ (is n).collisionBias = bias
  bodies : ∀ n < N, ((ss n).sc.sp.shapes x).body = a ∧ ((ss n).sc.sp.shapes y).body = b
  meet : ∀ n < N, ∃ cx cy : Circle ℝ, Encounter (ss n) (ss (n + 1)) (is n) x y cx cy ∧ cx.r = ra ∧ cy.r = rb
  carried : ∀ n < N, ∀ z, z = a ∨ z = b → (ss (n + 1)).engine.awake z ∨ (ss (n + 1)).motionless z

end Sim
end CP
