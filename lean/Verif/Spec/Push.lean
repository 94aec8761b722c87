import Verif.Spec.Correct
import Verif.Model.Collide

/-! # Specification: how overlapping bodies are pushed apart -/

namespace CP

/-- How deep the bodies overlap at a contact: how far the contact's point on the first body lies beyond its point on the second, along
the normal. -/
noncomputable def Arb.overlap (arb : Arb ℝ) (c : Contact ℝ) (h : Bodies ℝ) : ℝ :=
  (((h arb.a).p.add c.r1).sub ((h arb.b).p.add c.r2)).dot arb.n

/-- How fast the pushing velocities (`v_bias`, `w_bias`) separate the two points of a contact along the normal. -/
noncomputable def Arb.pushVel (arb : Arb ℝ) (c : Contact ℝ) (h : Bodies ℝ) : ℝ :=
  (((h arb.b).v_bias.add (c.r2.perp.mult (h arb.b).w_bias)).sub ((h arb.a).v_bias.add (c.r1.perp.mult (h arb.a).w_bias))).dot arb.n

/-- How fast the velocities separate the two points of a contact along the normal. -/
noncomputable def Arb.partVel (arb : Arb ℝ) (c : Contact ℝ) (h : Bodies ℝ) : ℝ :=
  (((h arb.b).v.add (c.r2.perp.mult (h arb.b).w)).sub ((h arb.a).v.add (c.r1.perp.mult (h arb.a).w))).dot arb.n

/-- In the step `t` arbiter `i` has the last word on its bodies: the step has iterations, and no arbiter that comes later in the list
touches one of its bodies (unless it is one that cannot be moved). -/
structure Tick.LastPush (m : Motion ℝ) (t : Tick ℝ) (i : Nat) : Prop where
  iterations : 0 < t.iterations
  last : ∃ pre post, t.arbs = pre ++ i :: post ∧ i ∉ pre ∧ i ∉ post ∧
    ∀ k ∈ post, ∀ x, x = (t.contact i).a ∨ x = (t.contact i).b → Immovable (m.bodies x) ∨ (x ≠ (t.contact k).a ∧ x ≠ (t.contact k).b)

/-- In the step `t` the bodies of arbiter `i` touch only each other (only one that cannot be moved, a floor, may also touch others). -/
structure Tick.Alone (m : Motion ℝ) (t : Tick ℝ) (i : Nat) : Prop where
  iterations : 0 < t.iterations
  once : t.arbs.count i = 1
  others : ∀ k ∈ t.arbs, k ≠ i → ∀ x, x = (t.contact i).a ∨ x = (t.contact i).b → Immovable (m.bodies x) ∨ (x ≠ (t.contact k).a ∧ x ≠ (t.contact k).b)

/-- No joint of the step joins body `x`. -/
def Tick.Unjoined (t : Tick ℝ) (m : Motion ℝ) (x : Nat) : Prop := ∀ k ∈ t.joints, x ≠ (m.joints k).con.a ∧ x ≠ (m.joints k).con.b

/-- The arbiter is what the collision of two circles finds that sit on the centres of its bodies, with the radii `ra` and `rb`. -/
structure Arb.Round (arb : Arb ℝ) (h : Bodies ℝ) (ra rb : ℝ) : Prop where
  found : ∃ (info : Coll.Info ℝ) (q : Coll.Contact ℝ) (c : Contact ℝ),
    Coll.circleToCircle ⟨⟨0, 0⟩, (h arb.a).p, ra⟩ ⟨⟨0, 0⟩, (h arb.b).p, rb⟩ ⟨⟨0, 0⟩, 0, []⟩ = some info ∧ info.contacts = [q] ∧
      arb.n = info.n ∧ arb.contacts = [c] ∧ (h arb.a).p.add c.r1 = q.r1 ∧ (h arb.b).p.add c.r2 = q.r2
  surface : arb.surface_vr.dot arb.n = 0

/-- Two circles on the bodies `a` and `b`, which touch in every one of a sequence of steps of the same kind without bouncing: in each
step their arbiter has the last word, and no joint joins the bodies, but those that cannot be moved. -/
structure Pressed (ms : Nat → Motion ℝ) (ts : Nat → Tick ℝ) (is : Nat → Nat) (dt slop coll ra rb : ℝ) (a b : Nat) : Prop where
  step : ∀ n, ms (n + 1) = (ms n).tick (ts n)
  kind : ∀ n, (ts n).dt = dt ∧ (ts n).slop = slop ∧ (ts n).collisionBias = coll
  pair : ∀ n, ((ts n).contact (is n)).a = a ∧ ((ts n).contact (is n)).b = b
  round : ∀ n, ((ts n).contact (is n)).Round ((ms n).seen (ts n)) ra rb
  inelastic : ∀ n, ((ts n).contact (is n)).e = 0
  last : ∀ n, (ts n).LastPush (ms n) (is n)
  free : ∀ n x, x = a ∨ x = b → Immovable ((ms n).bodies x) ∨ (ts n).Unjoined (ms n) x
  carried : ∀ n x, x = a ∨ x = b → (ts n).Carries (ms n).bodies x

/-- By how much circles of the radii `ra` and `rb` on the bodies `a` and `b` overlap. -/
noncomputable def roundOverlap (h : Bodies ℝ) (a b : Nat) (ra rb : ℝ) : ℝ := ra + rb - (h a).p.distance (h b).p

end CP
