import Verif.Spec.Rest

/-! # Specification: how a joint's error shrinks -/

namespace CP

/-- The bodies where the joints of a step see them: after the step has moved them. -/
noncomputable def Motion.seen (m : Motion ℝ) (t : Tick ℝ) : Bodies ℝ := Motion.move m.bodies t.dt t.movers

/-- In the step `t` joint `k` has the last word on its bodies: the step has iterations, and no constraint that comes later in the list
joins one of its bodies. -/
structure Tick.LastWord (t : Tick ℝ) (m : Motion ℝ) (k : Nat) : Prop where
  iterations : 0 < t.iterations
  last : ∃ pre post, t.joints = pre ++ k :: post ∧ k ∉ pre ∧ k ∉ post ∧
    ∀ i ∈ post, ∀ x, x = (m.joints k).con.a ∨ x = (m.joints k).con.b → x ≠ (m.joints i).con.a ∧ x ≠ (m.joints i).con.b

/-- The step `t` moves body `x` by its velocities, or the body has none. -/
def Tick.Carries (t : Tick ℝ) (h : Bodies ℝ) (x : Nat) : Prop :=
  t.movers.Nodup ∧ (x ∈ t.movers ∨ ((h x).v = ⟨0, 0⟩ ∧ (h x).w = 0 ∧ (h x).v_bias = ⟨0, 0⟩ ∧ (h x).w_bias = 0))

/-- What is left of an error `e` when a step corrects the share `1 - r` of it, but at most `c`. -/
noncomputable def leftover (r c e : ℝ) : ℝ := e - max (-c) (min ((1 - r) * e) c)

/-- The angle between the two bodies of a joint. -/
noncomputable def relAngle (h : Bodies ℝ) (a b : Nat) : ℝ := (h b).a - (h a).a

/-- By how much a gear is off. -/
noncomputable def gearError (h : Bodies ℝ) (j : GearJoint ℝ) : ℝ := (h j.b).a * j.ratio - (h j.a).a - j.phase

/-- How far the contacts' pushing apart turns the second body against the first (`0` if the bodies touch nothing too deep). -/
noncomputable def biasTurn (h : Bodies ℝ) (a b : Nat) (ratio dt : ℝ) : ℝ := ((h b).w_bias * ratio - (h a).w_bias) * dt

/-- From the grip of a joint on its first body to that on its second. -/
noncomputable def gripGap (h : Bodies ℝ) (a b : Nat) (p q : Vec ℝ) : Vec ℝ := (grip h b q).sub (grip h a p)

/-- How far the contacts' pushing apart moves a grip in a step (`0` if the body touches nothing too deep). -/
noncomputable def biasMove (h : Bodies ℝ) (k : Nat) (q : Vec ℝ) (dt : ℝ) : Vec ℝ :=
  ((h k).v_bias.add (((grip h k q).sub (h k).p).perp.mult (h k).w_bias)).mult dt

/-- How far a point of a turning body can get from the tangent along which it moves: half of (arm length) × (angle turned)². -/
noncomputable def swing (h : Bodies ℝ) (k : Nat) (q : Vec ℝ) (dt : ℝ) : ℝ :=
  (grip h k q).distance (h k).p * (((h k).w + (h k).w_bias) * dt) ^ 2 / 2

/-- The velocity of a grip. -/
noncomputable def gripVel (h : Bodies ℝ) (k : Nat) (q : Vec ℝ) : Vec ℝ := (h k).v.add (((grip h k q).sub (h k).p).perp.mult (h k).w)

/-- The transform of body `k` is that of its position and angle. -/
def UpToDate (h : Bodies ℝ) (k : Nat) : Prop := (h k).transform = ((h k).setTransform (h k).p (h k).a).transform

/-- In the step `t` no contact is solved on body `x`. -/
def Tick.Untouched (t : Tick ℝ) (x : Nat) : Prop := ∀ i ∈ t.arbs, x ≠ (t.contact i).a ∧ x ≠ (t.contact i).b

/-- Steps of length `dt`, one after the other, in all of which joint `k` (between the bodies `a` and `b`) has the last word, its bodies
are carried by their velocities and touch nothing, and `MaxForce` never binds. -/
structure Undisturbed (ms : Nat → Motion ℝ) (ts : Nat → Tick ℝ) (dt : ℝ) (k a b : Nat) : Prop where
  step : ∀ n, ms (n + 1) = (ms n).tick (ts n)
  length : ∀ n, (ts n).dt = dt
  last : ∀ n, (ts n).LastWord (ms n) k
  carried : ∀ n x, x = a ∨ x = b → (ts n).Carries (ms n).bodies x
  untouched : ∀ n x, x = a ∨ x = b → (ts n).Untouched x
  unlimited : ∀ n, ((ms (n + 1)).joints k).getImpulse < ((ms n).joints k).con.maxForce * dt

end CP
