import Verif.Model.Motion
import Verif.Model.JointNew
import Verif.Spec.Momentum

/-! # Specification: joints at rest, bodies moving together -/

namespace CP

/-- The point of the world at which a joint holds on to a body. -/
noncomputable def grip (h : Bodies ℝ) (k : Nat) (anchor : Vec ℝ) : Vec ℝ := (h k).localToWorld anchor

/-- The joint has nothing to correct where its bodies are. -/
def Joint.Satisfied (h : Bodies ℝ) : Joint ℝ → Prop
  | .pin j => (grip h j.a j.anchorA).distance (grip h j.b j.anchorB) = j.dist
  | .slide j => j.min ≤ (grip h j.a j.anchorA).distance (grip h j.b j.anchorB) ∧
      (grip h j.a j.anchorA).distance (grip h j.b j.anchorB) ≤ j.max
  | .pivot j => grip h j.a j.anchorA = grip h j.b j.anchorB
  -- the anchor is at an end of the groove, or on the groove and the groove's normal is a unit vector
  | .groove j => (j.grooveB.sub j.grooveA).dot j.grooveN = 0 ∧
      (j.grooveA = j.grooveB ∨ 0 < (j.grooveB.sub j.grooveA).cross j.grooveN) ∧
      (grip h j.b j.anchorB = grip h j.a j.grooveA ∨ grip h j.b j.anchorB = grip h j.a j.grooveB ∨
        (j.grooveN.dot j.grooveN = 1 ∧ ∃ t, 0 ≤ t ∧ t ≤ 1 ∧
          grip h j.b j.anchorB = (grip h j.a j.grooveA).lerp (grip h j.a j.grooveB) t))
  | .spring j => j.force ((grip h j.a j.anchorA).distance (grip h j.b j.anchorB)) = 0
  | .rotarySpring j => j.torque ((h j.a).a - (h j.b).a) = 0
  | .gear j => (h j.b).a * j.ratio = (h j.a).a + j.phase
  -- the angle is not behind the last notch
  | .ratchet j => if 0 < j.ratchet then j.angle ≤ (h j.b).a - (h j.a).a
      else (j.ratchet < 0 ∧ (h j.b).a - (h j.a).a ≤ j.angle)
  | .rotaryLimit j => j.min ≤ (h j.b).a - (h j.a).a ∧ (h j.b).a - (h j.a).a ≤ j.max
  | .motor j => j.rate = 0

/-- A joint that rests: satisfied, with no impulse stored, and with limits that are not negative. -/
structure Joint.Rests (h : Bodies ℝ) (j : Joint ℝ) : Prop where
  satisfied : j.Satisfied h
  impulse : j.getImpulse = 0
  maxForce : 0 ≤ j.con.maxForce
  maxBias : 0 ≤ j.con.maxBias

/-- The bodies `S` move together: all with the velocity `V`, not turning, pushed by nothing, their transforms up to date. -/
structure Together (S : Set Nat) (V : Vec ℝ) (h : Bodies ℝ) : Prop where
  v : ∀ k ∈ S, (h k).v = V
  w : ∀ k ∈ S, (h k).w = 0
  vBias : ∀ k ∈ S, (h k).v_bias = ⟨0, 0⟩
  wBias : ∀ k ∈ S, (h k).w_bias = 0
  f : ∀ k ∈ S, (h k).f = ⟨0, 0⟩
  t : ∀ k ∈ S, (h k).t = 0
  placed : ∀ k ∈ S, (h k).transform = ((h k).setTransform (h k).p (h k).a).transform

/-- The contacts of an arbiter press on nothing: no impulse stored, not deeper than the slop, surface velocities only along
the surface. -/
def Arb.Light (h : Bodies ℝ) (slop : ℝ) (arb : Arb ℝ) : Prop :=
  arb.surface_vr.dot arb.n = 0 ∧ ∀ c ∈ arb.contacts, c.jnAcc = 0 ∧ c.jtAcc = 0 ∧
    -slop ≤ (((h arb.b).p.add c.r2).sub ((h arb.a).p.add c.r1)).dot arb.n

/-- A step in which the bodies `S` meet only each other, and those only lightly. -/
structure Tick.Light (S : Set Nat) (J : Set Nat) (h : Bodies ℝ) (t : Tick ℝ) : Prop where
  dt : 0 < t.dt
  movers : t.movers.Nodup
  dyn : t.dyn.Nodup
  joints : ∀ k ∈ t.joints, k ∈ J
  contact : ∀ k ∈ t.arbs, ((t.contact k).a ∈ S ↔ (t.contact k).b ∈ S) ∧ ((t.contact k).a ∈ S → (t.contact k).Light h t.slop)

/-- The joints `J` of the space join bodies of `S` or others, and those of `S` rest. -/
def JointsRest (S J : Set Nat) (h : Bodies ℝ) (joints : Nat → Joint ℝ) : Prop :=
  ∀ k ∈ J, ((joints k).con.a ∈ S ↔ (joints k).con.b ∈ S) ∧ ((joints k).con.a ∈ S → (joints k).Rests h)

/-- The solver's state at the end of a step. -/
noncomputable def Motion.solved (m : Motion ℝ) (t : Tick ℝ) : Solver ℝ :=
  Solver.run { bodies := Motion.move m.bodies t.dt t.movers, joints := m.joints, arbs := t.contact }
    (Solver.stepProgram t.arbs t.joints t.dyn t.iterations t.dt m.currDt t.slop t.collisionBias t.damping t.gravity)

/-- The body shifted by `d` without turning, with the velocity `V`; everything else as it is. -/
noncomputable def Body.drift (b : Body ℝ) (d V : Vec ℝ) : Body ℝ :=
  { b.setTransform (b.p.add d) b.a with p := b.p.add d, v := V }

/-- Velocity and way of a point mass that falls freely through the steps `ts`. -/
noncomputable def fall (q : Vec ℝ × Vec ℝ) (t : Tick ℝ) : Vec ℝ × Vec ℝ :=
  ((q.1.mult (t.damping ^ t.dt)).add (t.gravity.mult t.dt), q.2.add (q.1.mult t.dt))

end CP
