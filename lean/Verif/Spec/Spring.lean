import Verif.Spec.Bounce

/-! # Specification: springs -/

namespace CP

/-- In the step `t` joint `k` alone acts on its two bodies: it is in the list once, no other joint of the step joins one of them, and they
touch nothing. -/
structure Tick.Sole (t : Tick ℝ) (m : Motion ℝ) (k : Nat) : Prop where
  pos : 0 < t.dt
  dyn : t.dyn.Nodup
  ne : (m.joints k).con.a ≠ (m.joints k).con.b
  once : t.joints.count k = 1
  others : ∀ i ∈ t.joints, i ≠ k → ∀ x, x = (m.joints k).con.a ∨ x = (m.joints k).con.b → x ≠ (m.joints i).con.a ∧ x ≠ (m.joints i).con.b
  untouched : ∀ x, x = (m.joints k).con.a ∨ x = (m.joints k).con.b → t.Untouched x

/-- The step damps nothing, and no forces or torques wait for the bodies of joint `k`. -/
structure Tick.Unforced (t : Tick ℝ) (m : Motion ℝ) (k : Nat) : Prop where
  damping : t.damping = 1
  forces : ∀ x, x = (m.joints k).con.a ∨ x = (m.joints k).con.b → (m.bodies x).f = ⟨0, 0⟩ ∧ (m.bodies x).t = 0

/-- By how much a unit impulse along `d`, at the points `ra` and `rb` off the centres, changes the relative velocity of the points along `d`. -/
noncomputable def yields (h : Bodies ℝ) (a b : Nat) (ra rb d : Vec ℝ) : ℝ :=
  (h a).m_inv + (h a).i_inv * ra.cross d ^ 2 + ((h b).m_inv + (h b).i_inv * rb.cross d ^ 2)

/-- The velocities in `h'` are those in `h` after the impulse `P` on body `b` and `-P` on body `a`, at the points `ra` and `rb` off the centres. -/
structure Pulled (h h' : Bodies ℝ) (a b : Nat) (ra rb P : Vec ℝ) : Prop where
  va : (h' a).v = (h a).v.sub (P.mult (h a).m_inv)
  wa : (h' a).w = (h a).w - (h a).i_inv * ra.cross P
  vb : (h' b).v = (h b).v.add (P.mult (h b).m_inv)
  wb : (h' b).w = (h b).w + (h b).i_inv * rb.cross P

/-- A sequence of steps of length `dt` in which joint `k`, between `a` and `b`, alone acts on its bodies, which are carried by their
velocities and otherwise left to themselves. -/
structure Swinging (ms : Nat → Motion ℝ) (ts : Nat → Tick ℝ) (dt : ℝ) (k a b : Nat) : Prop where
  step : ∀ n, ms (n + 1) = (ms n).tick (ts n)
  length : ∀ n, (ts n).dt = dt
  iterations : ∀ n, 0 < (ts n).iterations
  sole : ∀ n, (ts n).Sole (ms n) k
  damping : ∀ n, (ts n).damping = 1
  carried : ∀ n x, x = a ∨ x = b → (ts n).Carries (ms n).bodies x
  still : ∀ x, x = a ∨ x = b → ((ms 0).bodies x).f = ⟨0, 0⟩ ∧ ((ms 0).bodies x).t = 0 ∧ ((ms 0).bodies x).v_bias = ⟨0, 0⟩ ∧ ((ms 0).bodies x).w_bias = 0

/-- Body `b` is `d` away from body `a` along `e`, and moves with `u` along `e` against it. -/
structure Lined (h : Bodies ℝ) (a b : Nat) (e : Vec ℝ) (d u : ℝ) : Prop where
  p : (h b).p.sub (h a).p = e.mult d
  v : (h b).v.sub (h a).v = e.mult u

/-- How far body `b` is from body `a` along `e`, and how fast it moves away. -/
noncomputable def distAlong (h : Bodies ℝ) (a b : Nat) (e : Vec ℝ) : ℝ := ((h b).p.sub (h a).p).dot e
noncomputable def speedAlong (h : Bodies ℝ) (a b : Nat) (e : Vec ℝ) : ℝ := ((h b).v.sub (h a).v).dot e

/-- How a spring pulls in a step of length `dt`: `x` is how far it is off its rest, `y` the change of `x` in the last step; it has the strength
`s` and the damping factor `q`. -/
def springStep (s q : ℝ) (x y : ℝ) : ℝ × ℝ := (x + y, q * (y - s * (x + y)))

/-- The two numbers that decide how a rotary spring swings: its strength and its damping, per step. -/
noncomputable def DampedRotarySpring.strength (j : DampedRotarySpring ℝ) (h : Bodies ℝ) (dt : ℝ) : ℝ := j.stiffness * ((h j.a).i_inv + (h j.b).i_inv) * dt ^ 2
noncomputable def DampedRotarySpring.decay (j : DampedRotarySpring ℝ) (h : Bodies ℝ) (dt : ℝ) : ℝ := j.damping * ((h j.a).i_inv + (h j.b).i_inv) * dt
/-- … and a spring. -/
noncomputable def DampedSpring.strength (j : DampedSpring ℝ) (h : Bodies ℝ) (dt : ℝ) : ℝ := j.stiffness * ((h j.a).m_inv + (h j.b).m_inv) * dt ^ 2
noncomputable def DampedSpring.decay (j : DampedSpring ℝ) (h : Bodies ℝ) (dt : ℝ) : ℝ := j.damping * ((h j.a).m_inv + (h j.b).m_inv) * dt

end CP
