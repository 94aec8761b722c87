import Verif.Spec.Spring

/-! # Specification: joints that are alone on their bodies

`(m.tick t.free).bodies` are the bodies as the step `t` would leave them without contacts and joints. -/

namespace CP

/-- The velocity with which a joint that is `error` off its goal wants the error to change: the share `1 - errorBias^dt` of the error is to be gone
after `dt`, but not faster than `maxBias`. -/
noncomputable def Con.goal (c : Con ℝ) (dt error : ℝ) : ℝ := max (-c.maxBias) (min (-((1 - c.errorBias ^ dt) * error / dt)) c.maxBias)

/-- The spins in `h'` are those in `h` after the angular impulse `P` on body `b` and `-P * ρ` on body `a`; the velocities are the same. -/
structure Spun (h h' : Bodies ℝ) (a b : Nat) (ρ P : ℝ) : Prop where
  va : (h' a).v = (h a).v
  vb : (h' b).v = (h b).v
  wa : (h' a).w = (h a).w - (h a).i_inv * (ρ * P)
  wb : (h' b).w = (h b).w + (h b).i_inv * P

/-- Nothing is stored from the last step, or the last step was as long. -/
def Tick.Evenly (t : Tick ℝ) (m : Motion ℝ) (stored : ℝ) : Prop := stored = 0 ∨ m.currDt = t.dt

/-- By how much an impulse `P` on body `b` and `-P` on body `a`, at the points `ra` and `rb` off the centres, changes the relative velocity of the points. -/
noncomputable def response (h : Bodies ℝ) (a b : Nat) (ra rb P : Vec ℝ) : Vec ℝ :=
  ((P.mult ((h a).m_inv + (h b).m_inv)).add (ra.perp.mult ((h a).i_inv * ra.cross P))).add (rb.perp.mult ((h b).i_inv * rb.cross P))

/-- What is left of `r` after it has been brought nearer to 0 by `d`, but not beyond 0. -/
def nearer (r d : ℝ) : ℝ := r - max (-d) (min r d)

end CP
