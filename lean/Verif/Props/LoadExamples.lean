import Verif.Props.Load
import Verif.Props.BounceExamples

/-! # C71: a concrete case -/

namespace CP
open GoFloat

/-- A ball hits a wall at speed 3 and leaves with 3/2: the reported impulse, seen from the ball, is 9/2 away from the wall, whatever its spin and its speed along the wall. -/
theorem C71_example (w : ℝ) : (bodyLoad ((ballMotion ⟨-3, 1⟩ w).solved (ballTick 1 (ballArb (1 / 2) (1 / 4) 0 true))).arbs [0] 1).x = 9 / 2 := by
  have e : ∀ k, _ := fun k => C71_load (ballMotion ⟨-3, 1⟩ w) (ballTick 1 (ballArb (1 / 2) (1 / 4) 0 true)) k one_ne_zero rfl (by simp [ballTick]) (by simp [ballTick])
    (by simp [ballTick]) (by simp [ballTick, ballArb]) (by simp [ballTick, ballArb, ballContact])
  -- the velocity of parting
  have p : (ballArb (1 / 2) (1 / 4) 0 true).partVel (ballContact 0) ((ballMotion ⟨-3, 1⟩ w).tick (ballTick 1 (ballArb (1 / 2) (1 / 4) 0 true))).bodies = 3 / 2 := by
    have := (C60_restitution (ballDuel 1 (1 / 2) (1 / 4) 0 true _ one_pos (ballMass ⟨-3, 1⟩ w)) (.inl ⟨rfl, rfl⟩) (ballWeightless _ _ _ _ _ _ (ballForces _ _)) (by
      simp [ballTick, ballArb])).1
    have hv : ((ballTick 1 (ballArb (1 / 2) (1 / 4) 0 true)).contact 0).partVel (ballContact 0) (ballMotion ⟨-3, 1⟩ w).bodies = -3 := (ballVel _ _ _ _ _ _).1
    rw [hv] at this
    have h := this (by norm_num)
    simp only [ballTick, ballArb] at h ⊢
    rw [h]; norm_num
  have fv := weightless_free (ballDuel 1 (1 / 2) (1 / 4) 0 true _ one_pos (ballMass ⟨-3, 1⟩ w)) (ballWeightless 1 (1 / 2) (1 / 4) 0 true _ (ballForces ⟨-3, 1⟩ w))
  have fm : ∀ k, (((ballMotion ⟨-3, 1⟩ w).tick (ballTick 1 (ballArb (1 / 2) (1 / 4) 0 true)).free).bodies k).m_inv = (ballBodies ⟨-3, 1⟩ w k).m_inv := by
    intro k
    rw [free_bodies (ballMotion ⟨-3, 1⟩ w) (ballTick 1 (ballArb (1 / 2) (1 / 4) 0 true)) one_ne_zero (by simp [ballTick]) k]
    have i := (seen_inv (ballMotion ⟨-3, 1⟩ w) (ballTick 1 (ballArb (1 / 2) (1 / 4) 0 true)) k).1
    split
    · exact (updateVelocity_frozen _ _ _ _).m_inv.trans i
    · exact i
  have e0 := congrArg Vec.x (e 0)
  have e1 := congrArg Vec.x (e 1)
  rw [(fv 0 (.inl rfl)).1, fm] at e0
  rw [(fv 1 (.inr rfl)).1, fm] at e1
  generalize ((ballMotion ⟨-3, 1⟩ w).tick (ballTick 1 (ballArb (1 / 2) (1 / 4) 0 true))).bodies = B at *
  simp only [ballMotion, ballBodies, Vec.add, Vec.mult, if_true, zero_ne_one, if_false, mul_zero, mul_one, add_zero] at e0 e1
  simp only [Arb.partVel, ballArb, ballContact, Vec.dot, Vec.add, Vec.sub, Vec.mult, Vec.perp] at p
  have : (bodyLoad ((ballMotion ⟨-3, 1⟩ w).solved (ballTick 1 (ballArb (1 / 2) (1 / 4) 0 true))).arbs [0] 1).x = (B 1).v.x + 3 := by
    rw [e1]
    simp only [ballMotion, ballTick]
    ring
  rw [this]
  norm_num at p
  linarith

end CP
