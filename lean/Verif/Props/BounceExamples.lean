import Verif.Props.Bounce
import Verif.Props.Push

/-! # C60: a longer step bounces; concrete cases -/

namespace CP
open GoFloat

/-- Circles are of that kind: two circles that touch only each other, on bodies without joints (or that cannot be moved), meet in a `Duel`, so all of C60
holds of them. -/
theorem C60_circles {m : Motion ℝ} {t : Tick ℝ} {i : Nat} {ra rb : ℝ} (hdt : 0 < t.dt) (hd : t.dyn.Nodup) (hit : 0 < t.iterations) (hco : t.arbs.count i = 1)
    (hl : ∀ x, x = (t.contact i).a ∨ x = (t.contact i).b → Immovable (m.bodies x) ∨ t.Lone m i x) (hab : (t.contact i).a ≠ (t.contact i).b)
    (hR : (t.contact i).Round (m.seen t) ra rb)
    (hs : 0 < (m.bodies (t.contact i).a).m_inv + (m.bodies (t.contact i).b).m_inv ∧ 0 ≤ (m.bodies (t.contact i).a).i_inv ∧ 0 ≤ (m.bodies (t.contact i).b).i_inv) :
    ∃ c, t.Duel m i c ∧ c.r1.cross (t.contact i).n = 0 ∧ c.r2.cross (t.contact i).n = 0 := by
  obtain ⟨h1, -, c, hc, r1, r2⟩ := round_facts hR
  have x1 : c.r1.cross (t.contact i).n = 0 := by rw [r1]; simp only [Vec.cross, Vec.mult]; ring
  have x2 : c.r2.cross (t.contact i).n = 0 := by rw [r2]; simp only [Vec.cross, Vec.mult]; ring
  exact ⟨c, ⟨hdt, hd, hit, hco, hl, hab, hc, h1, hR.surface, hs, .inl ⟨by rw [x1, mul_zero], by rw [x2, mul_zero]⟩⟩, x1, x2⟩

theorem step_noForce (s : Solver ℝ) (op : SolverOp ℝ) (x : Nat) (h : (s.bodies x).f = ⟨0, 0⟩ ∧ (s.bodies x).t = 0) :
    ((s.step op).bodies x).f = ⟨0, 0⟩ ∧ ((s.step op).bodies x).t = 0 := by
  by_cases hi : op.integrated? = none
  · have aux : ∀ {h h' : Bodies ℝ}, Kicks (OpQ s op) h h' → (h' x).f = (h x).f ∧ (h' x).t = (h x).t := by
      intro h h' hk
      induction hk with
      | refl => exact ⟨rfl, rfl⟩
      | step _ q hd ih => exact ⟨(hd.f x).1.trans ih.1, (hd.f x).2.trans ih.2⟩
    have := aux (step_kicks s op hi)
    exact ⟨this.1.trans h.1, this.2.trans h.2⟩
  · cases op with
    | integrate k g d dt =>
      simp only [Solver.step, Bodies.set]
      by_cases e : x = k
      · subst e
        simp only [if_true, Body.updateVelocity]
        split
        · exact h
        · exact ⟨rfl, rfl⟩
      · rw [if_neg e]; exact h
    | _ => exact absurd rfl hi

theorem tick_noForce (m : Motion ℝ) (t : Tick ℝ) (hdt : t.dt ≠ 0) (x : Nat) (h : (m.bodies x).f = ⟨0, 0⟩ ∧ (m.bodies x).t = 0) :
    ((m.tick t).bodies x).f = ⟨0, 0⟩ ∧ ((m.tick t).bodies x).t = 0 := by
  rw [tick_bodies m t hdt]
  have h0 : ((m.begun t).bodies x).f = ⟨0, 0⟩ ∧ ((m.begun t).bodies x).t = 0 := by
    obtain ⟨-, -, h3, h4, -⟩ := seen_v m t x
    exact ⟨h3.trans h.1, h4.trans h.2⟩
  generalize Solver.stepProgram t.arbs t.joints t.dyn t.iterations t.dt m.currDt t.slop t.collisionBias t.damping t.gravity = ops
  generalize m.begun t = s at h0
  induction ops generalizing s with
  | nil => exact h0
  | cons op ops ih => exact ih _ (step_noForce s op x h0)

/-- Where the elasticity is not obeyed: the impulse of the last step is carried over in proportion to the length of the step. Two inelastic
bodies come together with the velocity `-v` and stop; a next step that is `q` times as long throws them apart again with `(q - 1) v`, out of
nothing. (With `q = 2` the inelastic collision ends as a perfectly elastic one.) -/
theorem C60_longer_step_violated {m : Motion ℝ} {t t' : Tick ℝ} {i : Nat} {c c' : Contact ℝ} (D : t.Duel m i c) (W : t.Weightless m i)
    (D' : t'.Duel (m.tick t) i c') (W' : t'.Weightless (m.tick t) i) (cold : c.jnAcc = 0 ∧ c.jtAcc = 0) (F : Follows m t t' i c c')
    (he : (t.contact i).e = 0) (hv : (t.contact i).partVel c m.bodies ≤ 0) :
    (t.contact i).partVel c (m.tick t).bodies = 0 ∧
    (t'.contact i).partVel c' ((m.tick t).tick t').bodies = max 0 ((t'.dt / t.dt - 1) * -(t.contact i).partVel c m.bodies) := by
  have h1 := (C60_restitution D (.inl cold) W (by rw [he])).1 hv
  rw [he, zero_mul, neg_zero] at h1
  refine ⟨h1, ?_⟩
  have f := weightless_free D W
  have f' := weightless_free D' W'
  have e : (t.contact i).partVel c (m.tick t.free).bodies = (t.contact i).partVel c m.bodies := by
    simp only [Arb.partVel, (f _ (.inl rfl)).1, (f _ (.inl rfl)).2, (f _ (.inr rfl)).1, (f _ (.inr rfl)).2]
  have e' : (t'.contact i).partVel c' ((m.tick t).tick t'.free).bodies = (t'.contact i).partVel c' (m.tick t).bodies := by
    simp only [Arb.partVel, (f' _ (.inl rfl)).1, (f' _ (.inl rfl)).2, (f' _ (.inr rfl)).1, (f' _ (.inr rfl)).2]
  have e2 : (t'.contact i).partVel c' (m.tick t).bodies = 0 := by
    rw [← h1]
    simp only [Arb.partVel, F.sameA, F.sameB, F.sameN, F.r1, F.r2]
  rw [C60_carried_bounce D', e', e2, mul_zero, neg_zero, zero_add, max_comm]
  congr 1
  obtain ⟨J, T, hJ, -, d, hd, hn, -⟩ := C60_carried D
  obtain ⟨d', hd', q1, q2⟩ := F.left
  obtain rfl : d = d' := by rw [hd] at hd'; simpa using hd'
  rw [cold.1, mul_zero, sub_zero] at hn
  rw [cold.1, mul_zero, he, zero_mul, add_zero, e] at hJ
  have hco : t'.carriedOver (m.tick t) i = t'.dt / t.dt := by
    have : (m.tick t).currDt = t.dt := by
      have := D.pos.ne'
      simp only [Motion.tick, if_neg this]
    simp only [Tick.carriedOver, F.notFirst, this, D.pos.ne', if_false]
    rfl
  have hK : (t'.contact i).response c' (m.tick t).bodies (t'.contact i).n = (t.contact i).response c m.bodies (t.contact i).n := by
    have fz := tick_frozen m t D.pos.ne'
    simp only [Arb.response, F.sameA, F.sameB, F.sameN, F.r1, F.r2, (fz _).m_inv, (fz _).i_inv, (seen_v m t _).2.2.2.2.2.2.1, (seen_v m t _).2.2.2.2.2.2.2]
  rw [hco, hK, q1, hn, hJ]
  have hp := D.response_pos (t.contact i).n
  rw [max_eq_right (div_nonneg (by linarith) hp.le)]
  field_simp

/-! ### A ball that hits a fixed one -/

/-- A ball of mass 1, moment 1/2 and radius 1 at `(2, 0)` with velocity `v` and spin `w`; a fixed one of radius 1 at the origin. -/
noncomputable def ballBodies (v : Vec ℝ) (w : ℝ) : Bodies ℝ := fun k =>
  if k = 1 then { m := 1, m_inv := 1, i := 1 / 2, i_inv := 2, cog := ⟨0, 0⟩, p := ⟨2, 0⟩, v := v, f := ⟨0, 0⟩, a := 0, w := w, t := 0
                  transform := ⟨1, 0, 0, 1, 2, 0⟩, v_bias := ⟨0, 0⟩, w_bias := 0, shapes := [], idle := 0 }
  else { m := 1, m_inv := 0, i := 1, i_inv := 0, cog := ⟨0, 0⟩, p := ⟨0, 0⟩, v := ⟨0, 0⟩, f := ⟨0, 0⟩, a := 0, w := 0, t := 0
         transform := ⟨1, 0, 0, 1, 0, 0⟩, v_bias := ⟨0, 0⟩, w_bias := 0, shapes := [], idle := 0 }

/-- Their contact. -/
noncomputable def ballContact (jn : ℝ) : Contact ℝ :=
  { r1 := ⟨1, 0⟩, r2 := ⟨-1, 0⟩, nMass := 0, tMass := 0, bounce := 0, jnAcc := jn, jtAcc := 0, jBias := 0, bias := 0, hash := 0 }

/-- Their arbiter. -/
noncomputable def ballArb (e u jn : ℝ) (first : Bool) : Arb ℝ :=
  { e := e, u := u, surface_vr := ⟨0, 0⟩, a := 0, b := 1, n := ⟨1, 0⟩, first := first, contacts := [ballContact jn] }

/-- The balls. -/
noncomputable def ballMotion (v : Vec ℝ) (w : ℝ) : Motion ℝ :=
  { bodies := ballBodies v w, joints := fun _ => .motor { a := 0, b := 1, maxForce := 1, errorBias := 1, maxBias := 1, rate := 0, iSum := 0, jAcc := 0 }, currDt := 1 }

/-- A step of `dt` seconds without gravity. -/
noncomputable def ballTick (dt : ℝ) (arb : Arb ℝ) : Tick ℝ where
  dt := dt
  gravity := ⟨0, 0⟩
  damping := 1
  iterations := 10
  slop := 1 / 10
  collisionBias := 1 / 2
  movers := [1]
  dyn := [1]
  arbs := [0]
  contact := fun _ => arb
  joints := []

theorem ballDuel (dt e u jn : ℝ) (first : Bool) (m : Motion ℝ) (hdt : 0 < dt) (hm : (m.bodies 0).m_inv = 0 ∧ (m.bodies 0).i_inv = 0 ∧ (m.bodies 1).m_inv = 1 ∧ (m.bodies 1).i_inv = 2) :
    (ballTick dt (ballArb e u jn first)).Duel m 0 (ballContact jn) where
  pos := hdt
  dyn := by simp [ballTick]
  iterations := by simp [ballTick]
  once := by simp [ballTick]
  lone := fun x _ => .inr ⟨fun k hk hne => by simp [ballTick] at hk; exact absurd hk hne, by simp [Tick.Unjoined, ballTick]⟩
  ne := by simp [ballTick, ballArb]
  one := rfl
  unit := by simp [ballTick, ballArb, Vec.dot]
  surface := by simp [ballTick, ballArb, Vec.dot]
  solvable := by
    obtain ⟨h1, h2, h3, h4⟩ := hm
    simp [ballTick, ballArb, h1, h2, h3, h4]
  plain := .inl (by simp [Arb.Straight, ballTick, ballArb, ballContact, Vec.cross])

theorem ballMass (v : Vec ℝ) (w : ℝ) : ((ballMotion v w).bodies 0).m_inv = 0 ∧ ((ballMotion v w).bodies 0).i_inv = 0 ∧ ((ballMotion v w).bodies 1).m_inv = 1 ∧
    ((ballMotion v w).bodies 1).i_inv = 2 := ⟨rfl, rfl, rfl, rfl⟩

theorem ballWeightless (dt e u jn : ℝ) (first : Bool) (m : Motion ℝ) (h : ∀ x, x = 0 ∨ x = 1 → (m.bodies x).f = ⟨0, 0⟩ ∧ (m.bodies x).t = 0) :
    (ballTick dt (ballArb e u jn first)).Weightless m 0 := ⟨rfl, rfl, h⟩

theorem ballForces (v : Vec ℝ) (w : ℝ) : ∀ x, x = 0 ∨ x = 1 → ((ballMotion v w).bodies x).f = ⟨0, 0⟩ ∧ ((ballMotion v w).bodies x).t = 0 := by
  rintro x (rfl | rfl) <;> exact ⟨rfl, rfl⟩

theorem ballVel (e u jn : ℝ) (first : Bool) (v : Vec ℝ) (w : ℝ) : (ballArb e u jn first).partVel (ballContact jn) (ballBodies v w) = v.x ∧
    (ballArb e u jn first).slipVel (ballContact jn) (ballBodies v w) = v.y - w := by
  simp [Arb.partVel, Arb.slipVel, ballArb, ballContact, ballBodies, Vec.dot, Vec.add, Vec.sub, Vec.mult, Vec.perp]
  ring

theorem ballResponse (e u jn : ℝ) (first : Bool) (v : Vec ℝ) (w : ℝ) : (ballArb e u jn first).response (ballContact jn) (ballBodies v w) (ballArb e u jn first).n = 1 ∧
    (ballArb e u jn first).response (ballContact jn) (ballBodies v w) (ballArb e u jn first).n.perp = 3 := by
  simp [Arb.response, ballArb, ballContact, ballBodies, Vec.perp, Vec.cross]
  norm_num

/-- A concrete case for `C60_bounce`, `C60_restitution`: elasticity 1/2, so the ball comes with 3 and leaves with 3/2. -/
example (w : ℝ) : (ballArb (1 / 2) (1 / 4) 0 true).partVel (ballContact 0) ((ballMotion ⟨-3, 1⟩ w).tick (ballTick 1 (ballArb (1 / 2) (1 / 4) 0 true))).bodies = 3 / 2 := by
  have := (C60_restitution (ballDuel 1 (1 / 2) (1 / 4) 0 true _ one_pos (ballMass ⟨-3, 1⟩ w)) (.inl ⟨rfl, rfl⟩) (ballWeightless _ _ _ _ _ _ (ballForces _ _)) (by
    simp [ballTick, ballArb])).1
  have hv : ((ballTick 1 (ballArb (1 / 2) (1 / 4) 0 true)).contact 0).partVel (ballContact 0) (ballMotion ⟨-3, 1⟩ w).bodies = -3 := (ballVel _ _ _ _ _ _).1
  rw [hv] at this
  have h := this (by norm_num)
  simp only [ballTick, ballArb] at h ⊢
  rw [h]; norm_num

/-- A concrete case for `C60_friction`: with friction 1/4 the normal impulse 9/2 can stop a slip of up to 27/8; the slip of 1 ends. -/
example : (ballArb (1 / 2) (1 / 4) 0 true).slipVel (ballContact 0) ((ballMotion ⟨-3, 1⟩ 0).tick (ballTick 1 (ballArb (1 / 2) (1 / 4) 0 true))).bodies = 0 := by
  have D := ballDuel 1 (1 / 2) (1 / 4) 0 true _ one_pos (ballMass ⟨-3, 1⟩ 0)
  have W := ballWeightless 1 (1 / 2) (1 / 4) 0 true _ (ballForces ⟨-3, 1⟩ 0)
  obtain ⟨J, hJ, h, -, -⟩ := C60_friction D (.inl ⟨rfl, rfl⟩) (by simp [ballTick, ballArb]) (by simp [Arb.Straight, ballTick, ballArb, ballContact, Vec.cross])
  have f := weightless_free D W
  have e : ∀ arb : Arb ℝ, arb.a = 0 → arb.b = 1 → arb.partVel (ballContact 0) ((ballMotion ⟨-3, 1⟩ 0).tick (ballTick 1 (ballArb (1 / 2) (1 / 4) 0 true)).free).bodies =
      arb.partVel (ballContact 0) (ballBodies ⟨-3, 1⟩ 0) ∧ arb.slipVel (ballContact 0) ((ballMotion ⟨-3, 1⟩ 0).tick (ballTick 1 (ballArb (1 / 2) (1 / 4) 0 true)).free).bodies =
      arb.slipVel (ballContact 0) (ballBodies ⟨-3, 1⟩ 0) := by
    intro arb ha hb
    simp only [Arb.partVel, Arb.slipVel, ha, hb, (f 0 (.inl rfl)).1, (f 0 (.inl rfl)).2, (f 1 (.inr rfl)).1, (f 1 (.inr rfl)).2]
    exact ⟨rfl, rfl⟩
  have hc : (ballTick 1 (ballArb (1 / 2) (1 / 4) 0 true)).contact 0 = ballArb (1 / 2) (1 / 4) 0 true := rfl
  have hb : (ballMotion ⟨-3, 1⟩ 0).bodies = ballBodies ⟨-3, 1⟩ 0 := rfl
  rw [hc] at hJ h
  rw [hb, (e _ rfl rfl).1, (ballVel _ _ _ _ _ _).1, (ballResponse _ _ _ _ _ _).1] at hJ
  rw [hb, (e _ rfl rfl).2, (ballVel _ _ _ _ _ _).2, (ballResponse _ _ _ _ _ _).2] at h
  have hJ' : J = 9 / 2 := by
    rw [hJ]
    simp only [ballArb]
    norm_num
  refine h ?_
  rw [hJ']
  simp only [ballArb]
  norm_num

/-- A concrete case for `C60_energy`: without friction and with elasticity 1 no energy is lost. -/
example (v : Vec ℝ) (w : ℝ) (hv : v.x ≤ 0) : energy {0, 1} ((ballMotion v w).tick (ballTick 1 (ballArb 1 0 0 true))).bodies = energy {0, 1} (ballBodies v w) := by
  have D := ballDuel 1 1 0 0 true _ one_pos (ballMass v w)
  have h := C60_energy D (.inl ⟨rfl, rfl⟩) (ballWeightless 1 1 0 0 true _ (ballForces v w)) (by
    rintro x (rfl | rfl)
    · exact ⟨.inr ⟨rfl, rfl⟩, .inr ⟨rfl, rfl⟩⟩
    · refine ⟨.inl ⟨?_, ?_⟩, .inl ⟨?_, ?_⟩⟩
      · show (0:ℝ) < 1; norm_num
      · show (1:ℝ) * 1 = 1; norm_num
      · show (0:ℝ) < 2; norm_num
      · show (1 / 2:ℝ) * 2 = 1; norm_num) rfl (by simp [ballTick, ballArb]) (by
    have := (ballVel 1 0 0 true v w).1
    rw [← this] at hv
    exact hv)
  have he : ((ballTick 1 (ballArb 1 0 0 true)).contact 0).e = 1 := rfl
  rw [he] at h
  norm_num at h
  exact h

/-- A concrete case for `C60_longer_step_violated`: an inelastic ball comes with velocity 3; a step of one second stops it, the next, of two seconds, sends
it back with velocity 3. -/
theorem C60_longer_step_case : ∃ (m : Motion ℝ) (t t' : Tick ℝ) (c c' : Contact ℝ), t.Duel m 0 c ∧ t'.Duel (m.tick t) 0 c' ∧ Follows m t t' 0 c c' ∧
    (t.contact 0).e = 0 ∧ (t'.contact 0).e = 0 ∧ (t.contact 0).partVel c m.bodies = -3 ∧ (t.contact 0).partVel c (m.tick t).bodies = 0 ∧
    (t'.contact 0).partVel c' ((m.tick t).tick t').bodies = 3 := by
  have D := ballDuel 1 0 0 0 true _ one_pos (ballMass ⟨-3, 0⟩ 0)
  have W := ballWeightless 1 0 0 0 true _ (ballForces ⟨-3, 0⟩ 0)
  have hdt : (ballTick 1 (ballArb 0 0 0 true)).dt ≠ 0 := one_ne_zero
  have hv : ((ballTick 1 (ballArb 0 0 0 true)).contact 0).partVel (ballContact 0) (ballMotion ⟨-3, 0⟩ 0).bodies = -3 := (ballVel _ _ _ _ _ _).1
  have fz := tick_frozen (ballMotion ⟨-3, 0⟩ 0) (ballTick 1 (ballArb 0 0 0 true)) hdt
  have sv := seen_v (ballMotion ⟨-3, 0⟩ 0) (ballTick 1 (ballArb 0 0 0 true))
  have mass : (((ballMotion ⟨-3, 0⟩ 0).tick (ballTick 1 (ballArb 0 0 0 true))).bodies 0).m_inv = 0 ∧ (((ballMotion ⟨-3, 0⟩ 0).tick (ballTick 1 (ballArb 0 0 0 true))).bodies 0).i_inv = 0 ∧
      (((ballMotion ⟨-3, 0⟩ 0).tick (ballTick 1 (ballArb 0 0 0 true))).bodies 1).m_inv = 1 ∧ (((ballMotion ⟨-3, 0⟩ 0).tick (ballTick 1 (ballArb 0 0 0 true))).bodies 1).i_inv = 2 := by
    rw [(fz _).m_inv, (fz _).i_inv, (fz _).m_inv, (fz _).i_inv, (sv _).2.2.2.2.2.2.1, (sv _).2.2.2.2.2.2.2, (sv _).2.2.2.2.2.2.1, (sv _).2.2.2.2.2.2.2]
    exact ⟨rfl, rfl, rfl, rfl⟩
  have D' := ballDuel 2 0 0 3 false _ two_pos mass
  have W' := ballWeightless 2 0 0 3 false _ (fun x hx => tick_noForce _ _ hdt x (ballForces ⟨-3, 0⟩ 0 x hx))
  have F : Follows (ballMotion ⟨-3, 0⟩ 0) (ballTick 1 (ballArb 0 0 0 true)) (ballTick 2 (ballArb 0 0 3 false)) 0 (ballContact 0) (ballContact 3) := by
    refine ⟨?_, rfl, rfl, rfl, rfl, rfl, rfl, rfl⟩
    obtain ⟨J, T, hJ, -, d, hd, hn, -, ht⟩ := C60_carried D
    have f := weightless_free D W
    have e : ((ballTick 1 (ballArb 0 0 0 true)).contact 0).partVel (ballContact 0) ((ballMotion ⟨-3, 0⟩ 0).tick (ballTick 1 (ballArb 0 0 0 true)).free).bodies = -3 := by
      refine Eq.trans ?_ hv
      simp only [Arb.partVel, (f _ (.inl rfl)).1, (f _ (.inl rfl)).2, (f _ (.inr rfl)).1, (f _ (.inr rfl)).2]
    have hK : ((ballTick 1 (ballArb 0 0 0 true)).contact 0).response (ballContact 0) (ballMotion ⟨-3, 0⟩ 0).bodies ((ballTick 1 (ballArb 0 0 0 true)).contact 0).n = 1 :=
      (ballResponse _ _ _ _ _ _).1
    have h0 : (ballContact 0).jnAcc = 0 := rfl
    have he : ((ballTick 1 (ballArb 0 0 0 true)).contact 0).e = 0 := rfl
    have hu : ((ballTick 1 (ballArb 0 0 0 true)).contact 0).u = 0 := rfl
    rw [e, hv, hK, h0, he] at hJ
    rw [h0, hJ] at hn
    rw [hu, zero_mul, clamp_nothing] at ht
    refine ⟨d, hd, ?_, ht.symm⟩
    rw [hn]
    show (3 : ℝ) = _
    norm_num
  obtain ⟨r1, r2⟩ := C60_longer_step_violated D W D' W' ⟨rfl, rfl⟩ F rfl (by rw [hv]; norm_num)
  refine ⟨_, _, _, _, _, D, D', F, rfl, rfl, hv, r1, ?_⟩
  rw [r2, hv]
  show max 0 (((2 : ℝ) / 1 - 1) * -(-3)) = 3
  norm_num

end CP
