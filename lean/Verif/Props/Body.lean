import Verif.Model.Body
import Verif.Props.Geometry

/-! # C13, C14: body coordinates and mass accumulation -/

namespace CP
open GoFloat

namespace Body

/-- The calls a user (or the engine) can make on a body, C13's "operation sequence". `solver` stands
for any change of the velocities by contacts, joints or user code. -/
inductive Op
  | setPosition (p : Vec ℝ)
  | setAngle (a : ℝ)
  | setMass (m : ℝ)
  | setMoment (i : ℝ)
  | setType (t : BodyType)
  | addShape (s : BShape ℝ)
  | removeShape (s : BShape ℝ)
  | setShapeMass (id : Nat) (m : ℝ)
  | setVelocity (v : Vec ℝ)
  | setAngularVelocity (w : ℝ)
  | setForce (f : Vec ℝ)
  | setTorque (t : ℝ)
  | applyForceWorld (f p : Vec ℝ)
  | applyForceLocal (f p : Vec ℝ)
  | applyImpulseWorld (j p : Vec ℝ)
  | applyImpulseLocal (j p : Vec ℝ)
  | activate
  | solver (v : Vec ℝ) (w : ℝ) (vb : Vec ℝ) (wb : ℝ)
  | updateVelocity (g : Vec ℝ) (damping dt : ℝ)
  | updatePosition (dt : ℝ)

/-- Executing a call. -/
noncomputable def exec (b : Body ℝ) : Op → Body ℝ
  | .setPosition p => b.setPosition p
  | .setAngle a => b.setAngle a
  | .setMass m => b.setMass m
  | .setMoment i => b.setMoment i
  | .setType t => b.setType t
  | .addShape s => b.addShape s
  | .removeShape s => b.removeShape s
  | .setShapeMass id m => b.setShapeMass id m
  | .setVelocity v => b.setVelocity v
  | .setAngularVelocity w => b.setAngularVelocity w
  | .setForce f => b.setForce f
  | .setTorque t => b.setTorque t
  | .applyForceWorld f p => b.applyForceAtWorldPoint f p
  | .applyForceLocal f p => b.applyForceAtLocalPoint f p
  | .applyImpulseWorld j p => b.applyImpulseAtWorldPoint j p
  | .applyImpulseLocal j p => b.applyImpulseAtLocalPoint j p
  | .activate => b.activate
  | .solver v w vb wb => { b with v := v, w := w, v_bias := vb, w_bias := wb }
  | .updateVelocity g d dt => b.updateVelocity g d dt
  | .updatePosition dt => b.updatePosition dt

/-- The bodies obtained from `NewBody` by any sequence of calls. -/
def Reachable (b : Body ℝ) : Prop := ∃ m i ops, b = (ops : List Op).foldl exec (new m i)

/-- The specification of a rigid placement: rotation by `θ` about the point `c` of the body, which
is placed at `p`. -/
noncomputable def place (θ : ℝ) (c p : Vec ℝ) (q : Vec ℝ) : Vec ℝ :=
  ⟨p.x + (Real.cos θ * (q.x - c.x) - Real.sin θ * (q.y - c.y)),
   p.y + (Real.sin θ * (q.x - c.x) + Real.cos θ * (q.y - c.y))⟩

/-- The invariant: the cached transform is the one of the stored angle, position and centre of
gravity. -/
def Wf (b : Body ℝ) : Prop := b.transform = (b.setTransform b.p b.a).transform

theorem wf_setTransform (b : Body ℝ) : (b.setTransform b.p b.a).Wf := rfl

theorem activate_fields (b : Body ℝ) : b.activate.transform = b.transform ∧ b.activate.p = b.p ∧
    b.activate.a = b.a ∧ b.activate.cog = b.cog ∧ b.activate.m = b.m ∧ b.activate.i = b.i ∧
    b.activate.m_inv = b.m_inv ∧ b.activate.i_inv = b.i_inv ∧ b.activate.shapes = b.shapes ∧
    b.activate.v = b.v ∧ b.activate.w = b.w ∧ b.activate.v_bias = b.v_bias ∧
    b.activate.w_bias = b.w_bias := by
  unfold activate; split <;> simp

theorem wf_of_eq {b c : Body ℝ} (h : b.Wf) (h1 : c.transform = b.transform) (h2 : c.p = b.p)
    (h3 : c.a = b.a) (h4 : c.cog = b.cog) : c.Wf := by
  unfold Wf setTransform at *; simp only [h1, h2, h3, h4]; exact h

theorem setPosition_eq (b : Body ℝ) (h : b.transform.a = Real.cos b.a ∧ b.transform.b = Real.sin b.a ∧
      b.transform.c = -Real.sin b.a ∧ b.transform.d = Real.cos b.a) (q : Vec ℝ) :
    (b.setPosition q).Wf ∧ (b.setPosition q).position = q ∧ (b.setPosition q).a = b.a ∧
    (b.setPosition q).cog = b.cog ∧ (b.setPosition q).m = b.m ∧ (b.setPosition q).i = b.i ∧
    (b.setPosition q).m_inv = b.m_inv ∧ (b.setPosition q).i_inv = b.i_inv ∧
    (b.setPosition q).shapes = b.shapes := by
  obtain ⟨ht, hp, ha, hc, hm, hi, hmi, hii, hs, -⟩ := b.activate_fields
  obtain ⟨h1, h2, h3, h4⟩ := h
  refine ⟨?_, ?_, ?_, ?_, ?_, ?_, ?_, ?_, ?_⟩
  · simp only [Wf, setPosition, setTransform]
  · simp only [setPosition, setTransform, position, Transform.point, Transform.transpose, zeroV,
      Transform.vect, Vec.add, ht, ha, hc, h1, h2, h3, h4, cos_real, sin_real]
    ext <;> simp <;> ring
  all_goals simp only [setPosition, setTransform, ha, hc, hm, hi, hmi, hii, hs]

theorem Wf.rot {b : Body ℝ} (h : b.Wf) : b.transform.a = Real.cos b.a ∧ b.transform.b = Real.sin b.a ∧
      b.transform.c = -Real.sin b.a ∧ b.transform.d = Real.cos b.a := by
  rw [h]; simp [setTransform, Transform.transpose]

/-- Mass accumulation on the mass-related fields only. -/
theorem foldl_accum_fields (l : List (BShape ℝ)) (b : Body ℝ) :
    (l.foldl accumStep b).transform = b.transform ∧ (l.foldl accumStep b).a = b.a ∧
    (l.foldl accumStep b).shapes = b.shapes ∧ (l.foldl accumStep b).p = b.p ∧
    (l.foldl accumStep b).idle = b.idle ∧ (l.foldl accumStep b).v = b.v ∧
    (l.foldl accumStep b).w = b.w := by
  induction l generalizing b with
  | nil => simp
  | cons s l ih =>
    rw [List.foldl_cons]
    have h := ih (b.accumStep s)
    have : (b.accumStep s).transform = b.transform ∧ (b.accumStep s).a = b.a ∧
      (b.accumStep s).shapes = b.shapes ∧ (b.accumStep s).p = b.p ∧
      (b.accumStep s).idle = b.idle ∧ (b.accumStep s).v = b.v ∧ (b.accumStep s).w = b.w := by
      unfold accumStep; dsimp only; split <;> simp
    simp only [this] at h
    exact h

/-- Two bodies at the same place and orientation. -/
def SamePlace (b c : Body ℝ) : Prop := c.transform = b.transform ∧ c.a = b.a

theorem transform_ext_of {b c : Body ℝ} (hb : b.Wf) (hc : c.Wf) (ha : c.a = b.a)
    (hp : c.position = b.position) : c.transform = b.transform := by
  have h1 := hb.rot
  have h2 := hc.rot
  simp only [position, Transform.point, zeroV, mul_zero, zero_add] at hp
  have hx := congrArg Vec.x hp
  have hy := congrArg Vec.y hp
  simp only [add_zero, zero_add] at hx hy
  rw [ha] at h2
  ext
  · rw [h1.1, h2.1]
  · rw [h1.2.1, h2.2.1]
  · rw [h1.2.2.1, h2.2.2.1]
  · rw [h1.2.2.2, h2.2.2.2]
  · exact hx
  · exact hy

theorem accumulateMass_place (b : Body ℝ) (h : b.Wf) : b.accumulateMass.Wf ∧ SamePlace b b.accumulateMass := by
  unfold accumulateMass
  split
  · exact ⟨h, rfl, rfl⟩
  · dsimp only
    generalize hb1 : ({ b with m := 0, i := 0, cog := zeroV } : Body ℝ) = b1
    have e1 : b1.transform = b.transform := by rw [← hb1]
    have e2 : b1.a = b.a := by rw [← hb1]
    have e3 : b1.shapes = b.shapes := by rw [← hb1]
    generalize hb2 : List.foldl accumStep b1 b.shapes = b2
    have f := foldl_accum_fields b.shapes b1
    rw [hb2] at f
    generalize hb3 : ({ b2 with m_inv := 1 / b2.m, i_inv := 1 / b2.i } : Body ℝ) = b3
    have g1 : b3.transform = b.transform := by rw [← hb3]; exact f.1.trans e1
    have g2 : b3.a = b.a := by rw [← hb3]; exact f.2.1.trans e2
    have hr := h.rot
    have := setPosition_eq b3 (by rw [g1, g2]; exact hr) b1.position
    refine ⟨this.1, ?_, this.2.2.1.trans g2⟩
    refine transform_ext_of h this.1 (this.2.2.1.trans g2) ?_
    rw [this.2.1]; simp only [position, e1]

theorem setType_place (b : Body ℝ) (h : b.Wf) (t : BodyType) :
    (b.setType t).Wf ∧ SamePlace b (b.setType t) := by
  unfold setType
  split
  · exact ⟨h, rfl, rfl⟩
  · dsimp only
    generalize hb1 : (if t = .static then ({ b with idle := maxFloat } : Body ℝ)
      else { b with idle := 0 }) = b1
    have e : b1.transform = b.transform ∧ b1.p = b.p ∧ b1.a = b.a ∧ b1.cog = b.cog := by
      rw [← hb1]; split <;> simp
    split
    · generalize hb2 : ({ b1 with m := 0, i := 0, m_inv := maxFloat, i_inv := maxFloat } : Body ℝ) = b2
      have e' : b2.transform = b.transform ∧ b2.p = b.p ∧ b2.a = b.a ∧ b2.cog = b.cog := by
        rw [← hb2]; exact e
      have := accumulateMass_place b2 (wf_of_eq h e'.1 e'.2.1 e'.2.2.1 e'.2.2.2)
      exact ⟨this.1, this.2.1.trans e'.1, this.2.2.trans e'.2.2.1⟩
    · exact ⟨wf_of_eq h e.1 e.2.1 e.2.2.1 e.2.2.2, e.1, e.2.2.1⟩

/-- The calls that change the mass distribution or the body type. -/
def Op.massOp : Op → Prop
  | .setMass _ | .setMoment _ | .setType _ | .addShape _ | .removeShape _ | .setShapeMass _ _ => True
  | _ => False

/-- Every call other than the three that move the body. -/
def Op.keepsPlace : Op → Prop
  | .setPosition _ | .setAngle _ | .updatePosition _ => False
  | _ => True

theorem exec_keepsPlace (b : Body ℝ) (h : b.Wf) (op : Op) (ho : op.keepsPlace) :
    (b.exec op).Wf ∧ SamePlace b (b.exec op) := by
  obtain ⟨ht, hp, ha, hc, -⟩ := b.activate_fields
  have hact : b.activate.Wf := wf_of_eq h ht hp ha hc
  cases op with
  | setPosition p => exact ho.elim
  | setAngle a => exact ho.elim
  | updatePosition dt => exact ho.elim
  | setMass m => exact ⟨wf_of_eq h ht hp ha hc, ht, ha⟩
  | setMoment m => exact ⟨wf_of_eq h ht hp ha hc, ht, ha⟩
  | setType t => exact b.setType_place h t
  | addShape s =>
    simp only [exec, addShape]
    split
    · exact accumulateMass_place { b with shapes := b.shapes ++ [s] } (wf_of_eq h rfl rfl rfl rfl)
    · exact ⟨wf_of_eq h rfl rfl rfl rfl, rfl, rfl⟩
  | removeShape s =>
    simp only [exec, removeShape]
    split
    · exact accumulateMass_place { b with shapes := swapRemove b.shapes s.id }
        (wf_of_eq h rfl rfl rfl rfl)
    · exact ⟨wf_of_eq h rfl rfl rfl rfl, rfl, rfl⟩
  | setShapeMass id m =>
    simp only [exec, setShapeMass]
    have := accumulateMass_place { b.activate with shapes := b.activate.shapes.map fun (s : BShape ℝ) =>
      if s.id = id then { s with info := { s.info with m := m } } else s }
      (wf_of_eq hact rfl rfl rfl rfl)
    exact ⟨this.1, this.2.1.trans ht, this.2.2.trans ha⟩
  | setVelocity v => exact ⟨wf_of_eq h ht hp ha hc, ht, ha⟩
  | setAngularVelocity v => exact ⟨wf_of_eq h ht hp ha hc, ht, ha⟩
  | setForce v => exact ⟨wf_of_eq h ht hp ha hc, ht, ha⟩
  | setTorque v => exact ⟨wf_of_eq h ht hp ha hc, ht, ha⟩
  | applyForceWorld f p => exact ⟨wf_of_eq h ht hp ha hc, ht, ha⟩
  | applyForceLocal f p => exact ⟨wf_of_eq h ht hp ha hc, ht, ha⟩
  | applyImpulseWorld f p => exact ⟨wf_of_eq h ht hp ha hc, ht, ha⟩
  | applyImpulseLocal f p => exact ⟨wf_of_eq h ht hp ha hc, ht, ha⟩
  | activate => exact ⟨hact, ht, ha⟩
  | solver v w vb wb => exact ⟨wf_of_eq h rfl rfl rfl rfl, rfl, rfl⟩
  | updateVelocity g d dt =>
    simp only [exec, updateVelocity]
    split
    · exact ⟨h, rfl, rfl⟩
    · exact ⟨wf_of_eq h rfl rfl rfl rfl, rfl, rfl⟩

theorem setAngle_wf (b : Body ℝ) (a : ℝ) : (b.setAngle a).Wf := by
  simp only [Wf, setAngle, setTransform]

theorem updatePosition_wf (b : Body ℝ) (dt : ℝ) : (b.updatePosition dt).Wf := by
  simp only [Wf, updatePosition, setTransform]

theorem exec_wf (b : Body ℝ) (h : b.Wf) (op : Op) : (b.exec op).Wf := by
  cases op with
  | setPosition p => exact (setPosition_eq b h.rot p).1
  | setAngle a => exact setAngle_wf b a
  | updatePosition dt => exact updatePosition_wf b dt
  | _ => refine (exec_keepsPlace b h _ ?_).1; trivial

theorem Reachable.wf {b : Body ℝ} (h : b.Reachable) : b.Wf := by
  obtain ⟨m, i, ops, rfl⟩ := h
  induction ops using List.reverseRecOn with
  | nil => exact setAngle_wf _ 0
  | append_singleton l a ih => rw [List.foldl_append]; exact exec_wf _ ih a

theorem Wf.localToWorld {b : Body ℝ} (h : b.Wf) (q : Vec ℝ) :
    b.localToWorld q = place b.a b.cog b.p q := by
  rw [Body.localToWorld, h]
  simp only [setTransform, Transform.transpose, Transform.point, place, cos_real, sin_real]
  ext <;> simp <;> ring

end Body

open Body

/-- C13: after any sequence of calls, `LocalToWorld` is the rotation by `Angle()` about the centre of
gravity, which is placed at the body's internal position (which the engine integrates). -/
theorem C13_rigid (b : Body ℝ) (h : b.Reachable) (q : Vec ℝ) :
    b.localToWorld q = place b.angle b.centerOfGravity b.p q ∧
    b.localToWorld b.centerOfGravity = b.p ∧
    b.localToWorld ⟨0, 0⟩ = b.position := by
  refine ⟨h.wf.localToWorld q, ?_, rfl⟩
  rw [h.wf.localToWorld]
  simp only [place, centerOfGravity]
  ext <;> simp

/-- C13: `Rotation()` is the unit vector of `Angle()`. -/
theorem C13_rotation (b : Body ℝ) (h : b.Reachable) :
    b.rotation = ⟨Real.cos b.angle, Real.sin b.angle⟩ ∧ b.rotation.dot b.rotation = 1 := by
  have := h.wf.rot
  constructor
  · simp only [rotation, angle, this]
  · simp only [rotation, this, Vec.dot]
    nlinarith [Real.sin_sq_add_cos_sq b.a]

/-- C13: `LocalToWorld` and `WorldToLocal` are inverse to each other. -/
theorem C13_roundtrip (b : Body ℝ) (h : b.Reachable) (q : Vec ℝ) :
    b.worldToLocal (b.localToWorld q) = q ∧ b.localToWorld (b.worldToLocal q) = q := by
  obtain ⟨ha, hb, hc, hd⟩ := h.wf.rot
  have e := Real.sin_sq_add_cos_sq b.a
  simp only [worldToLocal, localToWorld, Transform.rigidInverse, Transform.transpose, Transform.point,
    ha, hb, hc, hd]
  constructor
  · ext <;> simp only []
    · linear_combination q.x * e
    · linear_combination q.y * e
  · ext <;> simp only []
    · linear_combination (q.x - b.transform.tx) * e
    · linear_combination (q.y - b.transform.ty) * e

/-- C13: `SetPosition(q)` makes `Position()` return `q` and keeps the angle. -/
theorem C13_setPosition (b : Body ℝ) (h : b.Reachable) (q : Vec ℝ) :
    (b.setPosition q).position = q ∧ (b.setPosition q).angle = b.angle := by
  have := setPosition_eq b h.wf.rot q
  exact ⟨this.2.1, this.2.2.1⟩

/-- C13: `SetAngle(θ)` sets the angle and rotates about the centre of gravity, whose world position
does not change. -/
theorem C13_setAngle (b : Body ℝ) (h : b.Reachable) (θ : ℝ) :
    (b.setAngle θ).angle = θ ∧
    (b.setAngle θ).localToWorld (b.setAngle θ).centerOfGravity = b.localToWorld b.centerOfGravity ∧
    ∀ q, (b.setAngle θ).localToWorld q = place θ b.centerOfGravity (b.localToWorld b.centerOfGravity) q := by
  have hc := (C13_rigid b h ⟨0, 0⟩).2.1
  obtain ⟨-, hp, -, hcog, -⟩ := b.activate_fields
  have e1 : (b.setAngle θ).p = b.p := by simp only [setAngle, setTransform, hp]
  have e2 : (b.setAngle θ).cog = b.cog := by simp only [setAngle, setTransform, hcog]
  have e3 : (b.setAngle θ).a = θ := by simp only [setAngle, setTransform]
  have hr : ∀ q, (b.setAngle θ).localToWorld q = place θ b.cog b.p q := by
    intro q; rw [(setAngle_wf b θ).localToWorld, e1, e2, e3]
  refine ⟨e3, ?_, ?_⟩
  · rw [hr, hc]
    simp only [centerOfGravity, e2, place]
    ext <;> simp
  · intro q; rw [hr, hc]; rfl

/-- C13: no call except `SetPosition`, `SetAngle` and position integration moves or turns the body;
in particular changing masses, moments, the type or the shapes never moves any of its points. -/
theorem C13_mass_changes_do_not_move (b : Body ℝ) (h : b.Reachable) (op : Op) (ho : op.keepsPlace) :
    (b.exec op).position = b.position ∧ (b.exec op).angle = b.angle ∧
    ∀ q, (b.exec op).localToWorld q = b.localToWorld q := by
  obtain ⟨-, ht, ha⟩ := exec_keepsPlace b h.wf op ho
  exact ⟨by simp only [position, ht], ha, fun q => by simp only [localToWorld, ht]⟩

/-- C13: position integration moves the centre of gravity by `(v + v_bias)·dt`, turns the body by
`(w + w_bias)·dt` and clears the bias velocities. -/
theorem C13_integrate (b : Body ℝ) (h : b.Reachable) (dt : ℝ) :
    let b' := b.updatePosition dt
    b'.localToWorld b'.centerOfGravity =
      (b.localToWorld b.centerOfGravity).add ((b.v.add b.v_bias).mult dt) ∧
    b'.angle = b.angle + (b.w + b.w_bias) * dt ∧ b'.centerOfGravity = b.centerOfGravity ∧
    b'.v = b.v ∧ b'.w = b.w ∧ b'.v_bias = ⟨0, 0⟩ ∧ b'.w_bias = 0 := by
  intro b'
  have hw : b'.Wf := updatePosition_wf b dt
  refine ⟨?_, rfl, rfl, rfl, rfl, rfl, rfl⟩
  rw [(C13_rigid b h ⟨0, 0⟩).2.1, hw.localToWorld]
  have : b'.p = b.p.add ((b.v.add b.v_bias).mult dt) := rfl
  rw [this]
  simp only [place, centerOfGravity]
  ext <;> simp

/-- C13: the two velocity queries agree, and give the velocity of the point under rigid motion. -/
theorem C13_velocity_at_point (b : Body ℝ) (h : b.Reachable) (q : Vec ℝ) :
    b.velocityAtLocalPoint q = b.velocityAtWorldPoint (b.localToWorld q) ∧
    b.velocityAtWorldPoint b.p = b.v := by
  have hc := (C13_rigid b h ⟨0, 0⟩).2.1
  have e : b.transform.point b.cog = b.p := hc
  constructor
  · simp only [velocityAtLocalPoint, velocityAtWorldPoint, localToWorld]
    congr 3
    simp only [Transform.vect, Transform.point, Vec.sub]
    ext <;> simp <;> ring
  · simp only [velocityAtWorldPoint, e, Vec.sub, Vec.perp, Vec.mult, Vec.add]
    ext <;> simp

/-- Non-vacuity: a body with an off-centre shape, moved and turned, is reachable, and its position is
the one set although its centre of gravity is elsewhere. -/
example : let b := [Op.addShape ⟨0, ⟨2, 1, ⟨1, 0⟩, 1⟩⟩, .setAngle 1, .setPosition ⟨5, 7⟩].foldl exec (new 1 1)
    b.Reachable ∧ b.position = ⟨5, 7⟩ ∧ b.angle = 1 ∧ b.centerOfGravity = ⟨1, 0⟩ := by
  intro b
  have hr : ∀ ops : List Op, (ops.foldl exec (new 1 1)).Reachable := fun ops => ⟨1, 1, ops, rfl⟩
  have h2 := C13_setPosition _ (hr [Op.addShape ⟨0, ⟨2, 1, ⟨1, 0⟩, 1⟩⟩, .setAngle 1]) ⟨5, 7⟩
  have h1 := C13_setAngle _ (hr [Op.addShape ⟨0, ⟨2, 1, ⟨1, 0⟩, 1⟩⟩]) 1
  refine ⟨hr _, h2.1, h2.2.trans h1.1, ?_⟩
  have hne : ¬ ((0 : ℝ) = maxFloat) := maxFloat_pos.ne
  have hne1 : ¬ ((1 : ℝ) = maxFloat) := one_lt_maxFloat.ne
  have hne2 : ¬ ((2 : ℝ) = maxFloat) := by
    have h := one_lt_maxFloat; intro h2
    rw [maxFloat_real] at h2
    have h3 : (2 : ℝ) ^ 1024 = 2 ^ 971 * 2 ^ 53 := by rw [← pow_add]
    have h4 : (1 : ℝ) ≤ 2 ^ 971 := one_le_pow₀ (by norm_num)
    have h5 : (2 : ℝ) ^ 53 = 9007199254740992 := by norm_num
    rw [h3, h5] at h2
    generalize (2 : ℝ) ^ 971 = y at h2 h4
    linarith
  show ((([Op.addShape ⟨0, ⟨2, 1, ⟨1, 0⟩, 1⟩⟩, .setAngle 1].foldl exec (new 1 1)).setPosition ⟨5, 7⟩)).cog = ⟨1, 0⟩
  rw [(setPosition_eq _ (hr _).wf.rot _).2.2.2.1]
  simp [exec, addShape, setAngle, setTransform, activate, type, new, setMass, setMoment, accumulateMass,
    accumStep, setPosition, zeroV, Vec.lerp, Vec.add, Vec.mult, hne, hne1, hne2]

/-! ## C14 -/

/-- The shapes that count: those with positive mass. -/
noncomputable def heavy (l : List (BShape ℝ)) : List (BShape ℝ) := l.filter fun s => decide (0 < s.info.m)
/-- Total mass (specification). -/
noncomputable def totalMass (l : List (BShape ℝ)) : ℝ := ((heavy l).map fun s => s.info.m).sum
/-- First moments (specification). -/
noncomputable def massX (l : List (BShape ℝ)) : ℝ := ((heavy l).map fun s => s.info.m * s.info.cog.x).sum
noncomputable def massY (l : List (BShape ℝ)) : ℝ := ((heavy l).map fun s => s.info.m * s.info.cog.y).sum
/-- Moment of inertia of all shapes about the point `c` (specification, parallel axis theorem). -/
noncomputable def momentAbout (c : Vec ℝ) (l : List (BShape ℝ)) : ℝ :=
  ((heavy l).map fun s => s.info.m * (s.info.i + c.distanceSq s.info.cog)).sum

theorem heavy_snoc (l : List (BShape ℝ)) (s : BShape ℝ) :
    heavy (l ++ [s]) = if 0 < s.info.m then heavy l ++ [s] else heavy l := by
  simp only [heavy, List.filter_append]
  by_cases h : 0 < s.info.m <;> simp [h]

theorem totalMass_nonneg (l : List (BShape ℝ)) : 0 ≤ totalMass l := by
  apply List.sum_nonneg
  intro x hx
  obtain ⟨s, hs, rfl⟩ := List.mem_map.mp hx
  exact le_of_lt (by simpa using (List.mem_filter.mp hs).2)

/-- `momentAbout` as a quadratic in the reference point. -/
theorem momentAbout_shift (c : Vec ℝ) (l : List (BShape ℝ)) :
    momentAbout c l = momentAbout ⟨0, 0⟩ l - 2 * (c.x * massX l + c.y * massY l) +
      (c.x ^ 2 + c.y ^ 2) * totalMass l := by
  simp only [momentAbout, massX, massY, totalMass]
  induction heavy l with
  | nil => simp
  | cons s l ih =>
    simp only [List.map_cons, List.sum_cons, ih]
    generalize (List.map (fun s : BShape ℝ => s.info.m * (s.info.i + Vec.distanceSq ⟨0, 0⟩ s.info.cog)) l).sum = S
    simp only [Vec.distanceSq, Vec.lengthSq, Vec.dot, Vec.sub]
    ring

theorem accum_spec (l : List (BShape ℝ)) (b : Body ℝ) (hm : b.m = 0) (hi : b.i = 0)
    (hc : b.cog = ⟨0, 0⟩) :
    let b' := l.foldl accumStep b
    b'.m = totalMass l ∧ b'.m * b'.cog.x = massX l ∧ b'.m * b'.cog.y = massY l ∧
    b'.i = momentAbout b'.cog l := by
  induction l using List.reverseRecOn with
  | nil => simp [hm, hi, heavy, totalMass, massX, massY, momentAbout]
  | append_singleton l s ih =>
    rw [List.foldl_append, List.foldl_cons, List.foldl_nil]
    obtain ⟨h1, h2, h3, h4⟩ := ih
    dsimp only at h1 h2 h3 h4 ⊢
    generalize l.foldl accumStep b = B at *
    have hn := totalMass_nonneg l
    by_cases hs : 0 < s.info.m
    · have e1 : totalMass (l ++ [s]) = totalMass l + s.info.m := by
        simp [totalMass, heavy_snoc, hs]
      have e2 : massX (l ++ [s]) = massX l + s.info.m * s.info.cog.x := by
        simp [massX, heavy_snoc, hs]
      have e3 : massY (l ++ [s]) = massY l + s.info.m * s.info.cog.y := by
        simp [massY, heavy_snoc, hs]
      have e4 : ∀ c, momentAbout c (l ++ [s]) =
          momentAbout c l + s.info.m * (s.info.i + c.distanceSq s.info.cog) := by
        intro c; simp [momentAbout, heavy_snoc, hs]
      have hpos : 0 < B.m + s.info.m := by rw [h1]; linarith
      have hne := hpos.ne'
      simp only [accumStep, hs, if_true, e1, e2, e3]
      refine ⟨by rw [h1], ?_, ?_, ?_⟩
      · simp only [Vec.lerp, Vec.add, Vec.mult]
        rw [← h2]; field_simp; ring
      · simp only [Vec.lerp, Vec.add, Vec.mult]
        rw [← h3]; field_simp; ring
      · rw [e4, momentAbout_shift, ← h2, ← h3, ← h1, h4, momentAbout_shift B.cog, ← h2, ← h3, ← h1]
        simp only [Vec.lerp, Vec.add, Vec.mult, Vec.distanceSq, Vec.lengthSq, Vec.dot, Vec.sub]
        field_simp
        ring
    · have : heavy (l ++ [s]) = heavy l := by rw [heavy_snoc]; simp [hs]
      simp only [accumStep, hs, if_false, totalMass, massX, massY, momentAbout, this]
      exact ⟨h1, h2, h3, h4⟩

/-- The fields of `accumulateMass`. -/
theorem accumulateMass_fields (b : Body ℝ) (hd : b.type = .dynamic) :
    let b0 : Body ℝ := b.shapes.foldl accumStep { b with m := 0, i := 0, cog := ⟨0, 0⟩ }
    b.accumulateMass.m = b0.m ∧ b.accumulateMass.i = b0.i ∧ b.accumulateMass.cog = b0.cog ∧
    b.accumulateMass.m_inv = 1 / b0.m ∧ b.accumulateMass.i_inv = 1 / b0.i ∧
    b.accumulateMass.shapes = b.shapes := by
  intro b0
  obtain ⟨-, -, h3, -⟩ := foldl_accum_fields b.shapes { b with m := 0, i := 0, cog := ⟨0, 0⟩ }
  generalize hb3 : ({ b0 with m_inv := 1 / b0.m, i_inv := 1 / b0.i } : Body ℝ) = b3
  have hacc : b.accumulateMass =
      b3.setPosition ({ b with m := 0, i := 0, cog := ⟨0, 0⟩ } : Body ℝ).position := by
    rw [← hb3]; simp only [accumulateMass, hd, ne_eq, not_true, if_false]; rfl
  have sp : ∀ q, (b3.setPosition q).m = b3.m ∧ (b3.setPosition q).i = b3.i ∧
      (b3.setPosition q).cog = b3.cog ∧ (b3.setPosition q).m_inv = b3.m_inv ∧
      (b3.setPosition q).i_inv = b3.i_inv ∧ (b3.setPosition q).shapes = b3.shapes := by
    intro q
    obtain ⟨-, -, -, hc, hm, hi, hmi, hii, hs, -⟩ := b3.activate_fields
    simp only [setPosition, setTransform, hc, hm, hi, hmi, hii, hs, and_self]
  rw [hacc]
  obtain ⟨a1, a2, a3, a4, a5, a6⟩ := sp ({ b with m := 0, i := 0, cog := ⟨0, 0⟩ } : Body ℝ).position
  rw [a1, a2, a3, a4, a5, a6, ← hb3]
  exact ⟨rfl, rfl, rfl, rfl, rfl, h3⟩

/-- C14: `AccumulateMassFromShapes` of a dynamic body gives the total mass of the shapes with
positive mass, the mass-weighted mean of their centres (when there is any), and the total moment
about the combined centre of gravity; the inverses are consistent. -/
theorem C14_accumulate (b : Body ℝ) (hd : b.type = .dynamic) :
    let b' := b.accumulateMass
    b'.m = totalMass b.shapes ∧
    (0 < totalMass b.shapes →
      b'.cog = ⟨massX b.shapes / totalMass b.shapes, massY b.shapes / totalMass b.shapes⟩) ∧
    b'.i = momentAbout b'.cog b.shapes ∧ b'.m_inv = 1 / b'.m ∧ b'.i_inv = 1 / b'.i := by
  intro b'
  obtain ⟨f1, f2, f3, f4, f5, -⟩ := accumulateMass_fields b hd
  obtain ⟨g1, g2, g3, g4⟩ := accum_spec b.shapes { b with m := 0, i := 0, cog := ⟨0, 0⟩ } rfl rfl rfl
  refine ⟨f1.trans g1, ?_, ?_, by rw [f4, ← f1], by rw [f5, ← f2]⟩
  · intro hp
    rw [show b'.cog = _ from f3]
    have hne := hp.ne'
    ext
    · simp only []; rw [← g2, g1]; field_simp
    · simp only []; rw [← g3, g1]; field_simp
  · show b.accumulateMass.i = momentAbout b.accumulateMass.cog b.shapes
    rw [f2, g4, f3]

theorem heavy_perm {l l' : List (BShape ℝ)} (h : l.Perm l') : (heavy l).Perm (heavy l') := h.filter _

/-- C14: the result does not depend on the order of the shapes. -/
theorem C14_order (b c : Body ℝ) (hb : b.type = .dynamic) (hc : c.type = .dynamic)
    (h : b.shapes.Perm c.shapes) :
    b.accumulateMass.m = c.accumulateMass.m ∧ b.accumulateMass.cog = c.accumulateMass.cog ∧
    b.accumulateMass.i = c.accumulateMass.i := by
  obtain ⟨b1, b2, b3, -⟩ := C14_accumulate b hb
  obtain ⟨c1, c2, c3, -⟩ := C14_accumulate c hc
  have hp := heavy_perm h
  have e1 : totalMass b.shapes = totalMass c.shapes := (hp.map _).sum_eq
  have e2 : massX b.shapes = massX c.shapes := (hp.map _).sum_eq
  have e3 : massY b.shapes = massY c.shapes := (hp.map _).sum_eq
  have e4 : ∀ p, momentAbout p b.shapes = momentAbout p c.shapes := fun p => (hp.map _).sum_eq
  have hcog : b.accumulateMass.cog = c.accumulateMass.cog := by
    rcases (totalMass_nonneg b.shapes).eq_or_lt with h0 | h0
    · -- no heavy shape: both centres stay at the origin
      have key : ∀ x : Body ℝ, x.type = .dynamic → totalMass x.shapes = 0 →
          x.accumulateMass.cog = ⟨0, 0⟩ := by
        intro x hx h0
        obtain ⟨-, -, f3, -⟩ := accumulateMass_fields x hx
        rw [f3]
        have hl : ∀ l : List (BShape ℝ), ∀ y : Body ℝ, (∀ s ∈ l, ¬ 0 < s.info.m) →
            (l.foldl accumStep y).cog = y.cog := by
          intro l
          induction l with
          | nil => intros; rfl
          | cons s l ih =>
            intro y hy
            rw [List.foldl_cons, ih _ (fun s' hs' => hy s' (List.mem_cons_of_mem _ hs'))]
            simp only [accumStep, hy s List.mem_cons_self, if_false]
        rw [hl]
        intro s hs hpos
        have hmem : s ∈ heavy x.shapes := List.mem_filter.mpr ⟨hs, by simpa using hpos⟩
        have : s.info.m ≤ totalMass x.shapes := by
          apply List.single_le_sum
          · intro z hz
            obtain ⟨t, ht, rfl⟩ := List.mem_map.mp hz
            exact le_of_lt (by simpa using (List.mem_filter.mp ht).2)
          · exact List.mem_map_of_mem hmem
        linarith
      rw [key b hb h0.symm, key c hc (e1 ▸ h0.symm)]
    · rw [b2 h0, c2 (e1 ▸ h0), e1, e2, e3]
  refine ⟨by rw [b1, c1, e1], hcog, ?_⟩
  rw [b3, c3, e4, hcog]

theorem swapRemove_perm (l : List (BShape ℝ)) (s : BShape ℝ) (hs : s ∈ l)
    (hu : ∀ t ∈ l, t.id = s.id → t = s) : (swapRemove l s.id ++ [s]).Perm l := by
  unfold swapRemove
  have hex : ∃ x ∈ l, (x.id == s.id) = true := ⟨s, hs, by simp⟩
  obtain ⟨k, hk⟩ : ∃ k, l.findIdx? (fun t => t.id == s.id) = some k := by
    cases h : l.findIdx? (fun t => t.id == s.id) with
    | none => rw [List.findIdx?_eq_none_iff] at h; obtain ⟨x, hx, hx'⟩ := hex; simp [h x hx] at hx'
    | some k => exact ⟨k, rfl⟩
  have hne : l ≠ [] := List.ne_nil_of_mem hs
  rw [hk, List.getLast?_eq_some_getLast hne]
  simp only []
  obtain ⟨hlt, hp, -⟩ := List.findIdx?_eq_some_iff_getElem.mp hk
  have hks : l[k] = s := hu _ (List.getElem_mem _) (by simpa using hp)
  -- split off the last element
  obtain ⟨init, last, rfl⟩ : ∃ init last, l = init ++ [last] :=
    ⟨l.dropLast, l.getLast hne, (List.dropLast_append_getLast hne).symm⟩
  simp only [List.getLast_append_singleton]
  rcases Nat.lt_or_ge k init.length with hk' | hk'
  · rw [List.set_append_left _ _ hk', List.dropLast_concat]
    have hks' : init[k] = s := by rw [← hks, List.getElem_append_left hk']
    have hsplit : init = init.take k ++ s :: init.drop (k + 1) := by
      rw [← hks', List.getElem_cons_drop, List.take_append_drop]
    have hset : init.set k last = init.take k ++ last :: init.drop (k + 1) := by
      rw [List.set_eq_take_append_cons_drop, if_pos hk']
    rw [hset]
    conv_rhs => rw [hsplit]
    rw [List.append_assoc, List.append_assoc]
    refine List.Perm.append_left _ ?_
    simp only [List.cons_append]
    refine (List.perm_cons_append_cons (l := last :: init.drop (k+1)) (l₁ := last :: init.drop (k+1)) (l₂ := []) s (by simp)).symm.trans ?_
    refine List.Perm.cons _ ?_
    exact (List.perm_append_singleton _ _).symm
  · have hk2 : k = init.length := by simp at hlt; omega
    subst hk2
    have : last = s := by rw [← hks]; simp
    subst this
    simp

/-- C14: removing a shape with mass from a dynamic body and adding it again gives back the
accumulated mass, centre of gravity and moment. -/
theorem C14_remove_add (b : Body ℝ) (s : BShape ℝ) (hd : b.type = .dynamic)
    (hd' : (b.removeShape s).type = .dynamic) (hs : s ∈ b.shapes)
    (hu : ∀ t ∈ b.shapes, t.id = s.id → t = s) (hm : 0 < s.info.m) :
    let b' := (b.removeShape s).addShape s
    b'.m = b.accumulateMass.m ∧ b'.cog = b.accumulateMass.cog ∧ b'.i = b.accumulateMass.i ∧
    b'.shapes.Perm b.shapes := by
  intro b'
  have hp := swapRemove_perm b.shapes s hs hu
  have hrs : (b.removeShape s).shapes = swapRemove b.shapes s.id := by
    have ht : ({ b with shapes := swapRemove b.shapes s.id } : Body ℝ).type = .dynamic := hd
    simp only [removeShape, hm, and_true]
    rw [if_pos ht]
    exact (accumulateMass_fields _ ht).2.2.2.2.2
  generalize hx : ({ b.removeShape s with shapes := (b.removeShape s).shapes ++ [s] } : Body ℝ) = x
  have hxt : x.type = .dynamic := by rw [← hx]; exact hd'
  have hxs : x.shapes.Perm b.shapes := by rw [← hx]; simp only [hrs]; exact hp
  have hb' : b' = x.accumulateMass := by
    show (b.removeShape s).addShape s = _
    simp only [addShape, hm, if_true, hx]
  rw [hb']
  obtain ⟨c1, c2, c3⟩ := C14_order x b hxt hd hxs
  exact ⟨c1, c2, c3, by rw [(accumulateMass_fields x hxt).2.2.2.2.2]; exact hxs⟩

/-- Non-vacuity of C14: two shapes of masses 1 and 3 at distance 4: mass 4, centre at 3, moment
`1*(0+9) + 3*(0+1) = 12`. -/
example (b : Body ℝ) (hd : b.type = .dynamic)
    (hs : b.shapes = [⟨0, ⟨1, 0, ⟨0, 0⟩, 1⟩⟩, ⟨1, ⟨3, 0, ⟨4, 0⟩, 1⟩⟩]) :
    b.accumulateMass.m = 4 ∧ b.accumulateMass.cog = ⟨3, 0⟩ ∧ b.accumulateMass.i = 12 := by
  obtain ⟨h1, h2, h3, -⟩ := C14_accumulate b hd
  have hh : heavy b.shapes = b.shapes := by rw [hs]; simp [heavy]
  have e1 : totalMass b.shapes = 4 := by simp only [totalMass, hh]; rw [hs]; norm_num
  have e2 : massX b.shapes = 12 := by simp only [massX, hh]; rw [hs]; norm_num
  have e3 : massY b.shapes = 0 := by simp only [massY, hh]; rw [hs]; norm_num
  have e4 := h2 (by rw [e1]; norm_num)
  rw [e1, e2, e3] at e4
  have e5 : b.accumulateMass.cog = ⟨3, 0⟩ := by rw [e4]; norm_num
  refine ⟨by rw [h1, e1], e5, ?_⟩
  rw [h3, e5, momentAbout, hh, hs]
  norm_num [Vec.distanceSq, Vec.lengthSq, Vec.dot, Vec.sub]

end CP
