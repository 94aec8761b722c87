import Verif.Proofs.Rest

/-! # C54: joints at rest and light contacts push nobody

`Joint.Rests`, `Together`, `Tick.Light`: Verif/Spec/Rest.lean. -/

namespace CP
open GoFloat

theorem drift_drift (b : Body ℝ) (d e V W : Vec ℝ) : (b.drift d V).drift e W = b.drift (d.add e) W := by
  have : (b.p.add d).add e = b.p.add (d.add e) := by simp only [Vec.add]; ext <;> simp <;> ring
  simp only [Body.drift, Body.setTransform, this]

theorem light_drift {S J : Set Nat} {V d : Vec ℝ} {h h' : Bodies ℝ} {t : Tick ℝ} (e : ∀ k ∈ S, h' k = (h k).drift d V) (l : t.Light S J h) :
    t.Light S J h' := by
  refine ⟨l.dt, l.movers, l.dyn, l.joints, fun k hk => ⟨(l.contact k hk).1, fun ha => ?_⟩⟩
  refine light_congr ?_ ((l.contact k hk).2 ha)
  rw [e _ ha, e _ ((l.contact k hk).1.1 ha)]
  simp only [Body.drift, Vec.sub, Vec.add]; ext <;> simp

/-- **C54**: bodies that move together, joined by resting joints and touching each other lightly, fall like one point mass:
after any number of steps, whatever gravity, damping, time steps and iterations, each of them has the velocity of that point
mass, has gone its way and has not turned, and the joints still rest (no impulse stored). -/
theorem C54_fall (S J : Set Nat) (V : Vec ℝ) (ts : List (Tick ℝ)) (m : Motion ℝ) (T : Together S V m.bodies)
    (R : JointsRest S J m.bodies m.joints) (hk : ∀ k ∈ S, (m.bodies k).type ≠ .kinematic)
    (L : ∀ t ∈ ts, t.Light S J m.bodies ∧ ∀ k ∈ S, k ∈ t.movers ∧ k ∈ t.dyn) :
    (∀ k ∈ S, ((ts.foldl Motion.tick m).bodies k) = (m.bodies k).drift (ts.foldl fall (V, ⟨0, 0⟩)).2 (ts.foldl fall (V, ⟨0, 0⟩)).1) ∧
    JointsRest S J (ts.foldl Motion.tick m).bodies (ts.foldl Motion.tick m).joints := by
  have gen : ∀ (ts : List (Tick ℝ)) (n : Motion ℝ) (q : Vec ℝ × Vec ℝ), (∀ t ∈ ts, t.Light S J m.bodies ∧ ∀ k ∈ S, k ∈ t.movers ∧ k ∈ t.dyn) →
      Together S q.1 n.bodies → JointsRest S J n.bodies n.joints → (∀ k ∈ S, n.bodies k = (m.bodies k).drift q.2 q.1) →
      (∀ k ∈ S, ((ts.foldl Motion.tick n).bodies k) = (m.bodies k).drift (ts.foldl fall q).2 (ts.foldl fall q).1) ∧
      JointsRest S J (ts.foldl Motion.tick n).bodies (ts.foldl Motion.tick n).joints := by
    intro ts
    induction ts with
    | nil => intro n q _ _ R' e; exact ⟨e, R'⟩
    | cons t ts ih =>
      intro n q hL T' R' e
      obtain ⟨l, mem⟩ := hL t List.mem_cons_self
      have ty : ∀ k ∈ S, (n.bodies k).type ≠ .kinematic := fun k h => by rw [e k h]; exact hk k h
      obtain ⟨a1, a2, a3, -⟩ := tick_lull (V' := (fall q t).1) T' R' (light_drift e l) (fun k h => .inl (mem k h).1)
        (fun _ _ _ _ => rfl) (fun k h o => by
          rcases o with o | o
          · exact absurd (mem k h).2 o
          · exact absurd o (ty k h))
      refine ih (n.tick t) (fall q t) (fun t' h => hL t' (List.mem_cons_of_mem _ h)) a2 a3 fun k h => ?_
      rw [a1 k h, e k h, drift_drift]; rfl
  exact gen ts m (V, ⟨0, 0⟩) L T R fun k h => (drift_zero (T.placed k h) (T.v k h)).symm

/-- **C54**: bodies at rest, joined by resting joints and touching each other lightly, stay exactly as they are without
gravity (static, kinematic and sleeping bodies included: they may be in the step's lists or not; those that feel no gravity may be there
with gravity). -/
theorem C54_rest (S J : Set Nat) (ts : List (Tick ℝ)) (m : Motion ℝ) (T : Together S ⟨0, 0⟩ m.bodies)
    (R : JointsRest S J m.bodies m.joints)
    (L : ∀ t ∈ ts, t.Light S J m.bodies ∧ ∀ k ∈ S, k ∈ t.dyn → (m.bodies k).type ≠ .kinematic → t.gravity = ⟨0, 0⟩) :
    (∀ k ∈ S, (ts.foldl Motion.tick m).bodies k = m.bodies k) ∧
    JointsRest S J (ts.foldl Motion.tick m).bodies (ts.foldl Motion.tick m).joints := by
  have gen : ∀ (ts : List (Tick ℝ)) (n : Motion ℝ),
      (∀ t ∈ ts, t.Light S J m.bodies ∧ ∀ k ∈ S, k ∈ t.dyn → (m.bodies k).type ≠ .kinematic → t.gravity = ⟨0, 0⟩) →
      Together S ⟨0, 0⟩ n.bodies → JointsRest S J n.bodies n.joints → (∀ k ∈ S, n.bodies k = m.bodies k) →
      (∀ k ∈ S, ((ts.foldl Motion.tick n).bodies k) = m.bodies k) ∧
      JointsRest S J (ts.foldl Motion.tick n).bodies (ts.foldl Motion.tick n).joints := by
    intro ts
    induction ts with
    | nil => intro n _ _ R' e; exact ⟨e, R'⟩
    | cons t ts ih =>
      intro n hL T' R' e
      obtain ⟨l, gr⟩ := hL t List.mem_cons_self
      have e' : ∀ k ∈ S, n.bodies k = (m.bodies k).drift ⟨0, 0⟩ ⟨0, 0⟩ := fun k h => by
        rw [e k h, drift_zero (T.placed k h) (T.v k h)]
      obtain ⟨a1, a2, a3, -⟩ := tick_lull (V' := ⟨0, 0⟩) T' R' (light_drift e' l) (fun _ _ => .inr rfl)
        (fun k h hd ht => by
          rw [gr k h hd (by rw [← e k h]; exact ht)]; simp [Vec.mult, Vec.add])
        (fun _ _ _ => rfl)
      refine ih (n.tick t) (fun t' h => hL t' (List.mem_cons_of_mem _ h)) a2 a3 fun k h => ?_
      rw [a1 k h]
      have : (⟨0, 0⟩ : Vec ℝ).mult t.dt = ⟨0, 0⟩ := by simp [Vec.mult]
      rw [this, drift_zero (T'.placed k h) (T'.v k h), e k h]
  exact gen ts m L T R fun k h => rfl

/-- **C54**: the contacts between bodies that move together (all awake, in one step) end the step without an impulse: neither a
push nor friction. -/
theorem C54_contacts (S J : Set Nat) (V : Vec ℝ) (m : Motion ℝ) (t : Tick ℝ) (T : Together S V m.bodies) (R : JointsRest S J m.bodies m.joints)
    (L : t.Light S J m.bodies) (hk : ∀ k ∈ S, (m.bodies k).type ≠ .kinematic) (mem : ∀ k ∈ S, k ∈ t.movers ∧ k ∈ t.dyn) :
    ∀ k ∈ t.arbs, (t.contact k).a ∈ S → ∀ c ∈ ((m.solved t).arbs k).contacts, c.jnAcc = 0 ∧ c.jtAcc = 0 :=
  (tick_lull (V' := (fall (V, ⟨0, 0⟩) t).1) T R L (fun k h => .inl (mem k h).1) (fun _ _ _ _ => rfl) (fun k h o => by
    rcases o with o | o
    · exact absurd (mem k h).2 o
    · exact absurd o (hk k h))).2.2.2

/-! ### New joints -/

theorem maxFloat_nonneg : (0 : ℝ) ≤ maxFloat := maxFloat_pos.le

/-- A new joint rests where it is satisfied. -/
theorem new_rests {h : Bodies ℝ} {j : Joint ℝ} (i : j.getImpulse = 0) (c : j.con = Con.new j.con.a j.con.b) : j.Rests h ↔ j.Satisfied h :=
  ⟨fun r => r.satisfied, fun s => ⟨s, i, by rw [c]; exact maxFloat_nonneg, by rw [c]; exact maxFloat_nonneg⟩⟩

/-- **C54**: NewPinJoint takes the distance that the anchors have: it rests. -/
theorem C54_new_pin (h : Bodies ℝ) (a b : Nat) (p q : Vec ℝ) : (Joint.pin (PinJoint.new h a b p q)).Rests h := by
  rw [new_rests (by exact fabs_of_zero) rfl]
  exact (sub_length _ _).symm

theorem wf_roundtrip {b : Body ℝ} (w : b.Wf) (q : Vec ℝ) : b.localToWorld (b.worldToLocal q) = q := by
  obtain ⟨ha, hb, hc, hd⟩ := w.rot
  have e := Real.sin_sq_add_cos_sq b.a
  simp only [Body.worldToLocal, Body.localToWorld, Transform.rigidInverse, Transform.transpose, Transform.point, ha, hb, hc, hd]
  ext <;> simp only []
  · linear_combination (q.x - b.transform.tx) * e
  · linear_combination (q.y - b.transform.ty) * e

/-- **C54**: NewPivotJoint at any point of the world rests. -/
theorem C54_new_pivot (h : Bodies ℝ) (a b : Nat) (pivot : Vec ℝ)
    (wa : (h a).transform = ((h a).setTransform (h a).p (h a).a).transform)
    (wb : (h b).transform = ((h b).setTransform (h b).p (h b).a).transform) :
    (Joint.pivot (PivotJoint.new h a b pivot)).Rests h := by
  rw [new_rests (by simp [Joint.getImpulse, PivotJoint.getImpulse, PivotJoint.new, PivotJoint.new2, Vec.length, Vec.dot]) rfl]
  show (h a).localToWorld ((h a).worldToLocal pivot) = (h b).localToWorld ((h b).worldToLocal pivot)
  rw [wf_roundtrip wa, wf_roundtrip wb]

/-- **C54**: NewPivotJoint2 rests exactly if its two anchors are at the same point of the world. -/
theorem C54_new_pivot2 (h : Bodies ℝ) (a b : Nat) (p q : Vec ℝ) :
    (Joint.pivot (PivotJoint.new2 a b p q)).Rests h ↔ (h a).localToWorld p = (h b).localToWorld q := by
  rw [new_rests (by simp [Joint.getImpulse, PivotJoint.getImpulse, PivotJoint.new2, Vec.length, Vec.dot]) rfl]
  rfl

/-- **C54**: NewSlideJoint rests exactly if the distance of its anchors is within the limits. -/
theorem C54_new_slide (h : Bodies ℝ) (a b : Nat) (p q : Vec ℝ) (mn mx : ℝ) :
    (Joint.slide (SlideJoint.new a b p q mn mx)).Rests h ↔
      mn ≤ ((h a).localToWorld p).distance ((h b).localToWorld q) ∧ ((h a).localToWorld p).distance ((h b).localToWorld q) ≤ mx := by
  rw [new_rests (by exact fabs_of_zero) rfl]; rfl

/-- **C54**: a new groove joint rests if its anchor is at an end of the groove. (Elsewhere on the groove it is off by the
constant 1e-15 of Normalize: C54_groove_off.) -/
theorem C54_new_groove (h : Bodies ℝ) (a b : Nat) (gA gB q : Vec ℝ)
    (hq : (h b).localToWorld q = (h a).localToWorld gA ∨ (h b).localToWorld q = (h a).localToWorld gB) :
    (Joint.groove (GrooveJoint.new a b gA gB q)).Rests h := by
  rw [new_rests (by simp [Joint.getImpulse, GrooveJoint.getImpulse, GrooveJoint.new, Vec.length, Vec.dot]) rfl]
  refine ⟨?_, ?_, ?_⟩
  · simp only [GrooveJoint.new, Vec.normalize, Vec.perp, Vec.mult, Vec.dot]; ring
  · by_cases hg : gA = gB
    · exact .inl hg
    · right
      show 0 < (gB.sub gA).cross (gB.sub gA).normalize.perp
      have hl : 0 < (gB.sub gA).x * (gB.sub gA).x + (gB.sub gA).y * (gB.sub gA).y := by
        rcases (by nlinarith [mul_self_nonneg (gB.sub gA).x, mul_self_nonneg (gB.sub gA).y] :
          (0:ℝ) ≤ (gB.sub gA).x * (gB.sub gA).x + (gB.sub gA).y * (gB.sub gA).y).lt_or_eq with h0 | h0
        · exact h0
        · exfalso; apply hg
          have hx : (gB.sub gA).x = 0 := mul_self_eq_zero.1 (by nlinarith [mul_self_nonneg (gB.sub gA).x, mul_self_nonneg (gB.sub gA).y])
          have hy : (gB.sub gA).y = 0 := mul_self_eq_zero.1 (by nlinarith [mul_self_nonneg (gB.sub gA).x, mul_self_nonneg (gB.sub gA).y])
          simp only [Vec.sub] at hx hy
          ext <;> linarith
      generalize gB.sub gA = u at hl ⊢
      have hn : (0:ℝ) < 1 / (u.length + lit (1 / 10 ^ 15)) := by
        have : (0 : ℝ) ≤ u.length := Real.sqrt_nonneg _
        have h2 : (0 : ℝ) < lit (1 / 10 ^ 15) := by show (0 : ℝ) < _; norm_num [GoFloat.lit]
        positivity
      simp only [Vec.normalize, Vec.perp, Vec.mult, Vec.cross]
      nlinarith
  · rcases hq with hq | hq
    · exact .inl hq
    · exact .inr (.inl hq)

/-- **C54**: a new damped spring rests exactly if it has its rest length or no stiffness. -/
theorem C54_new_spring (h : Bodies ℝ) (a b : Nat) (p q : Vec ℝ) (len k d : ℝ) :
    (Joint.spring (DampedSpring.new a b p q len k d)).Rests h ↔
      ((h a).localToWorld p).distance ((h b).localToWorld q) = len ∨ k = 0 := by
  rw [new_rests rfl rfl]
  show (len - _) * k = 0 ↔ _
  rw [mul_eq_zero, sub_eq_zero, eq_comm]; rfl

/-- **C54**: a new rotary spring rests exactly if it has its rest angle or no stiffness. -/
theorem C54_new_rotary_spring (h : Bodies ℝ) (a b : Nat) (rest k d : ℝ) :
    (Joint.rotarySpring (DampedRotarySpring.new a b rest k d)).Rests h ↔ (h a).a - (h b).a = rest ∨ k = 0 := by
  rw [new_rests rfl rfl]
  show (_ - rest) * k = 0 ↔ _
  rw [mul_eq_zero, sub_eq_zero]; rfl

/-- **C54**: a new gear joint rests exactly if the angles are in the ratio, up to the phase. -/
theorem C54_new_gear (h : Bodies ℝ) (a b : Nat) (phase ratio : ℝ) :
    (Joint.gear (GearJoint.new a b phase ratio)).Rests h ↔ (h b).a * ratio = (h a).a + phase := by
  rw [new_rests (by exact fabs_of_zero) rfl]; rfl

/-- **C54**: a new ratchet rests. -/
theorem C54_new_ratchet (h : Bodies ℝ) (a b : Nat) (phase ratchet : ℝ) (hr : ratchet ≠ 0) :
    (Joint.ratchet (RatchetJoint.new h a b phase ratchet)).Rests h := by
  rw [new_rests (by exact fabs_of_zero) rfl]
  show if 0 < ratchet then (h b).a - (h a).a ≤ (h b).a - (h a).a else _
  split
  · exact le_rfl
  · exact ⟨lt_of_le_of_ne (not_lt.1 ‹_›) hr, le_rfl⟩

/-- **C54**: a new rotary limit rests exactly if the angle is within the limits. -/
theorem C54_new_limit (h : Bodies ℝ) (a b : Nat) (mn mx : ℝ) :
    (Joint.rotaryLimit (RotaryLimitJoint.new a b mn mx)).Rests h ↔ mn ≤ (h b).a - (h a).a ∧ (h b).a - (h a).a ≤ mx := by
  rw [new_rests (by exact fabs_of_zero) rfl]; rfl

/-- **C54**: a new motor rests exactly if it is off. -/
theorem C54_new_motor (h : Bodies ℝ) (a b : Nat) (rate : ℝ) : (Joint.motor (SimpleMotor.new a b rate)).Rests h ↔ rate = 0 := by
  rw [new_rests (by exact fabs_of_zero) rfl]; rfl

/-- **C54**, the exception: where the anchor is on the groove between its ends, PreStep measures it against a point that is
off the anchor by the factor `grooveN . grooveN`, which for NewGrooveJoint is less than 1 by about 2e-15 divided by the length
of the groove (Normalize adds 1e-15 to the length): the joint pulls the body that much towards the origin of the world. -/
theorem C54_groove_off (h : Bodies ℝ) (a b : Nat) (gA gB q : Vec ℝ) (t dt : ℝ) (hg : gA ≠ gB) (h0 : 0 < t) (h1 : t < 1)
    (wa : (h a).transform = ((h a).setTransform (h a).p (h a).a).transform)
    (wb : (h b).transform = ((h b).setTransform (h b).p (h b).a).transform)
    (hq : (h b).localToWorld q = ((h a).localToWorld gA).lerp ((h a).localToWorld gB) t) :
    (h a).p.add (((GrooveJoint.new a b gA gB q).preStep h dt).2.r1) =
      ((h b).localToWorld q).mult ((GrooveJoint.new a b gA gB q).grooveN.dot (GrooveJoint.new a b gA gB q).grooveN) ∧
    (GrooveJoint.new a b gA gB q).grooveN.dot (GrooveJoint.new a b gA gB q).grooveN =
      ((gB.distance gA) / (gB.distance gA + 1 / 10 ^ 15)) ^ 2 ∧
    (GrooveJoint.new a b gA gB q).grooveN.dot (GrooveJoint.new a b gA gB q).grooveN < 1 := by
  have hl : 0 < (gB.sub gA).x * (gB.sub gA).x + (gB.sub gA).y * (gB.sub gA).y := by
    rcases (by nlinarith [mul_self_nonneg (gB.sub gA).x, mul_self_nonneg (gB.sub gA).y] :
      (0:ℝ) ≤ (gB.sub gA).x * (gB.sub gA).x + (gB.sub gA).y * (gB.sub gA).y).lt_or_eq with h0 | h0
    · exact h0
    · exfalso; apply hg
      have hx : (gB.sub gA).x = 0 := mul_self_eq_zero.1 (by nlinarith [mul_self_nonneg (gB.sub gA).x, mul_self_nonneg (gB.sub gA).y])
      have hy : (gB.sub gA).y = 0 := mul_self_eq_zero.1 (by nlinarith [mul_self_nonneg (gB.sub gA).x, mul_self_nonneg (gB.sub gA).y])
      simp only [Vec.sub] at hx hy
      ext <;> linarith
  obtain ⟨ε, hε⟩ : ∃ ε : ℝ, ε = lit (1 / 10 ^ 15) := ⟨_, rfl⟩
  have hε' : ε = 1 / 10 ^ 15 := by rw [hε]; show ((_ : ℚ) : ℝ) = _; push_cast; rfl
  have ep : 0 < ε := by rw [hε']; positivity
  obtain ⟨c, hc⟩ : ∃ c : ℝ, c = 1 / ((gB.sub gA).length + ε) := ⟨_, rfl⟩
  have hlen : 0 < (gB.sub gA).length := Real.sqrt_pos.2 hl
  have hlen2 : (gB.sub gA).x * (gB.sub gA).x + (gB.sub gA).y * (gB.sub gA).y = (gB.sub gA).length ^ 2 := (Real.sq_sqrt hl.le).symm
  have cp : 0 < c := by rw [hc]; positivity
  have nd : (GrooveJoint.new a b gA gB q).grooveN.dot (GrooveJoint.new a b gA gB q).grooveN = c ^ 2 * (gB.sub gA).length ^ 2 := by
    simp only [GrooveJoint.new, Vec.normalize, ← hε, ← hc, Vec.perp, Vec.mult, Vec.dot]
    rw [← hlen2]; ring
  have nd2 : (GrooveJoint.new a b gA gB q).grooveN.dot (GrooveJoint.new a b gA gB q).grooveN =
      ((gB.sub gA).length / ((gB.sub gA).length + ε)) ^ 2 := by
    rw [nd, hc]; field_simp
  have dm : gB.distance gA = (gB.sub gA).length := rfl
  refine ⟨?_, by rw [nd2, dm, hε'], ?_⟩
  · obtain ⟨n, hn⟩ : ∃ n, n = (h a).transform.vect (GrooveJoint.new a b gA gB q).grooveN := ⟨_, rfl⟩
    have wa' : (h a).Wf := wa
    have nn : n.dot n = (GrooveJoint.new a b gA gB q).grooveN.dot (GrooveJoint.new a b gA gB q).grooveN := by rw [hn, wf_dot wa']
    obtain ⟨ta, hta⟩ : ∃ ta, ta = (h a).localToWorld gA := ⟨_, rfl⟩
    obtain ⟨tb, htb⟩ : ∃ tb, tb = (h a).localToWorld gB := ⟨_, rfl⟩
    have d1 : (tb.sub ta).dot n = 0 := by
      rw [hta, htb, hn, Body.localToWorld, Body.localToWorld, point_sub, wf_dot wa']
      simp only [GrooveJoint.new, Vec.normalize, Vec.perp, Vec.mult, Vec.dot]; ring
    have d2 : 0 < (tb.sub ta).cross n := by
      rw [hta, htb, hn, Body.localToWorld, Body.localToWorld, point_sub, wf_cross wa']
      simp only [GrooveJoint.new, Vec.normalize, ← hε, ← hc, Vec.perp, Vec.mult, Vec.cross]
      nlinarith
    have cr : (tb.sub ta).cross n = tb.cross n - ta.cross n := by simp only [Vec.cross, Vec.sub]; ring
    have cl : (ta.lerp tb t).cross n = ta.cross n + t * (tb.cross n - ta.cross n) := by
      simp only [Vec.cross, Vec.lerp, Vec.mult, Vec.add]; ring
    rw [cr] at d2
    have eq : (h b).localToWorld q = (h b).p.add (anchorOffset (h b) q) := grip_eq (h := h) (k := b) wb q
    rw [← hta, ← htb] at hq
    have hq' : (h b).p.add (anchorOffset (h b) q) = ta.lerp tb t := by rw [← eq]; exact hq
    have hr : ((GrooveJoint.new a b gA gB q).preStep h dt).2.r1 = ((n.perp.mult (-(ta.lerp tb t).cross n)).add (n.mult (ta.dot n))).sub (h a).p := by
      have c1 : ¬ (ta.lerp tb t).cross n ≤ ta.cross n := by rw [cl]; nlinarith
      have c2 : ¬ tb.cross n ≤ (ta.lerp tb t).cross n := by rw [cl]; nlinarith
      have q1 : ((h (GrooveJoint.new a b gA gB q).b).p.add (anchorOffset (h (GrooveJoint.new a b gA gB q).b) (GrooveJoint.new a b gA gB q).anchorB)) =
        ta.lerp tb t := hq'
      have q2 : (h a).transform.point (GrooveJoint.new a b gA gB q).grooveA = ta := hta.symm
      have q3 : (h a).transform.point (GrooveJoint.new a b gA gB q).grooveB = tb := htb.symm
      have q4 : (h a).transform.vect (GrooveJoint.new a b gA gB q).grooveN = n := hn.symm
      have q5 : h (GrooveJoint.new a b gA gB q).a = h a := rfl
      simp only [GrooveJoint.preStep]
      simp only [q5, q1, q2, q3, q4, if_neg c1, if_neg c2]
    rw [hr, ← nn, hq]
    simp only [Vec.dot, Vec.sub] at d1
    simp only [Vec.lerp, Vec.mult, Vec.add, Vec.perp, Vec.cross, Vec.dot, Vec.sub]
    ext
    · linear_combination -(n.x * t) * d1
    · linear_combination -(n.y * t) * d1
  · rw [nd2, sq_lt_one_iff₀ (by positivity), div_lt_one (by positivity)]
    linarith

/-! ### Non-vacuity -/

section examples

/-- Two bodies of mass 1 side by side. -/
noncomputable def pairBodies : Bodies ℝ := fun k => (Body.new 1 1).drift ⟨k, 0⟩ ⟨3, 0⟩

/-- A pin, a pivot, a spring of rest length 1 and a motor that is off. -/
noncomputable def pairJoints : Nat → Joint ℝ
  | 0 => .pin (PinJoint.new pairBodies 1 2 ⟨0, 0⟩ ⟨0, 5⟩)
  | 1 => .pivot (PivotJoint.new pairBodies 1 2 ⟨7, 8⟩)
  | 2 => .spring (DampedSpring.new 1 2 ⟨0, 0⟩ ⟨0, 0⟩ 1 20 3)
  | _ => .motor (SimpleMotor.new 1 2 0)

/-- The fields of a freshly made body. -/
theorem Body.new_fields : ∃ tr, (Body.new 1 1 : Body ℝ) =
    { m := 1, m_inv := 1, i := 1, i_inv := 1, cog := ⟨0, 0⟩, p := ⟨0, 0⟩, v := ⟨0, 0⟩, f := ⟨0, 0⟩,
      a := 0, w := 0, t := 0, transform := tr, v_bias := ⟨0, 0⟩, w_bias := 0, shapes := [], idle := 0 } := by
  have act : ∀ b : Body ℝ, b.idle = 0 → b.activate = b := by
    intro b h
    unfold Body.activate
    split
    · rw [← h]
    · rfl
  refine ⟨(Body.new 1 1 : Body ℝ).transform, ?_⟩
  simp only [Body.new, Body.setMass]
  rw [act _ rfl]
  simp only [Body.setMoment]
  rw [act _ rfl]
  simp only [Body.setAngle]
  rw [act _ rfl]
  simp [Body.setTransform, zeroV]

theorem pairBodies_grip (k : Nat) (q : Vec ℝ) : (pairBodies k).localToWorld q = q.add ⟨k, 0⟩ := by
  have w : ((Body.new 1 1 : Body ℝ)).Wf := Body.setAngle_wf _ _
  rw [pairBodies, drift_grip w, w.localToWorld]
  obtain ⟨tr, h⟩ := Body.new_fields
  simp [Body.place, h]

/-- A step in which the two bodies touch, with friction, a conveyor belt surface and a penetration within the slop. -/
noncomputable def pairTick : Tick ℝ where
  dt := 1
  gravity := ⟨0, -10⟩
  damping := 1
  iterations := 10
  slop := 1 / 10
  collisionBias := 0
  movers := [1, 2]
  dyn := [2, 1]
  arbs := [5]
  contact := fun _ =>
    { e := 1, u := 1, surface_vr := ⟨0, 4⟩, a := 1, b := 2, n := ⟨1, 0⟩, first := false,
      contacts := [{ r1 := ⟨1 / 2, 1⟩, r2 := ⟨-11 / 20, 1⟩, nMass := 0, tMass := 0, bounce := 0, jnAcc := 0, jtAcc := 0, jBias := 0, bias := 0, hash := 0 }] }
  joints := [0, 1, 2, 3]

/-- The hypotheses of `C54_fall` (and `C54_contacts`) are met: after two steps the bodies have fallen 10 and moved 6 to the right, as one. -/
example : ∀ k ∈ ({1, 2} : Set Nat), (([pairTick, pairTick].foldl Motion.tick ⟨pairBodies, pairJoints, 1⟩).bodies k) =
    (pairBodies k).drift ⟨6, -10⟩ ⟨3, -20⟩ := by
  have bn : (Body.new 1 1 : Body ℝ).w = 0 ∧ (Body.new 1 1 : Body ℝ).v_bias = ⟨0, 0⟩ ∧ (Body.new 1 1 : Body ℝ).w_bias = 0 ∧
      (Body.new 1 1 : Body ℝ).f = ⟨0, 0⟩ ∧ (Body.new 1 1 : Body ℝ).t = 0 ∧ (Body.new 1 1 : Body ℝ).p = ⟨0, 0⟩ ∧ (Body.new 1 1 : Body ℝ).m = 1 ∧
      (Body.new 1 1 : Body ℝ).idle = 0 := by
    obtain ⟨tr, h⟩ := Body.new_fields
    rw [h]; exact ⟨rfl, rfl, rfl, rfl, rfl, rfl, rfl, rfl⟩
  have T : Together {1, 2} ⟨3, 0⟩ pairBodies :=
    ⟨fun _ _ => rfl, fun _ _ => bn.1, fun _ _ => bn.2.1, fun _ _ => bn.2.2.1, fun _ _ => bn.2.2.2.1, fun _ _ => bn.2.2.2.2.1, fun _ _ => rfl⟩
  have rests : ∀ k, (pairJoints k).Rests pairBodies ∧ (pairJoints k).con.a = 1 ∧ (pairJoints k).con.b = 2 := by
    rintro (_ | _ | _ | k)
    · exact ⟨C54_new_pin _ _ _ _ _, rfl, rfl⟩
    · exact ⟨C54_new_pivot _ _ _ _ rfl rfl, rfl, rfl⟩
    · refine ⟨(C54_new_spring _ _ _ _ _ _ _ _).2 (.inl ?_), rfl, rfl⟩
      rw [pairBodies_grip, pairBodies_grip]
      simp only [Vec.distance, Vec.length, sqrt_real, Vec.dot, Vec.sub, Vec.add]
      norm_num
    · exact ⟨(C54_new_motor _ _ _ _).2 rfl, rfl, rfl⟩
  have R : JointsRest {1, 2} Set.univ pairBodies pairJoints := fun k _ => by
    refine ⟨?_, fun _ => (rests k).1⟩
    rw [(rests k).2.1, (rests k).2.2]; simp
  have L : pairTick.Light {1, 2} Set.univ pairBodies := by
    refine ⟨one_pos, by simp [pairTick], by simp [pairTick], fun _ _ => trivial, fun k _ => ⟨by simp [pairTick], fun _ => ?_⟩⟩
    refine ⟨by simp [pairTick, Vec.dot], fun c hc => ?_⟩
    simp only [pairTick, List.mem_singleton] at hc
    subst hc
    refine ⟨rfl, rfl, ?_⟩
    simp only [pairTick, pairBodies, Body.drift, bn.2.2.2.2.2.1, Vec.dot, Vec.sub, Vec.add]
    norm_num
  have hk : ∀ k ∈ ({1, 2} : Set Nat), (pairBodies k).type ≠ .kinematic := by
    intro k _
    have h1 : (pairBodies k).m = 1 := bn.2.2.2.2.2.2.1
    have h2 : (pairBodies k).idle = 0 := bn.2.2.2.2.2.2.2
    simp only [Body.type, h1, h2]
    rw [if_neg (maxFloat_pos.ne), if_neg (one_lt_maxFloat.ne)]; simp
  intro k hkS
  have := (C54_fall {1, 2} Set.univ ⟨3, 0⟩ [pairTick, pairTick] ⟨pairBodies, pairJoints, 1⟩ T R hk (by
    intro t ht
    have : t = pairTick := by simpa using ht
    subst this
    refine ⟨L, fun k hk => ?_⟩
    rcases hk with rfl | rfl <;> simp [pairTick])).1 k hkS
  rw [this]
  have e1 : (List.foldl fall ((⟨3, 0⟩ : Vec ℝ), ⟨0, 0⟩) [pairTick, pairTick]) = (⟨3, -20⟩, ⟨6, -10⟩) := by
    simp only [List.foldl, fall, pairTick, Vec.mult, Vec.add]
    norm_num
  rw [e1]

end examples

end CP
