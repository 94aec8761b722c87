import Verif.Props.Sim
import Verif.Props.Events

/-! # C64: an example

Two bodies, 1 and 2, at distance `d`, each with a circle of radius 1; body 1 flies with speed `v` towards body 2. -/

namespace CP
open Sim GoFloat

theorem sim_op {hash : Obj → Nat} {s : Sim ℝ} (hr : s.Reach hash) (o : Sp.Op ℝ) (hs : ∀ i, o ≠ .step i) (ok : o.Allowed s.sc.sp)
    (room : s.sc.size + 1 < 1610612740) :
    ∃ s', Sim.Reach hash s' ∧ s.call hash (.op o fun _ => false) = some s' ∧ s'.sc.sp = s.sc.sp.after o ∧ s'.mo = s.mo ∧ s'.sc.shapes = (s.before o).shapes ∧
      s'.sc.size ≤ s.sc.size + 1 ∧ Sp.Effect o s.sc.sp s'.sc.sp ∧ (s'.surf = s.surf ∧ s'.arbs = s.arbs) ∧ (o.loud = false → s'.sc.sp.trace = s.sc.sp.trace) := by
  obtain ⟨s', e, r⟩ := C64_no_panic hr (.op o fun _ => false) ⟨ok, hs⟩ room
  refine ⟨s', r, e, ?_⟩
  have k := hr.ok
  obtain ⟨sc', e1, rfl⟩ := Option.map_eq_some_iff.1 e
  obtain ⟨t, w, e2, rfl⟩ := run_op e1
  rw [before_sp] at e2
  have e3 := (C44_no_panic k.eng.good.1 o ok).1
  have et : t = s.sc.sp.after o := Option.some.inj (e2.symm.trans e3)
  refine ⟨et, rfl, rfl, ?_, ?_, ⟨rfl, rfl⟩, fun hq => ?_⟩
  · show Scene.size { s.before o with sp := t, index := w } ≤ _
    rw [et]
    exact size_after k.eng.good.1 o ok
  · show Sp.Effect o s.sc.sp t
    rw [et]
    exact C44_effect k.eng.good.1 o ok
  · show t.trace = _
    rw [et]
    exact (C23_quiet k.eng.good.1 o ok hq).1

/-- A body of mass 1 at `x` with velocity `v`. -/
noncomputable def chaseBody (x v : ℝ) : Body ℝ :=
  { m := 1, m_inv := 1, i := 1, i_inv := 1, cog := ⟨0, 0⟩, p := ⟨x, 0⟩, v := ⟨v, 0⟩, f := ⟨0, 0⟩, a := 0, w := 0, t := 0,
    transform := ⟨1, 0, 0, 1, x, 0⟩, v_bias := ⟨0, 0⟩, w_bias := 0, shapes := [], idle := 0 }

/-- Some joint; it is not added to the space. -/
noncomputable def chaseJoint : Joint ℝ :=
  .motor { a := 3, b := 0, maxForce := 1, errorBias := 1, maxBias := 1, rate := 0, iSum := 0, jAcc := 0 }

/-- The bodies. -/
noncomputable def chaseMotion (d v : ℝ) : Motion ℝ :=
  ⟨fun b => if b = 1 then chaseBody 0 v else chaseBody d 0, fun _ => chaseJoint, 0⟩

/-- The circles, not yet put in their places. -/
noncomputable def chaseShape : QShape ℝ :=
  ⟨⟨.circle { c := ⟨0, 0⟩, tc := ⟨0, 0⟩, r := 1 }, ⟨0, 0, 0, 0⟩, ⟨1, 0⟩, 0#64⟩, ShapeFilter.all, false⟩

/-- A step of length 1 without gravity. -/
noncomputable def chaseIn : SimIn ℝ :=
  { dt := 1, gravity := ⟨0, 0⟩, damping := 1, iterations := 10, slop := 0, collisionBias := 0, idleSpeed := 0,
    answer := fun a b => { a := a, b := b, count := 0 } }

/-- The space with both bodies and both shapes. -/
theorem chaseWith (d v : ℝ) (m : Surface ℝ) : ∃ s : Sim ℝ, s.Reach id ∧ (∀ o, o = 1 ∨ o = 2 → (s.sc.sp.shapes o).inSpace = true ∧ (s.sc.sp.shapes o).body = o ∧
      s.InPlace o ∧ s.engine.awake o ∧ s.sc.sp.typ o = .dynamic) ∧ (∀ o, (s.sc.sp.shapes o).inSpace = true → o = 1 ∨ o = 2) ∧
    s.mo = chaseMotion d v ∧ (∀ o, ∃ tc, (s.sc.shapes o).shp.cls = .circle { c := ⟨0, 0⟩, tc := tc, r := 1 }) ∧ (∀ o, (s.sc.shapes o).filter = ShapeFilter.all) ∧
    (∀ c, (s.sc.sp.cons c).inSpace = false) ∧ s.sc.size + 1 < 1610612740 ∧
    s.surf = (fun _ => m) ∧ s.arbs = (fun _ => Arb.blank) ∧ s.sc.sp.trace = [] ∧ ∀ o, (s.sc.sp.shapes o).sensor = false := by
  have hw : ∃ w, World.init (fun o => (chaseShape.shp.bb : BB ℝ)) (fun o => ((chaseMotion d v).bodies o).v) = some w := by
    have : (HashSet.new : Option (HashSet Obj)).isSome = true := by decide +kernel
    obtain ⟨t, ht⟩ := Option.isSome_iff_exists.1 this
    simp only [World.init, ht]
    exact ⟨_, rfl⟩
  obtain ⟨w, hw⟩ := hw
  have r0 := Sim.Reach.new (hash := id) 3 1 (fun _ => .dynamic) (fun o => (o, false)) (fun _ => (3, 0)) (chaseMotion d v)
    (fun _ => chaseShape) (fun _ => m) (fun _ => true) (fun _ => Arb.blank) w (fun _ => ⟨rfl, rfl⟩) (fun _ => trivial)
    (fun x => by simp only [chaseMotion]; split <;> rfl) hw
  obtain ⟨s0, r0, z0, m0, g0, hsp, su0, ar0⟩ : ∃ s0 : Sim ℝ, s0.Reach id ∧ s0.sc.size = 0 ∧ s0.mo = chaseMotion d v ∧
      (s0.sc.shapes = fun _ => chaseShape) ∧ s0.sc.sp = Sp.newSpace 3 1 (fun _ => .dynamic) (fun o => (o, false)) (fun _ => (3, 0)) ∧
      s0.surf = (fun _ => m) ∧ s0.arbs = (fun _ => Arb.blank) :=
    ⟨_, r0, rfl, rfl, rfl, rfl, rfl, rfl⟩
  have st : ∀ (s : Sim ℝ) (o : Sp.Op ℝ), (∀ x, o ≠ .addShape x) → s.before o = s.sc := by
    intro s o ho
    cases o <;> first | rfl | exact absurd rfl (ho _)
  obtain ⟨s1, r1, -, e1, h1, g1, z1, f1, u1, l1⟩ := sim_op r0 (.addBody 1) (by simp) ⟨by rw [hsp]; rfl, by rw [hsp]; show 1 < 4; omega⟩ (by omega)
  have n1 : s1.sc.sp.nBodies = 4 := by rw [e1, hsp]; rfl
  obtain ⟨s2, r2, -, e2, h2, g2, z2, f2, u2, l2⟩ := sim_op r1 (.addBody 2) (by simp) (by
    refine ⟨by rw [f1.bodyIn, hsp]; rfl, ?_⟩
    rw [n1]; omega) (by omega)
  have k2 : ∀ b, b = 1 ∨ b = 2 → s2.sc.sp.typ b = .dynamic := by
    intro b hb
    rw [f2.types]
    show s1.sc.sp.typ b = _
    rw [f1.types, hsp]
    rcases hb with rfl | rfl <;> rfl
  have body2 : ∀ o, (s2.sc.sp.shapes o).body = o := fun o => by rw [f2.shapeBody, f1.shapeBody, hsp]; rfl
  have out2 : ∀ o, (s2.sc.sp.shapes o).inSpace = false := fun o => by
    rw [f2.shapeIn]; show (s1.sc.sp.shapes o).inSpace = false; rw [f1.shapeIn, hsp]; rfl
  have in2 : ∀ b, b = 1 ∨ b = 2 → (s2.sc.sp.bodies b).inSpace = true := by
    intro b hb
    rw [f2.bodyIn]
    rcases hb with rfl | rfl
    · show (s1.sc.sp.bodies 1).inSpace = true
      rw [f1.bodyIn]; rfl
    · rfl
  obtain ⟨s3, r3, c3, e3, h3, g3, z3, f3, u3, l3⟩ := sim_op r2 (.addShape 1) (by simp) ⟨out2 1, fun _ => by rw [body2]; exact in2 1 (.inl rfl)⟩ (by omega)
  have k3 : ∀ b, s3.sc.sp.typ b = s2.sc.sp.typ b := fun b => by rw [f3.types]; rfl
  have in3 : ∀ b, (s3.sc.sp.bodies b).inSpace = (s2.sc.sp.bodies b).inSpace := fun b => by rw [f3.bodyIn]; rfl
  have body3 : ∀ o, (s3.sc.sp.shapes o).body = o := fun o => by rw [f3.shapeBody, body2]
  have sh3 : ∀ o, (s3.sc.sp.shapes o).inSpace = true ↔ o = 1 := fun o => by
    rw [f3.shapeIn]
    by_cases h : o = 1
    · simp [Sp.Op.shapeIn, h]
    · simp [Sp.Op.shapeIn, h, out2]
  have okA : (Sim.Call.op (Sp.Op.addShape 1) fun _ => false).Allowed s2 := ⟨⟨out2 1, fun _ => by rw [body2]; exact in2 1 (.inl rfl)⟩, by simp⟩
  have p3 : s3.InPlace 1 := C64_inPlace r2 (.op (.addShape 1) fun _ => false) okA c3 1 (.inl rfl)
  have okB : (Sim.Call.op (Sp.Op.addShape 2) fun _ => false).Allowed s3 :=
    ⟨⟨by rw [← Bool.not_eq_true, sh3]; decide, fun _ => by rw [body3, in3]; exact in2 2 (.inr rfl)⟩, by simp⟩
  obtain ⟨s4, r4, c4, e4, h4, g4, z4, f4, u4, l4⟩ := sim_op r3 (.addShape 2) (by simp) okB.1 (by omega)
  have p4 : ∀ o, o = 1 ∨ o = 2 → s4.InPlace o := by
    rintro o (rfl | rfl)
    · exact C64_inPlace r3 _ okB c4 1 (.inr ⟨p3, id⟩)
    · exact C64_inPlace r3 _ okB c4 2 (.inl rfl)
  obtain ⟨s5, r5, c5, e5, h5, g5, z5, f5, u5, l5⟩ := sim_op r4 (.activate 1) (by simp) trivial (by omega)
  obtain ⟨s6, r6, c6, e6, h6, g6, z6, f6, u6, l6⟩ := sim_op r5 (.activate 2) (by simp) trivial (by omega)
  have p6 : ∀ o, o = 1 ∨ o = 2 → s6.InPlace o := fun o ho =>
    C64_inPlace r5 (.op (.activate 2) fun _ => false) ⟨trivial, by simp⟩ c6 o
      (.inr ⟨C64_inPlace r4 (.op (.activate 1) fun _ => false) ⟨trivial, by simp⟩ c5 o (.inr ⟨p4 o ho, id⟩), id⟩)
  have root6 : ∀ b, b = 1 ∨ b = 2 → (s6.sc.sp.bodies b).root = none := by
    obtain ⟨L4, w4⟩ := r4.ok.eng.good.1.world
    obtain ⟨L5, w5⟩ := r5.ok.eng.good.1.world
    have q5 := (C44_no_panic r4.ok.eng.good.1 (.activate 1) trivial).1
    have q6 := (C44_no_panic r5.ok.eng.good.1 (.activate 2) trivial).1
    have a5 := activate_awake w4 q5
    have a6 := activate_awake w5 q6
    rintro b (rfl | rfl)
    · obtain ⟨t', q, -, -, hr, -⟩ := Sp.bodyActivate_spec w5.good.inv.full 2
      rw [e6, show s5.sc.sp.after (.activate 2) = t' from Option.some.inj (q6.symm.trans q), hr]
      split
      · rfl
      · show (s5.sc.sp.bodies 1).root = none
        rw [e5]; exact a5
    · rw [e6]; exact a6
  have typ6 : ∀ b, b = 1 ∨ b = 2 → s6.sc.sp.typ b = .dynamic := fun b hb => by
    rw [f6.types]; show s5.sc.sp.typ b = _
    rw [f5.types]; show s4.sc.sp.typ b = _
    rw [f4.types]; show s3.sc.sp.typ b = _
    rw [k3, k2 b hb]
  have sh6 : ∀ o, (s6.sc.sp.shapes o).inSpace = true ↔ o = 1 ∨ o = 2 := fun o => by
    rw [f6.shapeIn]; show (s5.sc.sp.shapes o).inSpace = _ ↔ _
    rw [f5.shapeIn]; show (s4.sc.sp.shapes o).inSpace = _ ↔ _
    rw [f4.shapeIn]
    by_cases h : o = 2
    · simp [Sp.Op.shapeIn, h]
    · simp [Sp.Op.shapeIn, h, sh3]
  have cls : ∀ (s : Sim ℝ) (x : Nat), (∀ o, (∃ tc, (s.sc.shapes o).shp.cls = .circle { c := ⟨0, 0⟩, tc := tc, r := 1 }) ∧ (s.sc.shapes o).filter = ShapeFilter.all) →
      ∀ o, (∃ tc, ((s.before (.addShape x)).shapes o).shp.cls = .circle { c := ⟨0, 0⟩, tc := tc, r := 1 }) ∧
        ((s.before (.addShape x)).shapes o).filter = ShapeFilter.all := by
    intro s x h o
    rw [show (s.before (.addShape x)).shapes o = _ from fetch_shape s x o]
    split
    · obtain ⟨⟨tc, q⟩, f⟩ := h x
      refine ⟨⟨(s.mo.bodies (s.sc.sp.shapes x).body).transform.point ⟨0, 0⟩, ?_⟩, f⟩
      show (Coll.Cls.cacheData (s.sc.shapes x).shp.cls _).1 = _
      rw [q]; rfl
    · exact h o
  have c2 : ∀ o, (∃ tc, (s2.sc.shapes o).shp.cls = .circle { c := ⟨0, 0⟩, tc := tc, r := 1 }) ∧ (s2.sc.shapes o).filter = ShapeFilter.all := by
    rw [g2, st _ _ (by simp), g1, st _ _ (by simp), g0]
    exact fun _ => ⟨⟨⟨0, 0⟩, rfl⟩, rfl⟩
  have c6' : ∀ o, (∃ tc, (s6.sc.shapes o).shp.cls = .circle { c := ⟨0, 0⟩, tc := tc, r := 1 }) ∧ (s6.sc.shapes o).filter = ShapeFilter.all := by
    rw [g6, st _ _ (by simp), g5, st _ _ (by simp), g4]
    refine cls _ _ ?_
    rw [g3]
    exact cls _ _ c2
  refine ⟨s6, r6, fun o ho => ⟨(sh6 o).2 ho, ?_, p6 o ho, ?_, typ6 o ho⟩, fun o h => (sh6 o).1 h, ?_, fun o => (c6' o).1, fun o => (c6' o).2, ?_, by omega, ?_, ?_, ?_, ?_⟩
  · rw [f6.shapeBody, f5.shapeBody, f4.shapeBody, body3]
  · refine Engine.awake_iff.2 ⟨?_, ?_, root6 o ho⟩
    · show (s6.sc.sp.bodies o).inSpace = true
      rw [f6.bodyIn]; show (s5.sc.sp.bodies o).inSpace = _
      rw [f5.bodyIn]; show (s4.sc.sp.bodies o).inSpace = _
      rw [f4.bodyIn]; show (s3.sc.sp.bodies o).inSpace = _
      rw [in3, in2 o ho]
    · show s6.sc.sp.typ o ≠ .static
      rw [typ6 o ho]; decide
  · rw [h6, h5, h4, h3, h2, h1, m0]
  · intro c
    rw [f6.conIn]; show (s5.sc.sp.cons c).inSpace = _
    rw [f5.conIn]; show (s4.sc.sp.cons c).inSpace = _
    rw [f4.conIn]; show (s3.sc.sp.cons c).inSpace = _
    rw [f3.conIn]; show (s2.sc.sp.cons c).inSpace = _
    rw [f2.conIn]; show (s1.sc.sp.cons c).inSpace = _
    rw [f1.conIn, hsp]; rfl
  · rw [u6.1, u5.1, u4.1, u3.1, u2.1, u1.1, su0]
  · rw [u6.2, u5.2, u4.2, u3.2, u2.2, u1.2, ar0]
  · rw [l6 rfl, l5 rfl, l4 rfl, l3 rfl, l2 rfl, l1 rfl, hsp]; rfl
  · intro o
    rw [f6.sensor, f5.sensor, f4.sensor, f3.sensor, f2.sensor, f1.sensor, hsp]; rfl

/-- The space with both bodies and both shapes. -/
theorem chase (d v : ℝ) : ∃ s : Sim ℝ, s.Reach id ∧ (∀ o, o = 1 ∨ o = 2 → (s.sc.sp.shapes o).inSpace = true ∧ (s.sc.sp.shapes o).body = o ∧
      s.InPlace o ∧ s.engine.awake o ∧ s.sc.sp.typ o = .dynamic) ∧ (∀ o, (s.sc.sp.shapes o).inSpace = true → o = 1 ∨ o = 2) ∧
    s.mo = chaseMotion d v ∧ (∀ o, ∃ tc, (s.sc.shapes o).shp.cls = .circle { c := ⟨0, 0⟩, tc := tc, r := 1 }) ∧ (∀ o, (s.sc.shapes o).filter = ShapeFilter.all) ∧
    (∀ c, (s.sc.sp.cons c).inSpace = false) ∧ s.sc.size + 1 < 1610612740 := by
  obtain ⟨s, h1, h2, h3, h4, h5, h6, h7, h8, -⟩ := chaseWith d v ⟨0, 0, ⟨0, 0⟩⟩
  exact ⟨s, h1, h2, h3, h4, h5, h6, h7, h8⟩

theorem chase_ok {s : Sim ℝ} : (Sim.Call.step chaseIn).Allowed s := ⟨by simp [chaseIn], by simp [chaseIn]⟩

theorem chase_awake {d v : ℝ} (hv : v ≠ 0) {s s' : Sim ℝ} (hr : s.Reach id) (hmo : s.mo = chaseMotion d v) (a1 : s.engine.awake 1)
    (t1 : s.sc.sp.typ 1 = .dynamic) (run : s.call id (.step chaseIn) = some s') : ¬ s'.engine.asleep 1 := by
  have hdt : chaseIn.dt ≠ 0 := by norm_num [chaseIn]
  obtain ⟨e, x1, x2, x3, x4, -, -, x5, x6, x7, x8, x9, -⟩ := C64_tests hr hdt chase_ok run
  refine C63_restless hr.ok.eng (by rw [x1]; exact hdt) x8 x9 a1 t1 ?_
  rw [show s.engine.mo = chaseMotion d v from hmo, x1]
  have : e.restless = (SimIn.engine chaseIn [] s.arbs).restless := by
    funext b
    simp only [EngineIn.restless, x1, x2, x5, SimIn.engine]
    rfl
  rw [this]
  have : (0 : ℝ) < v * v := mul_self_pos.2 hv
  norm_num [EngineIn.restless, SimIn.engine, chaseIn, chaseMotion, chaseBody, Body.kineticEnergy, Body.updatePosition, Body.setTransform, Vec.dot, Vec.lengthSq]
  rw [if_neg hv]; exact this

theorem chase_pos {d v : ℝ} {s s' : Sim ℝ} (hr : s.Reach id) (hmo : s.mo = chaseMotion d v) (a1 : s.engine.awake 1) (a2 : s.engine.awake 2)
    (run : s.call id (.step chaseIn) = some s') : s'.worldPoint 1 ⟨0, 0⟩ = ⟨v, 0⟩ ∧ s'.worldPoint 2 ⟨0, 0⟩ = ⟨d, 0⟩ := by
  have hdt : chaseIn.dt ≠ 0 := by norm_num [chaseIn]
  have tr := (step_shapes hr.ok hdt chase_ok run 1).2.2.2
  have e1 : s.movedPos chaseIn.dt 1 = (chaseBody 0 v).updatePosition 1 := by
    rw [movedPos_awake hr.ok.eng _ a1, hmo]; rfl
  have e2 : s.movedPos chaseIn.dt 2 = (chaseBody d 0).updatePosition 1 := by
    rw [movedPos_awake hr.ok.eng _ a2, hmo]; rfl
  constructor
  · simp only [worldPoint, Body.localToWorld, (tr 1).1, e1]
    norm_num [chaseBody, Body.updatePosition, Body.setTransform, Transform.point, Vec.add, Vec.mult]
    exact ⟨rfl, rfl⟩
  · simp only [worldPoint, Body.localToWorld, (tr 2).1, e2]
    norm_num [chaseBody, Body.updatePosition, Body.setTransform, Transform.point, Vec.add, Vec.mult]
    exact ⟨rfl, rfl⟩

/-- C64_no_panic, C64_after_step and C64_circles apply: the step moves body 1 by `v`, both shapes are in their places, and the two circles
touch afterwards exactly if `|v - d| < 2`. -/
theorem chase_touch (d v : ℝ) (hv : v ≠ 0) : ∃ s s' : Sim ℝ, s.Reach id ∧ s.call id (.step chaseIn) = some s' ∧
    s'.InPlace 1 ∧ s'.InPlace 2 ∧ (proto 1 2 s'.sc.sp.trace = some true ↔ |v - d| < 2) := by
  obtain ⟨s, hr, h12, only, hmo, hcls, hfil, hcons, hsz⟩ := chase d v
  obtain ⟨s', run, hr'⟩ := C64_no_panic hr (.step chaseIn) chase_ok hsz
  have hdt : chaseIn.dt ≠ 0 := by norm_num [chaseIn]
  obtain ⟨i1, b1, p1, a1, t1⟩ := h12 1 (.inl rfl)
  obtain ⟨i2, b2, p2, a2, t2⟩ := h12 2 (.inr rfl)
  have rest : ∀ x, (s.sc.sp.shapes x).inSpace = true → ¬ s.sc.Mobile x → s.InPlace x := fun x hx _ => (h12 x (only x hx)).2.2.1
  have aft := C64_after_step hr hdt chase_ok run rest
  have ins : ∀ x, (s'.sc.sp.shapes x).inSpace = (s.sc.sp.shapes x).inSpace := fun x => (step_shapes hr.ok hdt chase_ok run x).2.2.1
  have m1 : s.sc.Mobile 1 := ⟨by rw [b1, t1]; simp, by
    rw [b1, Sp.isSleeping, show (s.sc.sp.bodies 1).root = none from (Engine.awake_iff.1 a1).2.2]; rfl⟩
  have na := chase_awake hv hr hmo a1 t1 run
  have pos := chase_pos hr hmo a1 a2 run
  obtain ⟨tc1, q1⟩ := hcls 1
  obtain ⟨tc2, q2⟩ := hcls 2
  have := (C64_circles hr hdt chase_ok ⟨fun _ => rfl, rfl⟩ run 1 2 _ _ q1 q2 (by norm_num) (by norm_num) (by norm_num) i1 i2
    (by rw [b1, b2]; decide) (by rw [hfil, hfil]; decide) (fun c hc => by rw [hcons] at hc; cases hc) m1 (by rw [b1]; exact na) (.inr p2)).1
  refine ⟨s, s', hr, run, aft 1 (by rw [ins, i1]), aft 2 (by rw [ins, i2]), ?_⟩
  rw [this, b1, b2, pos.1, pos.2]
  simp only [Vec.distance, Vec.sub, Vec.length, Vec.dot]
  rw [show sqrt ((v - d) * (v - d) + (0 - 0) * (0 - 0)) = |v - d| by
    rw [show (v - d) * (v - d) + (0 - 0) * (0 - 0) = (v - d) * (v - d) by ring]
    exact Real.sqrt_mul_self_eq_abs _]
  norm_num

/-- C64_free applies: if the boxes are apart after the move, body 1 flies on undisturbed. -/
theorem chase_free (d v : ℝ) (hv : v ≠ 0) (far : 2 < |v - d|) : ∃ s s' : Sim ℝ, s.Reach id ∧ s.call id (.step chaseIn) = some s' ∧
    s'.mo.bodies 1 = ((chaseBody 0 v).updatePosition 1).updateVelocity ⟨0, 0⟩ (GoFloat.pow 1 1) 1 := by
  obtain ⟨s, hr, h12, only, hmo, hcls, hfil, hcons, hsz⟩ := chase d v
  obtain ⟨s', run, hr'⟩ := C64_no_panic hr (.step chaseIn) chase_ok hsz
  refine ⟨s, s', hr, run, ?_⟩
  have hdt : chaseIn.dt ≠ 0 := by norm_num [chaseIn]
  obtain ⟨i1, b1, p1, a1, t1⟩ := h12 1 (.inl rfl)
  obtain ⟨i2, b2, p2, a2, t2⟩ := h12 2 (.inr rfl)
  have na := chase_awake hv hr hmo a1 t1 run
  obtain ⟨w1, w2⟩ := chase_pos hr hmo a1 a2 run
  have box : ∀ x, x = 1 ∨ x = 2 → (s'.sc.shapes x).shp.bb = BB.forCircle (s'.worldPoint x ⟨0, 0⟩) 1 := by
    intro x hx
    obtain ⟨ix, bx, px, -, -⟩ := h12 x hx
    obtain ⟨rot, e⟩ := placed_spec hr.ok hdt chase_ok run ix (.inr px)
    rw [e]
    show (Coll.Cls.cacheData (s.sc.shapes x).shp.cls _).2 = _
    obtain ⟨tc, q⟩ := hcls x
    rw [q, bx]; rfl
  classical
  have := C64_free hr hdt chase_ok ⟨fun _ => rfl, rfl⟩ run a1 (by rintro ⟨c, hc, -⟩; rw [show s.engine.sp = s.sc.sp from rfl, hcons] at hc; cases hc)
    (fun x y hx hy hbx hby => .inr (.inl ?_))
  · rw [this, if_neg na, hmo]; rfl
  · rcases only x hx with rfl | rfl
    · rcases only y hy with rfl | rfl
      · exact absurd hbx hby
      · rw [box 1 (.inl rfl), box 2 (.inr rfl), w1, w2]
        simp only [BB.forCircle, BB.forExtents, BB.intersects]
        rcases lt_abs.1 far with q | q
        · have : ¬ v - 1 ≤ d + 1 := by linarith
          simp [this]
        · have : ¬ d - 1 ≤ v + 1 := by linarith
          simp [this]
    · rw [b2] at hbx; cases hbx

/-- C64_group applies to both bodies together, whether they collide or not: the total momentum stays `v`. -/
theorem chase_group (d v : ℝ) (hv : v ≠ 0) : ∃ s s' : Sim ℝ, s.Reach id ∧ s.call id (.step chaseIn) = some s' ∧
    (¬ s'.engine.asleep 2 → (whole {1, 2} s'.mo.bodies).momentum = ⟨v, 0⟩) := by
  obtain ⟨s, hr, h12, only, hmo, hcls, hfil, hcons, hsz⟩ := chase d v
  obtain ⟨s', run, hr'⟩ := C64_no_panic hr (.step chaseIn) chase_ok hsz
  refine ⟨s, s', hr, run, fun n2 => ?_⟩
  have hdt : chaseIn.dt ≠ 0 := by norm_num [chaseIn]
  obtain ⟨i1, b1, p1, a1, t1⟩ := h12 1 (.inl rfl)
  obtain ⟨i2, b2, p2, a2, t2⟩ := h12 2 (.inr rfl)
  have na := chase_awake hv hr hmo a1 t1 run
  have hmax : (maxFloat : ℝ) ≠ 1 := ne_of_gt one_lt_maxFloat
  have hmax0 : (maxFloat : ℝ) ≠ 0 := ne_of_gt maxFloat_pos
  have g : Group {1, 2} 2 s.mo := by
    rw [hmo]
    refine ⟨fun k hk => ?_, fun k hk => ?_, ?_, ?_, fun k => ?_⟩
    · simp only [Finset.mem_insert, Finset.mem_singleton] at hk
      rcases hk with rfl | rfl <;> norm_num [FiniteMass, chaseMotion, chaseBody]
    · simp only [Finset.mem_insert, Finset.mem_singleton] at hk
      rcases hk with rfl | rfl <;> simp [chaseMotion, chaseBody, Body.type, hmax.symm, hmax0.symm]
    · simp [biasMomentum, chaseMotion, chaseBody]
    · norm_num [groupMass, chaseMotion, chaseBody]
    · simp [Isolates, chaseMotion, chaseJoint, Joint.con]
  obtain ⟨-, -, m, -⟩ := C64_group hr hdt chase_ok ⟨fun _ => rfl, rfl⟩ run {1, 2} 2 g
    (by simp only [Finset.mem_insert, Finset.mem_singleton]; rintro b (rfl | rfl); exacts [a1, a2])
    (by simp only [Finset.mem_insert, Finset.mem_singleton]; rintro b (rfl | rfl); exacts [na, n2])
    (fun x y hx hy _ hny => by
      exfalso
      refine hny ?_
      rw [(h12 y (only y hy)).2.1]
      simpa using only y hy)
  rw [m, hmo]
  norm_num [whole, chaseMotion, chaseBody, chaseIn, Vec.add, Vec.mult]

end CP
