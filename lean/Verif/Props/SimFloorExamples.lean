import Verif.Props.SimFloor
import Verif.Props.SimBounceExamples

/-! # C66: an example

A ball of radius 1, two units above a floor that goes from (-10, 0) to (10, 0), is thrown at the floor. -/

namespace CP
open Sim GoFloat

/-- The static body. -/
noncomputable def groundBody : Body ℝ :=
  { m := maxFloat, m_inv := 0, i := maxFloat, i_inv := 0, cog := ⟨0, 0⟩, p := ⟨0, 0⟩, v := ⟨0, 0⟩, f := ⟨0, 0⟩, a := 0, w := 0, t := 0,
    transform := ⟨1, 0, 0, 1, 0, 0⟩, v_bias := ⟨0, 0⟩, w_bias := 0, shapes := [], idle := maxFloat }

/-- The ball's body, with the velocity `v`. -/
noncomputable def thrownBody (v : Vec ℝ) : Body ℝ :=
  { m := 1, m_inv := 1, i := 1, i_inv := 1, cog := ⟨0, 0⟩, p := ⟨0, 2⟩, v := v, f := ⟨0, 0⟩, a := 0, w := 0, t := 0,
    transform := ⟨1, 0, 0, 1, 0, 2⟩, v_bias := ⟨0, 0⟩, w_bias := 0, shapes := [], idle := 0 }

/-- The bodies. -/
noncomputable def thrownMotion (v : Vec ℝ) : Motion ℝ := ⟨fun b => if b = 1 then thrownBody v else groundBody, fun _ => chaseJoint, 0⟩

/-- The floor, not yet put in its place. -/
noncomputable def groundSeg : Segment ℝ := ⟨⟨-10, 0⟩, ⟨10, 0⟩, ⟨0, -1⟩, ⟨0, 0⟩, ⟨0, 0⟩, ⟨0, 0⟩, 0, ⟨0, 0⟩, ⟨0, 0⟩⟩

/-- The shapes, not yet put in their places. -/
noncomputable def thrownShape (o : Nat) : QShape ℝ :=
  if o = 1 then chaseShape else ⟨⟨.seg groundSeg, ⟨0, 0, 0, 0⟩, ⟨1, 0⟩, 0#64⟩, ShapeFilter.all, false⟩

/-- A step of length 1 with gravity `g`. -/
noncomputable def thrownIn (g : ℝ) : SimIn ℝ := { chaseIn with gravity := ⟨0, -g⟩ }

/-- What the shapes are. -/
def ThrownCls (o : Nat) (c : Coll.Cls ℝ) : Prop :=
  (o = 1 → ∃ tc, c = .circle { c := ⟨0, 0⟩, tc := tc, r := 1 }) ∧ (o ≠ 1 → ∃ ta tb tn, c = .seg { groundSeg with ta := ta, tb := tb, tn := tn })

theorem ThrownCls.cache {o : Nat} {c : Coll.Cls ℝ} (h : ThrownCls o c) (t : Transform ℝ) : ThrownCls o (c.cacheData t).1 := by
  refine ⟨fun e => ?_, fun e => ?_⟩
  · obtain ⟨tc, rfl⟩ := h.1 e
    exact ⟨_, rfl⟩
  · obtain ⟨ta, tb, tn, rfl⟩ := h.2 e
    exact ⟨_, _, _, rfl⟩

/-- The space with the ball and the floor. -/
theorem thrown (v : Vec ℝ) (m : Surface ℝ) : ∃ s : Sim ℝ, s.Reach id ∧ (∀ o, o = 0 ∨ o = 1 → (s.sc.sp.shapes o).inSpace = true ∧ (s.sc.sp.shapes o).body = o ∧
      s.InPlace o) ∧ (s.engine.awake 1 ∧ s.sc.sp.typ 1 = .dynamic) ∧ s.sc.sp.typ 0 = .static ∧ (∀ o, (s.sc.sp.shapes o).inSpace = true → o = 0 ∨ o = 1) ∧
    s.mo = thrownMotion v ∧ (∀ o, ThrownCls o (s.sc.shapes o).shp.cls) ∧ (∀ o, (s.sc.shapes o).filter = ShapeFilter.all) ∧
    (∀ c, (s.sc.sp.cons c).inSpace = false) ∧ s.sc.size + 1 < 1610612740 ∧
    s.surf = (fun _ => m) ∧ s.arbs = (fun _ => Arb.blank) ∧ s.sc.sp.trace = [] ∧ ∀ o, (s.sc.sp.shapes o).sensor = false := by
  obtain ⟨w, hw⟩ : ∃ w, World.init (fun o => (thrownShape o).shp.bb) (fun o => ((thrownMotion v).bodies o).v) = some w := by
    have : (HashSet.new : Option (HashSet Obj)).isSome = true := by decide +kernel
    obtain ⟨t, ht⟩ := Option.isSome_iff_exists.1 this
    simp only [World.init, ht]
    exact ⟨_, rfl⟩
  have r0 := Sim.Reach.new (hash := id) 3 1 (fun _ => .dynamic) (fun o => (o, false)) (fun _ => (3, 0)) (thrownMotion v)
    thrownShape (fun _ => m) (fun _ => true) (fun _ => Arb.blank) w (fun _ => ⟨rfl, rfl⟩)
    (fun x => by simp only [thrownShape]; split <;> trivial)
    (fun x => by simp only [thrownMotion, thrownShape]; split <;> rfl) hw
  obtain ⟨s0, r0, z0, m0, g0, hsp, su0, ar0⟩ : ∃ s0 : Sim ℝ, s0.Reach id ∧ s0.sc.size = 0 ∧ s0.mo = thrownMotion v ∧
      (s0.sc.shapes = thrownShape) ∧ s0.sc.sp = Sp.newSpace 3 1 (fun _ => .dynamic) (fun o => (o, false)) (fun _ => (3, 0)) ∧
      s0.surf = (fun _ => m) ∧ s0.arbs = (fun _ => Arb.blank) :=
    ⟨_, r0, rfl, rfl, rfl, rfl, rfl, rfl⟩
  have st : ∀ (s : Sim ℝ) (o : Sp.Op ℝ), (∀ x, o ≠ .addShape x) → s.before o = s.sc := by
    intro s o ho
    cases o <;> first | rfl | exact absurd rfl (ho _)
  obtain ⟨s1, r1, -, e1, h1, g1, z1, f1, u1, l1⟩ := sim_op r0 (.addBody 1) (by simp) ⟨by rw [hsp]; rfl, by rw [hsp]; show 1 < 4; omega⟩ (by omega)
  have body1 : ∀ o, (s1.sc.sp.shapes o).body = o := fun o => by rw [f1.shapeBody, hsp]; rfl
  have out1 : ∀ o, (s1.sc.sp.shapes o).inSpace = false := fun o => by rw [f1.shapeIn, hsp]; rfl
  have in1 : (s1.sc.sp.bodies 1).inSpace = true := by rw [f1.bodyIn]; rfl
  have typ1 : s1.sc.sp.typ 1 = .dynamic ∧ s1.sc.sp.typ 0 = .static := ⟨by rw [f1.types, hsp]; rfl, by rw [f1.types, hsp]; rfl⟩
  have okA : (Sim.Call.op (Sp.Op.addShape 1) fun _ => false).Allowed s1 := ⟨⟨out1 1, fun _ => by rw [body1]; exact in1⟩, by simp⟩
  obtain ⟨s2, r2, c2, e2, h2, g2, z2, f2, u2, l2⟩ := sim_op r1 (.addShape 1) (by simp) okA.1 (by omega)
  have typ2 : ∀ b, s2.sc.sp.typ b = s1.sc.sp.typ b := fun b => by rw [f2.types]; rfl
  have in2 : ∀ b, (s2.sc.sp.bodies b).inSpace = (s1.sc.sp.bodies b).inSpace := fun b => by rw [f2.bodyIn]; rfl
  have body2 : ∀ o, (s2.sc.sp.shapes o).body = o := fun o => by rw [f2.shapeBody, body1]
  have sh2 : ∀ o, (s2.sc.sp.shapes o).inSpace = true ↔ o = 1 := fun o => by
    rw [f2.shapeIn]
    by_cases h : o = 1
    · simp [Sp.Op.shapeIn, h]
    · simp [Sp.Op.shapeIn, h, out1]
  have p2 : s2.InPlace 1 := C64_inPlace r1 (.op (.addShape 1) fun _ => false) okA c2 1 (.inl rfl)
  have okB : (Sim.Call.op (Sp.Op.addShape 0) fun _ => false).Allowed s2 :=
    ⟨⟨by rw [← Bool.not_eq_true, sh2]; decide, fun q => by rw [body2, typ2, typ1.2] at q; cases q⟩, by simp⟩
  obtain ⟨s3, r3, c3, e3, h3, g3, z3, f3, u3, l3⟩ := sim_op r2 (.addShape 0) (by simp) okB.1 (by omega)
  have p3 : ∀ o, o = 0 ∨ o = 1 → s3.InPlace o := by
    rintro o (rfl | rfl)
    · exact C64_inPlace r2 _ okB c3 0 (.inl rfl)
    · exact C64_inPlace r2 _ okB c3 1 (.inr ⟨p2, id⟩)
  obtain ⟨s4, r4, c4, e4, h4, g4, z4, f4, u4, l4⟩ := sim_op r3 (.activate 1) (by simp) trivial (by omega)
  have p4 : ∀ o, o = 0 ∨ o = 1 → s4.InPlace o := fun o ho =>
    C64_inPlace r3 (.op (.activate 1) fun _ => false) ⟨trivial, by simp⟩ c4 o (.inr ⟨p3 o ho, id⟩)
  have root4 : (s4.sc.sp.bodies 1).root = none := by
    obtain ⟨L3, w3⟩ := r3.ok.eng.good.1.world
    have q4 := (C44_no_panic r3.ok.eng.good.1 (.activate 1) trivial).1
    rw [e4]; exact activate_awake w3 q4
  have typ4 : ∀ b, s4.sc.sp.typ b = s1.sc.sp.typ b := fun b => by
    rw [f4.types]; show s3.sc.sp.typ b = _
    rw [f3.types]; show s2.sc.sp.typ b = _
    rw [typ2]
  have sh4 : ∀ o, (s4.sc.sp.shapes o).inSpace = true ↔ o = 0 ∨ o = 1 := fun o => by
    rw [f4.shapeIn]; show (s3.sc.sp.shapes o).inSpace = _ ↔ _
    rw [f3.shapeIn]
    by_cases h : o = 0
    · simp [Sp.Op.shapeIn, h]
    · simp [Sp.Op.shapeIn, h, sh2]
  have cls : ∀ (s : Sim ℝ) (x : Nat), (∀ o, ThrownCls o (s.sc.shapes o).shp.cls ∧ (s.sc.shapes o).filter = ShapeFilter.all) →
      ∀ o, ThrownCls o ((s.before (.addShape x)).shapes o).shp.cls ∧ ((s.before (.addShape x)).shapes o).filter = ShapeFilter.all := by
    intro s x h o
    rw [show (s.before (.addShape x)).shapes o = _ from fetch_shape s x o]
    split
    · rename_i e
      rw [e]
      exact ⟨(h x).1.cache _, (h x).2⟩
    · exact h o
  have k4 : ∀ o, ThrownCls o (s4.sc.shapes o).shp.cls ∧ (s4.sc.shapes o).filter = ShapeFilter.all := by
    rw [g4, st _ _ (by simp), g3]
    refine cls _ _ ?_
    rw [g2]
    refine cls _ _ ?_
    rw [g1, st _ _ (by simp), g0]
    intro o
    simp only [thrownShape]
    split
    · exact ⟨⟨fun _ => ⟨⟨0, 0⟩, rfl⟩, fun e => absurd ‹_› e⟩, rfl⟩
    · exact ⟨⟨fun e => absurd e ‹_›, fun _ => ⟨⟨0, 0⟩, ⟨0, 0⟩, ⟨0, 0⟩, rfl⟩⟩, rfl⟩
  refine ⟨s4, r4, fun o ho => ⟨(sh4 o).2 ho, ?_, p4 o ho⟩, ⟨?_, by rw [typ4, typ1.1]⟩, by rw [typ4, typ1.2], fun o h => (sh4 o).1 h, ?_, fun o => (k4 o).1, fun o => (k4 o).2, ?_,
    by omega, ?_, ?_, ?_, ?_⟩
  · rw [f4.shapeBody, f3.shapeBody, body2]
  · refine Engine.awake_iff.2 ⟨?_, ?_, root4⟩
    · show (s4.sc.sp.bodies 1).inSpace = true
      rw [f4.bodyIn]; show (s3.sc.sp.bodies 1).inSpace = _
      rw [f3.bodyIn]; show (s2.sc.sp.bodies 1).inSpace = _
      rw [in2, in1]
    · show s4.sc.sp.typ 1 ≠ .static
      rw [typ4, typ1.1]; decide
  · rw [h4, h3, h2, h1, m0]
  · intro c
    rw [f4.conIn]; show (s3.sc.sp.cons c).inSpace = _
    rw [f3.conIn]; show (s2.sc.sp.cons c).inSpace = _
    rw [f2.conIn]; show (s1.sc.sp.cons c).inSpace = _
    rw [f1.conIn, hsp]; rfl
  · rw [u4.1, u3.1, u2.1, u1.1, su0]
  · rw [u4.2, u3.2, u2.2, u1.2, ar0]
  · rw [l4 rfl, l3 rfl, l2 rfl, l1 rfl, hsp]; rfl
  · intro o
    rw [f4.sensor, f3.sensor, f2.sensor, f1.sensor, hsp]; rfl

theorem thrown_ok {g : ℝ} {s : Sim ℝ} : (Sim.Call.step (thrownIn g)).Allowed s := ⟨by simp [thrownIn, chaseIn], by simp [thrownIn, chaseIn]⟩

/-- Thrown down with a speed between 1 and 2, and forward not beyond the end of the floor, the ball lands in the first step, whatever the material. -/
theorem thrown_lands (v : Vec ℝ) (g : ℝ) (m : Surface ℝ) (h1 : 1 < -v.y) (h2 : -v.y < 2) (h3 : -10 ≤ v.x) (h4 : v.x ≤ 10) (g0 : 0 ≤ g) (g1 : g ≤ 1) : ∃ s s' : Sim ℝ, ∃ cx : Circle ℝ, ∃ sy : Segment ℝ,
    s.Reach id ∧ s.call id (.step (thrownIn g)) = some s' ∧ Landing s s' (thrownIn g) 1 0 cx sy ⟨v.x, 0⟩ ∧ (cx.r = 1 ∧ sy.r = 0) ∧
    ((s.sc.sp.shapes 1).body = 1 ∧ (s.sc.sp.shapes 0).body = 0) ∧ s.mo = thrownMotion v ∧ s.surf = (fun _ => m) ∧
    s'.up 1 ⟨v.x, 0⟩ = ⟨0, 1⟩ ∧ (s'.mo.bodies 1).p = ⟨v.x, 2 + v.y⟩ ∧ s'.sc.size ≤ 2 ∧ s'.engine.awake 1 := by
  obtain ⟨s, hr, h12, ⟨a1, t1⟩, t0, only, hmo, hcls, hfil, hcons, hsz, hsurf, harbs, htr, hsen⟩ := thrown v m
  obtain ⟨s', run, hr'⟩ := C64_no_panic hr (.step (thrownIn g)) thrown_ok hsz
  have hdt : (thrownIn g).dt ≠ 0 := by norm_num [thrownIn, chaseIn]
  have hdt' : 0 < (thrownIn g).dt := by norm_num [thrownIn, chaseIn]
  obtain ⟨i1, b1, p1⟩ := h12 1 (.inr rfl)
  obtain ⟨i0, b0, p0⟩ := h12 0 (.inl rfl)
  have m1 : s.sc.Mobile 1 := ⟨by rw [b1, t1]; simp, by
    rw [b1, Sp.isSleeping, show (s.sc.sp.bodies 1).root = none from (Engine.awake_iff.1 a1).2.2]; rfl⟩
  obtain ⟨e, x1, x2, x3, x4, -, -, x5, x6, x7, x8, x9, -⟩ := C64_tests hr hdt thrown_ok run
  have na : ¬ s'.engine.asleep 1 := by
    refine C63_restless hr.ok.eng (by rw [x1]; exact hdt) x8 x9 a1 t1 ?_
    rw [show s.engine.mo = thrownMotion v from hmo, x1]
    have : e.restless = (SimIn.engine (thrownIn g) [] s.arbs).restless := by
      funext b
      simp only [EngineIn.restless, x1, x2, x5, SimIn.engine]
      rfl
    rw [this]
    have hv : 0 < v.x * v.x + v.y * v.y := by nlinarith [mul_self_nonneg v.x]
    have hv0 : v.x * v.x + v.y * v.y ≠ 0 := hv.ne'
    simp [EngineIn.restless, SimIn.engine, thrownIn, chaseIn, thrownMotion, thrownBody, Body.kineticEnergy, Body.updatePosition, Body.setTransform, Vec.dot, Vec.lengthSq, hv0]
    split
    · exact hv
    · nlinarith [mul_self_nonneg v.x]
  have st : s.sc.sp.typ 0 = .static ∧ Immovable (s.mo.bodies 0) := ⟨t0, by rw [hmo]; exact ⟨rfl, rfl⟩⟩
  obtain ⟨f0, -⟩ := floor_stays hr hdt' thrown_ok run st
  have mv : s.movedPos (thrownIn g).dt 1 = (thrownBody v).updatePosition 1 := by
    rw [movedPos_awake hr.ok.eng _ a1, hmo]; rfl
  have e1 : (s'.mo.bodies 1).p = ⟨v.x, 2 + v.y⟩ := by
    refine (step_centre hr.ok hdt x1 x8 x9 1).trans ?_
    rw [show Motion.move s.mo.bodies (thrownIn g).dt s.sc.sp.dynamicBodies 1 = (thrownBody v).updatePosition 1 from mv]
    simp [thrownBody, Body.updatePosition, Body.setTransform, Vec.add, Vec.mult]
  have w1 : s'.worldPoint 1 ⟨0, 0⟩ = ⟨v.x, 2 + v.y⟩ := by
    simp only [worldPoint, Body.localToWorld, ((step_shapes hr.ok hdt thrown_ok run 1).2.2.2 1).1, mv]
    norm_num [thrownBody, Body.updatePosition, Body.setTransform, Transform.point, Vec.add, Vec.mult]
    exact ⟨rfl, rfl⟩
  have w0 : ∀ p, s'.worldPoint 0 p = p := by
    intro p
    simp only [worldPoint, Body.localToWorld, f0, hmo]
    simp [thrownMotion, groundBody, Transform.point]
  have clear : ∀ b, ClearBut s s' b 1 0 := by
    intro b u w hu hw hbu hbw n1 n2
    exfalso
    rcases only u hu with rfl | rfl <;> rcases only w hw with rfl | rfl
    · exact hbw hbu
    · exact n2 ⟨rfl, rfl⟩
    · exact n1 ⟨rfl, rfl⟩
    · exact hbw hbu
  have sp := hr.ok.eng.good.1
  have dist : ∀ y : ℝ, (⟨v.x, 2 + v.y⟩ : Vec ℝ).distance ⟨v.x, 0⟩ = 2 + v.y := by
    intro y
    simp only [Vec.distance, Vec.sub, Vec.length, Vec.dot]
    rw [show (v.x - v.x) * (v.x - v.x) + (2 + v.y - 0) * (2 + v.y - 0) = (2 + v.y) * (2 + v.y) + 0 * 0 by ring, sqrt_axis, abs_of_pos (by linarith)]
  obtain ⟨mid, H⟩ := Engine.step_mid hr.ok.eng (by rw [x1]; exact hdt) x8 x9
  have size : s'.sc.size ≤ 2 := by
    obtain ⟨n1, n2, k1, k2⟩ := shape_lists hr'.ok.eng.good.1
    have hn : (s'.sc.sp.dynamicShapes ++ s'.sc.sp.staticShapes).Nodup := by
      rw [List.nodup_append]
      exact ⟨n1, n2, fun x hx y hy e => lists_disjoint hr'.ok.eng.good.1 x hx (e ▸ hy)⟩
    refine (List.subperm_of_subset hn (l₂ := [0, 1]) fun x hx => ?_).length_le
    have : (s'.sc.sp.shapes x).inSpace = true := by
      have hx := List.mem_append.1 hx
      rcases hx with hx | hx
      · exact ((k1 x).1 hx).1
      · exact ((k2 x).1 hx).1
    rw [(step_shapes hr.ok hdt thrown_ok run x).2.2.1] at this
    rcases only x this with rfl | rfl <;> simp
  have aw : s'.engine.awake 1 := by
    refine ⟨?_, ?_, na⟩
    · rw [show (s'.engine.sp.bodies 1).inSpace = (s.engine.sp.bodies 1).inSpace from H.keep.inSpace 1]; exact a1.1
    · rw [show s'.engine.sp.typ 1 = s.engine.sp.typ 1 from H.keep.typ 1]; exact a1.2.1
  obtain ⟨tc, q1⟩ := (hcls 1).1 rfl
  obtain ⟨ta, tb, tn, q0⟩ := (hcls 0).2 (by decide)
  refine ⟨s, s', _, _, hr, run, ⟨⟨i1, i0, by rw [b1, b0]; decide, ?_, ⟨m1, by rw [b1]; exact aw.2⟩, .inr p0, ?_, ?_, fun _ => ⟨rfl, rfl⟩,
    by norm_num [thrownIn, chaseIn], ?_, ?_, ?_⟩, q1, q0, by norm_num, by norm_num [groundSeg], ?_, ?_, ?_, ?_, ?_, ?_, .inl ⟨rfl, rfl⟩, ?_, ?_⟩, ⟨rfl, rfl⟩, ⟨b1, b0⟩, hmo, hsurf, ?_, e1, size, aw⟩
  · rw [hfil, hfil]; decide
  · rw [b1, b0]
    rintro b (rfl | rfl)
    · exact .inr ⟨a1.2, (by rintro ⟨c, hc, -⟩; rw [show s.engine.sp = s.sc.sp from rfl, hcons] at hc; cases hc), clear _⟩
    · exact .inl st.2
  · refine ⟨?_, ?_, fun p q _ => ⟨rfl, rfl, rfl, rfl⟩⟩
    · have : (s.sc.sp.bodies 1).infMass = false := by
        by_contra h
        rw [Bool.not_eq_false] at h
        have := t1
        simp only [Sp.typ, BodyR.type, h] at this
        split at this <;> simp at this
      simp only [Sp.inert, hsen, b1, b0, this, Bool.false_or, Bool.false_and]
    · have := C23_state sp 1 0
      rw [show s.engine.sp.trace = [] from htr] at this
      simp only [proto_nil, Option.some.injEq] at this
      intro h
      rw [show s.engine.sp = s.sc.sp from rfl, h] at this
      simp at this
  · rw [b1, b0, hmo]; norm_num [thrownMotion, thrownBody, groundBody]
  · rw [b1, b0, hmo]; norm_num [thrownMotion, thrownBody, groundBody]
  · refine .inl fun k _ _ c hc => ?_
    rw [harbs] at hc
    cases hc
  · rw [b1, e1]; exact w1
  · rw [b0, w0, w0]
    simp only [groundSeg, ne_eq, Vec.mk.injEq, and_true]
    norm_num
  · rw [b0, w0, w0]
    refine ⟨(v.x + 10) / 20, by linarith, by linarith, ?_⟩
    simp only [groundSeg, Vec.mk.injEq]
    constructor <;> ring
  · rw [b0, w0, w0, b1, e1]
    rintro z ⟨t, -, -, rfl⟩
    simp only [Vec.distance, Vec.length, sqrt_real, Vec.dot, Vec.sub, groundSeg]
    apply Real.sqrt_le_sqrt
    nlinarith [mul_self_nonneg (v.x - (-10 + t * (10 - -10)))]
  · rw [b1, e1, dist 0]; norm_num [groundSeg]; linarith
  · rw [b1, e1]
    intro h
    simp only [Vec.mk.injEq, true_and] at h
    linarith
  · rw [b0]; exact st
  · rw [b0, motionless, hmo]
    exact ⟨rfl, rfl, rfl, rfl⟩
  · simp only [up, e1, dist 0]
    have : 2 + v.y ≠ 0 := by linarith
    simp only [Vec.sub, Vec.mult, sub_self, sub_zero, zero_mul, Vec.mk.injEq, true_and]
    field_simp

/-- C66_landing and C66_bounce apply: the ball bounces with the product of the elasticities times its vertical speed; the floor's friction brakes it and spins it: by a half of its
speed if the floor is rough enough (then the ball rolls: its surface does not slide any more), else by the product of the frictions times what the floor pushes. -/
theorem thrown_bounce (v : Vec ℝ) (g : ℝ) (m : Surface ℝ) (h1 : 1 < -v.y) (h2 : -v.y < 2) (h3 : -10 ≤ v.x) (h4 : v.x ≤ 10) (g0 : 0 ≤ g) (g1 : g ≤ 1) :
    ∃ s s' : Sim ℝ, s.Reach id ∧ s.call id (.step (thrownIn g)) = some s' ∧ s.velocity 1 = v ∧ (s'.mo.bodies 1).p = ⟨v.x, 2 + v.y⟩ ∧
    (s'.velocity 1).y = m.e * m.e * -v.y ∧
    ∃ T, T = clamp (v.x / 2) (-(m.u * m.u * (g + (1 + m.e * m.e) * -v.y))) (m.u * m.u * (g + (1 + m.e * m.e) * -v.y)) ∧
      (s'.velocity 1).x = v.x - T ∧ s'.spin 1 = -T := by
  obtain ⟨s, s', cx, sy, hr, run, E, ⟨r1, r2⟩, ⟨b1, b0⟩, hmo, hsurf, hup, e1, size, aw⟩ := thrown_lands v g m h1 h2 h3 h4 g0 g1
  have quiet : (∀ y, (thrownIn g).sepActs y = []) ∧ (thrownIn g).lateActs = [] := ⟨fun _ => rfl, rfl⟩
  have hdt' : 0 < (thrownIn g).dt := by norm_num [thrownIn, chaseIn]
  obtain ⟨-, J, T, hJ, hT, k1, k2⟩ := C66_landing hr hdt' thrown_ok quiet run E
  have B := C66_bounce hr hdt' thrown_ok quiet run E
  have v1 : s.velocity 1 = v := by simp [velocity, hmo, thrownMotion, thrownBody]
  have fv : s.freeVel s' (thrownIn g) 1 = ⟨v.x, v.y - g⟩ ∧ s.freeSpin s' (thrownIn g) 1 = 0 := by
    have hmax : (maxFloat : ℝ) ≠ 1 := ne_of_gt one_lt_maxFloat
    have hmax0 : (maxFloat : ℝ) ≠ 0 := ne_of_gt maxFloat_pos
    have one : (1 : ℝ) ^ (1 : ℝ) = 1 := Real.one_rpow 1
    simp only [freeVel, freeSpin, if_pos aw, hmo]
    constructor <;> simp [thrownMotion, thrownBody, thrownIn, chaseIn, Body.updateVelocity, Body.type, Vec.add, Vec.mult, one, hmax.symm, hmax0.symm]
    ring
  simp only [b1, hup, fv.1, fv.2, v1, hsurf, hmo] at hJ hT k1 k2 B
  rw [r1] at hT k2
  have hm : 0 ≤ m.e * m.e * -v.y := mul_nonneg (mul_self_nonneg _) (by linarith)
  have hJ' : J = g + (1 + m.e * m.e) * -v.y := by
    rw [hJ]
    norm_num [thrownMotion, thrownBody, Vec.dot]
    rw [max_eq_right (by linarith)]
    ring
  have hT' : T = clamp (v.x / 2) (-(m.u * m.u * (g + (1 + m.e * m.e) * -v.y))) (m.u * m.u * (g + (1 + m.e * m.e) * -v.y)) := by
    rw [hT, hJ']
    congr 1
    simp only [skid, hsurf, thrownMotion, thrownBody, if_true, Vec.add, Vec.sub, Vec.dot, Vec.perp]
    norm_num
  refine ⟨s, s', hr, run, v1, e1, ?_, T, hT', ?_, ?_⟩
  · have : (s'.velocity 1).y = (s'.velocity 1).dot ⟨0, 1⟩ := by simp [Vec.dot]
    rw [this, B]
    simp only [Vec.dot]
    rw [max_eq_right (by linarith)]
    ring
  · rw [k1]
    simp [Vec.add, Vec.mult, Vec.perp, thrownMotion, thrownBody]
    ring
  · rw [k2]
    simp [thrownMotion, thrownBody]

/-- C66_step and C66_no_sinking apply. -/
theorem thrown_rests (v : Vec ℝ) (g : ℝ) (m : Surface ℝ) (h1 : 1 < -v.y) (h2 : -v.y < 2) (h3 : -10 ≤ v.x) (h4 : v.x ≤ 10) (g0 : 0 ≤ g) (g1 : g ≤ 1) :
    ∃ s s' s'' : Sim ℝ, s.Reach id ∧ s.call id (.step (thrownIn g)) = some s' ∧ s'.call id (.step (thrownIn g)) = some s'' ∧
    (s'.mo.bodies 1).p = ⟨v.x, 2 + v.y⟩ ∧ 2 + v.y ≤ (s''.mo.bodies 1).p.y := by
  obtain ⟨s, s', cx, sy, hr, run, E, ⟨r1, r2⟩, ⟨b1, b0⟩, hmo, hsurf, hup, e1, size, aw⟩ := thrown_lands v g m h1 h2 h3 h4 g0 g1
  obtain ⟨s'', run', -⟩ := C64_no_panic (.call _ hr thrown_ok run) (.step (thrownIn g)) thrown_ok (by omega)
  refine ⟨s, s', s'', hr, run, run', e1, ?_⟩
  have hdt' : 0 < (thrownIn g).dt := by norm_num [thrownIn, chaseIn]
  have v1 : s.velocity 1 = v := by simp [velocity, hmo, thrownMotion, thrownBody]
  have := C66_no_sinking hr hdt' rfl thrown_ok ⟨fun _ => rfl, rfl⟩ run thrown_ok run' E (by rw [b1]; exact .inl aw) (by norm_num [thrownIn, chaseIn]) (by
    rw [b1, hup, v1, hsurf]
    have := mul_nonneg (mul_self_nonneg m.e) (show 0 ≤ -v.y by linarith)
    simp only [Vec.dot]
    linarith)
  rw [b1, hup, e1] at this
  simp only [Vec.dot] at this
  linarith

/-- C66_rest applies. -/
theorem thrown_settles (v : Vec ℝ) (g : ℝ) (h1 : 1 < -v.y) (h2 : -v.y < 2) (h3 : -10 ≤ v.x) (h4 : v.x ≤ 10) (g0 : 0 ≤ g) (g1 : g ≤ 1) :
    ∃ ss : Nat → Sim ℝ, Resting 1 id ss (fun _ => thrownIn g) 1 0 0 1 0 1 1 0 ⟨0, 1⟩ 0 ∧ ∀ n < 1, ((ss n).surf 1).e * ((ss n).surf 0).e = 0 := by
  obtain ⟨s, s', cx, sy, hr, run, E, ⟨r1, r2⟩, ⟨b1, b0⟩, hmo, hsurf, hup, e1, size, aw⟩ := thrown_lands v g ⟨0, 0, ⟨0, 0⟩⟩ h1 h2 h3 h4 g0 g1
  obtain ⟨s'', run', -⟩ := C64_no_panic (.call _ hr thrown_ok run) (.step (thrownIn g)) thrown_ok (by omega)
  refine ⟨fun n => if n = 0 then s else if n = 1 then s' else s'', ⟨hr, fun _ _ => thrown_ok, fun _ _ => ⟨fun _ => rfl, rfl⟩, ?_, fun _ _ => ⟨rfl, rfl, rfl⟩, ?_, ?_, ?_⟩, ?_⟩
  · intro n hn
    rcases Nat.le_one_iff_eq_zero_or_eq_one.1 hn with rfl | rfl
    · exact run
    · exact run'
  · intro n hn
    obtain rfl : n = 0 := by omega
    exact b1
  · intro n hn
    obtain rfl : n = 0 := by omega
    exact ⟨cx, sy, _, E, r1, r2, hup, by simp [Vec.dot]⟩
  · intro n hn
    obtain rfl : n = 0 := by omega
    exact .inl aw
  · intro n hn
    obtain rfl : n = 0 := by omega
    show (s.surf 1).e * (s.surf 0).e = 0
    rw [hsurf]; norm_num

end CP
