import Verif.Props.Flight
import Verif.Props.SimFloorExamples

/-! # C67: an example

A ball of radius 1, two units above a floor that goes from (-10, 0) to (10, 0), is thrown forward. -/

namespace CP
open Sim GoFloat

/-- The solver makes no contacts. -/
theorem run_blank (ops : List (SolverOp ℝ)) : ∀ s : Solver ℝ, (∀ k, (s.arbs k).contacts = []) → ∀ k, ((s.run ops).arbs k).contacts = [] := by
  induction ops with
  | nil => exact fun s h => h
  | cons op ops ih =>
    intro s h
    refine ih (s.step op) ?_
    intro k
    cases op with
    | arbPreStep j dt slop bias =>
      simp only [Solver.step, Solver.setArb]
      split
      · simp only [Arb.preStep, h, List.map_nil]
      · exact h k
    | arbApply j =>
      simp only [Solver.step, Solver.setArb]
      split
      · simp only [Arb.applyImpulse, h, Arb.applyLoop]
      · exact h k
    | jointPreStep => exact h k
    | integrate => exact h k
    | arbCached => exact h k
    | jointCached => exact h k
    | jointApply => exact h k

/-- A step in which no shapes are near each other leaves no impulses and no open contacts, if there were none. -/
theorem step_nothing {hash : Obj → Nat} {s s' : Sim ℝ} (h : s.Reach hash) {i : SimIn ℝ} (hdt : i.dt ≠ 0)
    (ok : (Sim.Call.step i).Allowed s) (quiet : (∀ y, i.sepActs y = []) ∧ i.lateActs = []) (run : s.call hash (.step i) = some s')
    (none : ∀ x y, ¬ ({ s.sc with shapes := s'.sc.shapes } : Scene ℝ).MustTest x y) (blank : ∀ k, (s.arbs k).contacts = [])
    (apart : ∀ x y, s.sc.sp.pairSt x y = .apart) : (∀ k, (s'.arbs k).contacts = []) ∧ ∀ x y, s'.sc.sp.pairSt x y = .apart := by
  have k := h.ok
  obtain ⟨found, arbs, w, start, mid, sp, w', T, f1, hs', e1, e2, e3, e4⟩ := step_ok k hdt ok run
  have hsh : s'.sc.shapes = s.placed (Motion.move s.mo.bodies i.dt s.sc.sp.dynamicBodies) := funext fun x => (step_shapes k hdt ok run x).1
  have hbp : (s.ready i.dt).broadPhase i.answer = some (w, found.map Prod.fst) := by
    rw [Scene.broadPhase_search, T.search]; rfl
  obtain ⟨w2, l2, b2, only, cnt⟩ := C53_only k.scene (s.placed (Motion.move s.mo.bodies i.dt s.sc.sp.dynamicBodies)) _ i.answer e3.1
  have b2' := hbp.symm.trans b2
  cases b2'
  have hf : found.map Prod.fst = [] := by
    rw [List.eq_nil_iff_forall_not_mem]
    intro d hd
    refine none d.a d.b ?_
    have : (s.ready i.dt).MustTest d.a d.b := (only d.a d.b).2 (by
      rw [testCount, ne_eq, List.countP_eq_zero]
      push Not
      exact ⟨d, hd, by simp⟩)
    rw [hsh]
    exact ⟨this.1, this.2, this.3, this.4, this.5, this.6, this.7⟩
  have hf' : found = [] := by simpa using hf
  have ha : arbs = s.arbs := by
    obtain ⟨t, e⟩ := T.touch
    rw [hf'] at e
    simp only [List.foldlM_nil] at e
    cases e; rfl
  constructor
  · intro z
    rw [hs']
    refine run_blank _ _ (fun j => ?_) z
    simp only [EngineIn.tick, SimIn.engine, ha]
    exact blank j
  · have hsp : s'.sc.sp = sp := by rw [hs']; rfl
    obtain ⟨r, -⟩ := k.eng.good
    have r : Sp.Reach s.sc.sp := r
    have st := T.stepOk
    have oks : Sp.StepOk s.sc.sp ((SimIn.engine i (found.map Prod.fst) arbs).acts (Motion.move s.mo.bodies i.dt s.sc.sp.dynamicBodies)) := ⟨st.pos, st.pairs, st.once⟩
    obtain ⟨new, -, w⟩ := C23_step r (i := (SimIn.engine i (found.map Prod.fst) arbs).acts (Motion.move s.mo.bodies i.dt s.sc.sp.dynamicBodies)) hdt oks quiet.1 quiet.2
    have ea : s.sc.sp.after (.step ((SimIn.engine i (found.map Prod.fst) arbs).acts (Motion.move s.mo.bodies i.dt s.sc.sp.dynamicBodies))) = sp := by
      refine Sp.after_eq ?_
      show s.sc.sp.step _ = some sp
      rw [Sp.half_finish _ _ hdt]
      exact Option.bind_eq_some_iff.2 ⟨mid, T.half, T.finish⟩
    intro x y
    have := congrArg Prod.snd (w x y)
    rw [ea] at this
    rw [hsp]
    simp only [Sp.StepIn.contact, EngineIn.acts, SimIn.engine, hf, List.find?_nil, apart] at this
    exact this

/-- The ball and the floor, with the material `m`. -/
structure Hall (s : Sim ℝ) (m : Surface ℝ) : Prop where
  reach : s.Reach id
  inn : ∀ o, o = 0 ∨ o = 1 → (s.sc.sp.shapes o).inSpace = true ∧ (s.sc.sp.shapes o).body = o ∧ s.InPlace o
  awake : s.engine.awake 1
  typ : s.sc.sp.typ 1 = .dynamic ∧ s.sc.sp.typ 0 = .static
  only : ∀ o, (s.sc.sp.shapes o).inSpace = true → o = 0 ∨ o = 1
  floor : s.mo.bodies 0 = groundBody
  ball : (s.mo.bodies 1).m = 1 ∧ (s.mo.bodies 1).m_inv = 1 ∧ (s.mo.bodies 1).i = 1 ∧ (s.mo.bodies 1).i_inv = 1 ∧ (s.mo.bodies 1).cog = ⟨0, 0⟩ ∧ (s.mo.bodies 1).idle = 0
  cls : ∀ o, ThrownCls o (s.sc.shapes o).shp.cls
  fil : ∀ o, (s.sc.shapes o).filter = ShapeFilter.all
  cons : ∀ c, (s.sc.sp.cons c).inSpace = false
  surf : s.surf = fun _ => m
  sensor : ∀ o, (s.sc.sp.shapes o).sensor = false

theorem Hall.size {s : Sim ℝ} {m : Surface ℝ} (H : Hall s m) : s.sc.size ≤ 2 := by
  obtain ⟨n1, n2, k1, k2⟩ := shape_lists H.reach.ok.eng.good.1
  have hn : (s.sc.sp.dynamicShapes ++ s.sc.sp.staticShapes).Nodup := by
    rw [List.nodup_append]
    exact ⟨n1, n2, fun x hx y hy e => lists_disjoint H.reach.ok.eng.good.1 x hx (e ▸ hy)⟩
  refine (List.subperm_of_subset hn (l₂ := [0, 1]) fun x hx => ?_).length_le
  have : (s.sc.sp.shapes x).inSpace = true := by
    rcases List.mem_append.1 hx with hx | hx
    · exact ((k1 x).1 hx).1
    · exact ((k2 x).1 hx).1
  rcases H.only x this with rfl | rfl <;> simp

/-- Where a step moves the ball. -/
noncomputable def hallNext (s : Sim ℝ) : Vec ℝ := (s.mo.bodies 1).p.add ((s.mo.bodies 1).v.add (s.mo.bodies 1).v_bias)

/-- The same with damping. -/
noncomputable def syrupIn (g d : ℝ) : SimIn ℝ := { thrownIn g with damping := d }

theorem syrup_ok {s : Sim ℝ} {g d : ℝ} : (Sim.Call.step (syrupIn g d)).Allowed s := thrown_ok (s := s) (g := g)

/-- A step, as long as the ball is fast. -/
theorem Hall.next {s : Sim ℝ} {m : Surface ℝ} (H : Hall s m) {g : ℝ} (d : ℝ) (fast : g * g < (s.mo.bodies 1).v.x * (s.mo.bodies 1).v.x + (s.mo.bodies 1).v.y * (s.mo.bodies 1).v.y) :
    ∃ s' : Sim ℝ, s.call id (.step (syrupIn g d)) = some s' ∧ Hall s' m ∧ (s'.mo.bodies 1).p = hallNext s ∧ s'.worldPoint 1 ⟨0, 0⟩ = hallNext s ∧
      (∀ p, s'.worldPoint 0 p = p) ∧ (s'.sc.shapes 1).shp.bb = BB.forCircle (hallNext s) 1 ∧ (s'.sc.shapes 0).shp.bb.t ≤ 0 := by
  have hr := H.reach
  obtain ⟨s', run, hr'⟩ := C64_no_panic hr (.step (syrupIn g d)) syrup_ok (by have := H.size; omega)
  have hdt : (syrupIn g d).dt ≠ 0 := by norm_num [syrupIn, thrownIn, chaseIn]
  have hdt' : 0 < (syrupIn g d).dt := by norm_num [syrupIn, thrownIn, chaseIn]
  have quiet : (∀ y, (syrupIn g d).sepActs y = []) ∧ (syrupIn g d).lateActs = [] := ⟨fun _ => rfl, rfl⟩
  obtain ⟨i1, b1, p1⟩ := H.inn 1 (.inr rfl)
  obtain ⟨i0, b0, p0⟩ := H.inn 0 (.inl rfl)
  have m1 : s.sc.Mobile 1 := ⟨by rw [b1, H.typ.1]; simp, by
    rw [b1, Sp.isSleeping, show (s.sc.sp.bodies 1).root = none from (Engine.awake_iff.1 H.awake).2.2]; rfl⟩
  obtain ⟨e, x1, x2, x3, x4, -, -, x5, x6, x7, x8, x9, -⟩ := C64_tests hr hdt syrup_ok run
  obtain ⟨c1, c2, c3, c4, c5, c6⟩ := H.ball
  have na : ¬ s'.engine.asleep 1 := by
    refine C63_restless hr.ok.eng (by rw [x1]; exact hdt) x8 x9 H.awake H.typ.1 ?_
    rw [x1]
    have : e.restless = (SimIn.engine (syrupIn g d) [] s.arbs).restless := by
      funext b
      simp only [EngineIn.restless, x1, x2, x5, SimIn.engine]
      rfl
    rw [this, show s.engine.mo = s.mo from rfl]
    have hv : (s.mo.bodies 1).v.x * (s.mo.bodies 1).v.x + (s.mo.bodies 1).v.y * (s.mo.bodies 1).v.y ≠ 0 := by nlinarith [mul_self_nonneg g]
    simp [EngineIn.restless, SimIn.engine, syrupIn, thrownIn, chaseIn, Body.kineticEnergy, Body.updatePosition, Body.setTransform, Vec.dot, Vec.lengthSq, c1, c3, hv]
    split_ifs <;> nlinarith [mul_self_nonneg g, mul_self_nonneg (s.mo.bodies 1).w]
  obtain ⟨f0, -⟩ := floor_stays hr hdt' syrup_ok run ⟨H.typ.2, by rw [H.floor]; exact ⟨rfl, rfl⟩⟩
  have mv : s.movedPos (syrupIn g d).dt 1 = (s.mo.bodies 1).updatePosition 1 := movedPos_awake hr.ok.eng _ H.awake
  have e1 : (s'.mo.bodies 1).p = hallNext s := by
    refine (step_centre hr.ok hdt x1 x8 x9 1).trans ?_
    rw [show Motion.move s.mo.bodies (syrupIn g d).dt s.sc.sp.dynamicBodies 1 = (s.mo.bodies 1).updatePosition 1 from mv]
    simp [hallNext, Body.updatePosition, Body.setTransform, Vec.add, Vec.mult]
  have w1 : s'.worldPoint 1 ⟨0, 0⟩ = hallNext s := by
    simp only [worldPoint, Body.localToWorld, ((step_shapes hr.ok hdt syrup_ok run 1).2.2.2 1).1, mv]
    simp [hallNext, Body.updatePosition, Body.setTransform, Transform.point, Vec.add, Vec.mult, c5]
    try exact ⟨rfl, rfl⟩
  have w0 : ∀ p, s'.worldPoint 0 p = p := by
    intro p
    simp only [worldPoint, Body.localToWorld, f0, H.floor]
    simp [groundBody, Transform.point]
  obtain ⟨mid, K⟩ := Engine.step_mid hr.ok.eng (by rw [x1]; exact hdt) x8 x9
  obtain ⟨t, hmo, -, t1, t2, t3, -, -, -, mvN, mvm, -⟩ := C64_step hr hdt syrup_ok quiet run
  have froz := tick_frozen s.mo t (by rw [t1]; exact hdt) 1
  rw [← hmo, Motion.seen, move_apply t.dt t.movers mvN, if_pos ((mvm 1).2 H.awake)] at froz
  have cls' : ∀ o, ThrownCls o (s'.sc.shapes o).shp.cls := by
    intro o
    rw [(step_shapes hr.ok hdt syrup_ok run o).1]
    simp only [placed]
    split
    · exact (H.cls o).cache _
    · exact H.cls o
  refine ⟨s', run, ⟨hr', ?_, ?_, ⟨(K.keep.typ 1).trans H.typ.1, (K.keep.typ 0).trans H.typ.2⟩, ?_, f0.trans H.floor, ?_, cls', ?_, ?_, ?_, ?_⟩, e1, w1, w0, ?_, ?_⟩
  · intro o ho
    obtain ⟨j1, j2, j3⟩ := H.inn o ho
    obtain ⟨-, u1, u2, -⟩ := step_shapes hr.ok hdt syrup_ok run o
    refine ⟨u2.trans j1, u1.trans j2, C64_after_step hr hdt syrup_ok run (fun z hz _ => (H.inn z (H.only z hz)).2.2) o (u2.trans j1)⟩
  · refine ⟨(K.keep.inSpace 1).trans H.awake.1, ?_, na⟩
    rw [show s'.engine.sp.typ 1 = s.engine.sp.typ 1 from K.keep.typ 1]; exact H.awake.2.1
  · intro o ho
    rw [(step_shapes hr.ok hdt syrup_ok run o).2.2.1] at ho
    exact H.only o ho
  · exact ⟨froz.m.trans c1, froz.m_inv.trans c2, froz.i.trans c3, froz.i_inv.trans c4, froz.cog.trans c5, froz.idle.trans c6⟩
  · intro o
    rw [step_filters hr hdt syrup_ok run, H.fil]
  · intro c
    rw [show s'.sc.sp.cons = s.sc.sp.cons from K.keep.cons]; exact H.cons c
  · obtain ⟨found, arbs, w, start, mid, sp, w', T, f1, hs', -⟩ := step_ok hr.ok hdt syrup_ok run
    rw [hs']; exact H.surf
  · intro o
    exact (K.keep.shapeBody o).2.trans (H.sensor o)
  · obtain ⟨rot, e⟩ := placed_spec hr.ok hdt syrup_ok run i1 (.inl m1)
    rw [e, b1]
    show (Coll.Cls.cacheData (s.sc.shapes 1).shp.cls _).2 = _
    obtain ⟨tc, q1⟩ := (H.cls 1).1 rfl
    rw [q1]
    show BB.forCircle (s'.worldPoint 1 ⟨0, 0⟩) 1 = _
    rw [w1]
  · obtain ⟨rot, e⟩ := placed_spec hr.ok hdt syrup_ok run i0 (.inr p0)
    rw [e, b0]
    show (Coll.Cls.cacheData (s.sc.shapes 0).shp.cls _).2.t ≤ 0
    obtain ⟨ta, tb, tn, q0⟩ := (H.cls 0).2 (by decide)
    rw [q0]
    have k1 := w0 ⟨-10, 0⟩
    have k2 := w0 ⟨10, 0⟩
    simp only [worldPoint, Body.localToWorld] at k1 k2
    simp only [Coll.Cls.cacheData, Segment.cacheData, groundSeg, k1, k2]
    norm_num

/-- Where the ball is above the floor it touches nothing. -/
theorem Hall.nothing {s s' : Sim ℝ} {m : Surface ℝ} (H : Hall s m) {p : Vec ℝ} (b1 : (s'.sc.shapes 1).shp.bb = BB.forCircle p 1) (b0 : (s'.sc.shapes 0).shp.bb.t ≤ 0) (hp : 1 < p.y) :
    s.Untouched s' 1 ∧ ∀ x y, ¬ ({ s.sc with shapes := s'.sc.shapes } : Scene ℝ).MustTest x y := by
  have off : (s'.sc.shapes 1).shp.bb.intersects (s'.sc.shapes 0).shp.bb = false := by
    rw [b1]
    simp only [BB.intersects, BB.forCircle, BB.forExtents, Bool.and_eq_false_iff, decide_eq_false_iff_not]
    have : ¬ p.y - 1 ≤ (s'.sc.shapes 0).shp.bb.t := by linarith
    exact .inl (.inr (decide_eq_false this))
  have off' : (s'.sc.shapes 0).shp.bb.intersects (s'.sc.shapes 1).shp.bb = false := by rw [BB.intersects_comm]; exact off
  constructor
  · intro x y hx hy hbx hby
    rcases H.only x hx with rfl | rfl <;> rcases H.only y hy with rfl | rfl
    · exact absurd hbx hby
    · rw [(H.inn 0 (.inl rfl)).2.1] at hbx; cases hbx
    · exact .inr (.inl off)
    · exact absurd hbx hby
  · intro x y T
    rcases H.only x T.inX with rfl | rfl <;> rcases H.only y T.inY with rfl | rfl
    · exact T.bodies rfl
    · have := T.boxes; rw [off'] at this; cases this
    · have := T.boxes; rw [off] at this; cases this
    · exact T.bodies rfl

/-- Where the ball comes to the floor it lands. -/
theorem Hall.lands {s s' : Sim ℝ} {m : Surface ℝ} {g : ℝ} (H : Hall s m) (H' : Hall s' m) (blank : ∀ k, (s.arbs k).contacts = []) (apart : s.sc.sp.pairSt 1 0 = .apart)
    {p : Vec ℝ} (e1 : (s'.mo.bodies 1).p = p) (w1 : s'.worldPoint 1 ⟨0, 0⟩ = p) (w0 : ∀ p, s'.worldPoint 0 p = p) (h1 : 0 < p.y) (h2 : p.y < 1) (h3 : -10 ≤ p.x) (h4 : p.x ≤ 10) :
    ∃ (cx : Circle ℝ) (sy : Segment ℝ), Landing s s' (thrownIn g) 1 0 cx sy ⟨p.x, 0⟩ ∧ cx.r = 1 ∧ sy.r = 0 ∧ s'.up 1 ⟨p.x, 0⟩ = ⟨0, 1⟩ := by
  obtain ⟨i1, b1, p1⟩ := H.inn 1 (.inr rfl)
  obtain ⟨i0, b0, p0⟩ := H.inn 0 (.inl rfl)
  have m1 : s.sc.Mobile 1 := ⟨by rw [b1, H.typ.1]; simp, by
    rw [b1, Sp.isSleeping, show (s.sc.sp.bodies 1).root = none from (Engine.awake_iff.1 H.awake).2.2]; rfl⟩
  have st : s.sc.sp.typ 0 = .static ∧ Immovable (s.mo.bodies 0) := ⟨H.typ.2, by rw [H.floor]; exact ⟨rfl, rfl⟩⟩
  obtain ⟨c1, c2, c3, c4, c5, c6⟩ := H.ball
  have clear : ∀ b, ClearBut s s' b 1 0 := by
    intro b u w hu hw hbu hbw n1 n2
    exfalso
    rcases H.only u hu with rfl | rfl <;> rcases H.only w hw with rfl | rfl
    · exact hbw hbu
    · exact n2 ⟨rfl, rfl⟩
    · exact n1 ⟨rfl, rfl⟩
    · exact hbw hbu
  have dist : p.distance ⟨p.x, 0⟩ = p.y := by
    simp only [Vec.distance, Vec.sub, Vec.length, Vec.dot]
    rw [show (p.x - p.x) * (p.x - p.x) + (p.y - 0) * (p.y - 0) = p.y * p.y + 0 * 0 by ring, sqrt_axis, abs_of_pos h1]
  obtain ⟨tc, q1⟩ := (H.cls 1).1 rfl
  obtain ⟨ta, tb, tn, q0⟩ := (H.cls 0).2 (by decide)
  refine ⟨_, _, ⟨⟨i1, i0, by rw [b1, b0]; decide, ?_, ⟨m1, by rw [b1]; exact H'.awake.2⟩, .inr p0, ?_, ?_, fun _ => ⟨rfl, rfl⟩,
    by norm_num [thrownIn, chaseIn], ?_, ?_, ?_⟩, q1, q0, by norm_num, by norm_num [groundSeg], ?_, ?_, ?_, ?_, ?_, ?_, .inl ⟨rfl, rfl⟩, ?_, ?_⟩, rfl, rfl, ?_⟩
  · rw [H.fil, H.fil]; decide
  · rw [b1, b0]
    rintro b (rfl | rfl)
    · exact .inr ⟨H.awake.2, (by rintro ⟨c, hc, -⟩; rw [show s.engine.sp = s.sc.sp from rfl, H.cons] at hc; cases hc), clear _⟩
    · exact .inl st.2
  · refine ⟨?_, by rw [apart]; decide, fun p q _ => ⟨rfl, rfl, rfl, rfl⟩⟩
    have : (s.sc.sp.bodies 1).infMass = false := by
      by_contra h
      rw [Bool.not_eq_false] at h
      have := H.typ.1
      simp only [Sp.typ, BodyR.type, h] at this
      split at this <;> simp at this
    simp only [Sp.inert, H.sensor, b1, b0, this, Bool.false_or, Bool.false_and]
  · rw [b1, b0, c2, H.floor]; norm_num [groundBody]
  · rw [b1, b0, c4, H.floor]; norm_num [groundBody]
  · refine .inl fun k _ _ c hc => ?_
    rw [blank] at hc
    cases hc
  · rw [b1, e1]; exact w1
  · rw [b0, w0, w0]
    simp only [groundSeg, ne_eq, Vec.mk.injEq, and_true]
    norm_num
  · rw [b0, w0, w0]
    refine ⟨(p.x + 10) / 20, by linarith, by linarith, ?_⟩
    simp only [groundSeg, Vec.mk.injEq]
    constructor <;> ring
  · rw [b0, w0, w0, b1, e1]
    rintro z ⟨t, -, -, rfl⟩
    simp only [Vec.distance, Vec.length, sqrt_real, Vec.dot, Vec.sub, groundSeg]
    apply Real.sqrt_le_sqrt
    nlinarith [mul_self_nonneg (p.x - (-10 + t * (10 - -10)))]
  · rw [b1, e1, dist]; norm_num [groundSeg]; linarith
  · rw [b1, e1]
    intro h
    have := congrArg Vec.y h
    simp only at this
    linarith
  · rw [b0]; exact st
  · rw [b0, motionless, H.floor]
    exact ⟨rfl, rfl, rfl, rfl⟩
  · simp only [up, e1, dist]
    have : p.y ≠ 0 := by linarith
    simp only [Vec.sub, Vec.mult, sub_self, sub_zero, zero_mul, Vec.mk.injEq, true_and]
    field_simp

theorem thrown_hall (v : Vec ℝ) (m : Surface ℝ) : ∃ s : Sim ℝ, Hall s m ∧ s.mo = thrownMotion v ∧ (∀ k, (s.arbs k).contacts = []) ∧ ∀ x y, s.sc.sp.pairSt x y = .apart := by
  obtain ⟨s, hr, h12, ⟨a1, t1⟩, t0, only, hmo, hcls, hfil, hcons, hsz, hsurf, harbs, htr, hsen⟩ := thrown v m
  refine ⟨s, ⟨hr, h12, a1, ⟨t1, t0⟩, only, by rw [hmo]; rfl, by rw [hmo]; exact ⟨rfl, rfl, rfl, rfl, rfl, rfl⟩, hcls, hfil, hcons, hsurf, hsen⟩, hmo, fun k => by rw [harbs]; rfl, fun x y => ?_⟩
  have := C23_state hr.ok.eng.good.1 x y
  rw [show s.engine.sp.trace = [] from htr] at this
  simp only [proto_nil, Option.some.injEq] at this
  by_contra h
  rw [show s.engine.sp = s.sc.sp from rfl] at this
  simp [h] at this

/-- C67_drop and C67_comes_back apply: a ball thrown forward with speed 2 from height 2 under gravity 6/5 falls for a step, lands in the second one at depth 1/5, and comes back
in the third one to height 2 and what the floor has pushed it out. -/
theorem thrown_back : ∃ (ss : Nat → Sim ℝ) (cx : Circle ℝ) (sy : Segment ℝ), Dropped 1 1 id ss (fun _ => thrownIn (6 / 5)) 1 ⟨0, -(6 / 5)⟩ 1 0 1 cx sy ⟨4, 0⟩ ⟨0, 1⟩ ∧
    ((ss 1).surf 1).e * ((ss 1).surf 0).e = 1 ∧ (ss 0).height 1 ⟨0, 1⟩ = 2 ∧ (ss 3).height 1 ⟨0, 1⟩ = 2 + 1 / 5 := by
  have hdt : (thrownIn (6 / 5)).dt = 1 := rfl
  have hdt' : 0 < (thrownIn (6 / 5)).dt := by rw [hdt]; norm_num
  have quiet : (∀ y, (thrownIn (6 / 5)).sepActs y = []) ∧ (thrownIn (6 / 5)).lateActs = [] := ⟨fun _ => rfl, rfl⟩
  have free : ∀ {s : Sim ℝ} {m}, Hall s m → ¬ s.engine.joined 1 := fun H => by
    rintro ⟨c, hc, -⟩
    rw [show Sim.engine _ = (⟨_, _⟩ : Engine ℝ) from rfl, H.cons] at hc; cases hc
  have dyn : ∀ {s : Sim ℝ} {m}, Hall s m → (s.mo.bodies 1).type = .dynamic := fun H => by
    have k1 : (1 : ℝ) ≠ maxFloat := one_lt_maxFloat.ne
    have k2 : (0 : ℝ) ≠ maxFloat := maxFloat_pos.ne
    simp [Body.type, H.ball.1, H.ball.2.2.2.2.2, k1, k2]
  -- the fall
  obtain ⟨s0, H0, mo0, bl0, ap0⟩ := thrown_hall ⟨2, 0⟩ ⟨1, 0, ⟨0, 0⟩⟩
  have p0 : (s0.mo.bodies 1).p = ⟨0, 2⟩ ∧ (s0.mo.bodies 1).v = ⟨2, 0⟩ ∧ (s0.mo.bodies 1).v_bias = ⟨0, 0⟩ ∧ (s0.mo.bodies 1).f = ⟨0, 0⟩ ∧ (s0.mo.bodies 1).t = 0 := by
    rw [mo0]; exact ⟨rfl, rfl, rfl, rfl, rfl⟩
  obtain ⟨s1, run0, H1, e1, -, -, bb1, bb0⟩ := H0.next (g := 6 / 5) 1 (by rw [p0.2.1]; norm_num)
  have n0 : hallNext s0 = ⟨2, 2⟩ := by simp [hallNext, p0, Vec.add]
  rw [n0] at e1 bb1
  obtain ⟨un0, not0⟩ := H0.nothing bb1 bb0 (by norm_num)
  obtain ⟨bl1, ap1⟩ := step_nothing H0.reach hdt'.ne' thrown_ok quiet run0 not0 bl0 ap0
  have F0 : Flying 1 id (fun n => if n = 0 then s0 else s1) (fun _ => thrownIn (6 / 5)) 1 1 ⟨0, -(6 / 5)⟩ 1 := by
    refine ⟨H0.reach, fun _ _ => thrown_ok, fun _ _ => quiet, ?_, fun _ _ => ⟨rfl, rfl, rfl⟩, dyn H0, ?_, ?_, ?_⟩
    · intro n hn
      obtain rfl : n = 0 := by omega
      exact run0
    · intro n hn
      rcases Nat.le_one_iff_eq_zero_or_eq_one.1 hn with rfl | rfl
      · exact H0.awake
      · exact H1.awake
    · intro n hn
      obtain rfl : n = 0 := by omega
      exact free H0
    · intro n hn
      obtain rfl : n = 0 := by omega
      exact un0
  have v1 : (s1.mo.bodies 1).v = ⟨2, -(6 / 5)⟩ := by
    have := (C67_flight F0 one_ne_zero 1 le_rfl le_rfl).1
    rw [show (if (1 : Nat) = 0 then s0 else s1) = s1 from rfl, show (if (0 : Nat) = 0 then s0 else s1) = s0 from rfl, p0.2.1, p0.2.2.2.1] at this
    rw [this]
    simp [Vec.add, Vec.mult]
  obtain ⟨-, -, vb1, -⟩ := F0.after one_ne_zero 1 le_rfl le_rfl
  -- the landing
  obtain ⟨s2, run1, H2, e2, w1, w0, -⟩ := H1.next (g := 6 / 5) 1 (by rw [v1]; norm_num)
  have n1 : hallNext s1 = ⟨4, 4 / 5⟩ := by
    rw [hallNext, e1, v1, show (s1.mo.bodies 1).v_bias = ⟨0, 0⟩ from vb1]
    simp only [Vec.add]; norm_num
  rw [n1] at e2 w1
  obtain ⟨cx, sy, E, r1, r2, hup⟩ := H1.lands H2 bl1 (ap1 1 0) e2 w1 w0 (by norm_num) (by norm_num) (by norm_num) (by norm_num)
  have b1 : (s1.sc.sp.shapes 1).body = 1 := (H1.inn 1 (.inr rfl)).2.1
  obtain ⟨-, J, T, -, hT, k1, -⟩ := C66_landing H1.reach hdt' thrown_ok quiet run1 E
  have B := C66_bounce H1.reach hdt' thrown_ok quiet run1 E
  obtain ⟨V, -⟩ := C67_push H1.reach hdt' thrown_ok quiet run1 E (.inl (by rw [b1]; exact H1.awake)) (by norm_num [thrownIn, chaseIn])
  have fv : s1.freeVel s2 (thrownIn (6 / 5)) 1 = ⟨2, -(12 / 5)⟩ := by
    have hty : (s1.mo.bodies 1).type ≠ .kinematic := by rw [dyn H1]; decide
    have f1 := (F0.after one_ne_zero 1 le_rfl le_rfl).2.1.1
    rw [show (if (1 : Nat) = 0 then s0 else s1) = s1 from rfl] at f1
    have one : (1 : ℝ) ^ (1 : ℝ) = 1 := Real.one_rpow 1
    simp only [freeVel, if_pos H2.awake, Body.updateVelocity, if_neg hty, v1, f1]
    simp only [thrownIn, chaseIn, one, Vec.add, Vec.mult]
    norm_num
  have su : s1.surf 1 = ⟨1, 0, ⟨0, 0⟩⟩ ∧ s1.surf 0 = ⟨1, 0, ⟨0, 0⟩⟩ := by rw [H1.surf]; exact ⟨rfl, rfl⟩
  have vel1 : s1.velocity 1 = ⟨2, -(6 / 5)⟩ := v1
  have T0 : T = 0 := by
    rw [hT, su.1, su.2]
    have : ∀ X : ℝ, clamp X 0 0 = 0 := fun X => by
      simp only [clamp]
      split_ifs with h
      · exact min_eq_right h.le
      · exact min_self _
    simp only [zero_mul, mul_zero, neg_zero]
    exact this _
  have v2 : (s2.mo.bodies 1).v = ⟨2, 6 / 5⟩ := by
    dsimp only at B
    rw [b1, hup, fv, su.1, su.2, vel1] at B
    rw [b1, hup, fv, T0, H1.ball.2.1] at k1
    have kk : (s2.mo.bodies 1).v = _ := k1
    have ky : (s2.mo.bodies 1).v.y = 6 / 5 := by
      have : ((s2.mo.bodies 1).v).dot ⟨0, 1⟩ = max _ _ := B
      simp only [Vec.dot] at this
      norm_num at this
      exact this
    have kx : (s2.mo.bodies 1).v.x = 2 := by
      rw [kk]; simp [Vec.add, Vec.mult, Vec.perp]
    ext
    · exact kx
    · exact ky
  have depth : s2.depth 1 ⟨0, 1⟩ ⟨4, 0⟩ cx.r sy.r = 1 / 5 := by
    rw [Sim.depth, e2, r1, r2]; norm_num [Vec.dot, Vec.sub]
  have vb2 : (s2.mo.bodies 1).v_bias = ⟨0, 1 / 5⟩ := by
    rw [b1, hup] at V
    have d : s2.depth 1 ⟨0, 1⟩ ⟨(⟨4, 4 / 5⟩ : Vec ℝ).x, 0⟩ cx.r sy.r = 1 / 5 := depth
    rw [d] at V
    rw [V]
    norm_num [thrownIn, chaseIn, Vec.mult]
  -- the way back
  obtain ⟨s3, run2, H3, e3, -, -, bb3, bb0'⟩ := H2.next (g := 6 / 5) 1 (by rw [v2]; norm_num)
  have n2 : hallNext s2 = ⟨6, 11 / 5⟩ := by
    rw [hallNext, e2, v2, vb2]
    simp only [Vec.add]; norm_num
  rw [n2] at e3 bb3
  obtain ⟨un2, -⟩ := H2.nothing bb3 bb0' (by norm_num)
  obtain ⟨ss, hss⟩ : ∃ ss : Nat → Sim ℝ, ss = fun n => if n = 0 then s0 else if n = 1 then s1 else if n = 2 then s2 else s3 := ⟨_, rfl⟩
  have q0 : ss 0 = s0 := by rw [hss]; rfl
  have q1 : ss 1 = s1 := by rw [hss]; rfl
  have q2 : ss 2 = s2 := by rw [hss]; rfl
  have q3 : ss 3 = s3 := by rw [hss]; rfl
  have D : Dropped 1 1 id ss (fun _ => thrownIn (6 / 5)) 1 ⟨0, -(6 / 5)⟩ 1 0 1 cx sy ⟨4, 0⟩ ⟨0, 1⟩ := by
    refine ⟨⟨by rw [q0]; exact H0.reach, fun _ _ => thrown_ok, fun _ _ => quiet, ?_, fun _ _ => ⟨rfl, rfl, rfl⟩, by rw [q0]; exact dyn H0, ?_, ?_, ?_⟩, ?_, ?_, thrown_ok, quiet, ?_,
      ⟨rfl, rfl, rfl⟩, by rw [q1]; exact b1, by rw [q1, q2]; exact E, by rw [q2]; exact hup,
      ⟨by rw [show ss (1 + 1 + 0) = s2 from q2]; exact H2.reach, fun _ _ => thrown_ok, fun _ _ => quiet, ?_, fun _ _ => ⟨rfl, rfl, rfl⟩, by rw [show ss (1 + 1 + 0) = s2 from q2]; exact dyn H2, ?_, ?_, ?_⟩⟩
    · intro n hn
      obtain rfl : n = 0 := by omega
      rw [q0, q1]; exact run0
    · intro n hn
      rcases Nat.le_one_iff_eq_zero_or_eq_one.1 hn with rfl | rfl
      · rw [q0]; exact H0.awake
      · rw [q1]; exact H1.awake
    · intro n hn
      obtain rfl : n = 0 := by omega
      rw [q0]; exact free H0
    · intro n hn
      obtain rfl : n = 0 := by omega
      rw [q0, q1]; exact un0
    · rw [q0, p0.2.1, p0.2.2.1]; norm_num [Vec.dot]
    · rw [q0]; exact p0.2.2.2
    · rw [q1, show ss (1 + 1) = s2 from q2]; exact run1
    · intro n hn
      obtain rfl : n = 0 := by omega
      rw [show ss (1 + 1 + 0) = s2 from q2, show ss (1 + 1 + (0 + 1)) = s3 from q3]; exact run2
    · intro n hn
      rcases Nat.le_one_iff_eq_zero_or_eq_one.1 hn with rfl | rfl
      · rw [show ss (1 + 1 + 0) = s2 from q2]; exact H2.awake
      · rw [show ss (1 + 1 + 1) = s3 from q3]; exact H3.awake
    · intro n hn
      obtain rfl : n = 0 := by omega
      rw [show ss (1 + 1 + 0) = s2 from q2]; exact free H2
    · intro n hn
      obtain rfl : n = 0 := by omega
      rw [show ss (1 + 1 + 0) = s2 from q2, show ss (1 + 1 + (0 + 1)) = s3 from q3]; exact un2
  have el : ((ss 1).surf 1).e * ((ss 1).surf 0).e = 1 := by rw [q1, su.1, su.2]; norm_num
  have h0 : (ss 0).height 1 ⟨0, 1⟩ = 2 := by rw [q0, height, p0.1]; norm_num [Vec.dot]
  refine ⟨ss, cx, sy, D, el, h0, ?_⟩
  have := C67_comes_back D one_pos (by norm_num [Vec.dot]) el (by norm_num [thrownIn, chaseIn]) le_rfl le_rfl
  rw [h0, q2, depth] at this
  refine Eq.trans (b := (ss (1 + 1 + 1)).height 1 ⟨0, 1⟩) rfl (this.trans ?_)
  norm_num [thrownIn, chaseIn]

/-- C67_damped applies: where half of the velocity is lost in a step, the same ball comes halfway closer to the terminal velocity `(0, -12/5)` in its first step. -/
theorem syrup_flight : ∃ ss : Nat → Sim ℝ, Flying 1 id ss (fun _ => syrupIn (6 / 5) (1 / 2)) 1 (1 / 2) ⟨0, -(6 / 5)⟩ 1 ∧
    ((ss 0).mo.bodies 1).v = ⟨2, 0⟩ ∧ ((ss 1).mo.bodies 1).v = ⟨1, -(6 / 5)⟩ := by
  obtain ⟨s0, H0, mo0, bl0, ap0⟩ := thrown_hall ⟨2, 0⟩ ⟨1, 0, ⟨0, 0⟩⟩
  have p0 : (s0.mo.bodies 1).p = ⟨0, 2⟩ ∧ (s0.mo.bodies 1).v = ⟨2, 0⟩ ∧ (s0.mo.bodies 1).v_bias = ⟨0, 0⟩ ∧ (s0.mo.bodies 1).f = ⟨0, 0⟩ := by
    rw [mo0]; exact ⟨rfl, rfl, rfl, rfl⟩
  obtain ⟨s1, run0, H1, e1, -, -, bb1, bb0⟩ := H0.next (g := 6 / 5) (1 / 2) (by rw [p0.2.1]; norm_num)
  have n0 : hallNext s0 = ⟨2, 2⟩ := by simp [hallNext, p0, Vec.add]
  rw [n0] at bb1
  have F0 : Flying 1 id (fun n => if n = 0 then s0 else s1) (fun _ => syrupIn (6 / 5) (1 / 2)) 1 (1 / 2) ⟨0, -(6 / 5)⟩ 1 := by
    refine ⟨H0.reach, fun _ _ => syrup_ok, fun _ _ => ⟨fun _ => rfl, rfl⟩, ?_, fun _ _ => ⟨rfl, rfl, rfl⟩, ?_, ?_, ?_, ?_⟩
    · intro n hn
      obtain rfl : n = 0 := by omega
      exact run0
    · have k1 : (1 : ℝ) ≠ maxFloat := one_lt_maxFloat.ne
      have k2 : (0 : ℝ) ≠ maxFloat := maxFloat_pos.ne
      simp [Body.type, H0.ball.1, H0.ball.2.2.2.2.2, k1, k2]
    · intro n hn
      rcases Nat.le_one_iff_eq_zero_or_eq_one.1 hn with rfl | rfl
      · exact H0.awake
      · exact H1.awake
    · intro n hn
      obtain rfl : n = 0 := by omega
      rintro ⟨c, hc, -⟩
      have := H0.cons c
      rw [show s0.sc.sp = s0.engine.sp from rfl] at this
      exact absurd (show (s0.engine.sp.cons c).inSpace = true from hc) (by rw [this]; simp)
    · intro n hn
      obtain rfl : n = 0 := by omega
      exact (H0.nothing bb1 bb0 (by norm_num)).1
  refine ⟨_, F0, p0.2.1, ?_⟩
  obtain ⟨k, -⟩ := C67_damped F0 one_ne_zero (by norm_num) 1 le_rfl le_rfl
  rw [show (if (1 : Nat) = 0 then s0 else s1) = s1 from rfl, show (if (0 : Nat) = 0 then s0 else s1) = s0 from rfl, p0.2.1, p0.2.2.2] at k
  simp only [Vec.sub, Vec.mult, Vec.add, Vec.mk.injEq] at k
  norm_num at k
  show (s1.mo.bodies 1).v = _
  ext
  · simp only []; linarith [k.1]
  · simp only []; linarith [k.2]

end CP
