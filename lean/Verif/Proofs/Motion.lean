import Verif.Props.Momentum
import Verif.Spec.Motion

/-! # Proofs: whole steps -/

namespace CP
open GoFloat Finset

/-! ### Pointwise effect of the two integration loops -/

theorem move_apply (dt : ℝ) (movers : List Nat) (hn : movers.Nodup) : ∀ (h : Bodies ℝ) (k : Nat),
    Motion.move h dt movers k = if k ∈ movers then (h k).updatePosition dt else h k := by
  induction movers with
  | nil => intro h k; simp [Motion.move]
  | cons d l ih =>
    intro h k
    obtain ⟨hd, hn⟩ := List.nodup_cons.mp hn
    have : Motion.move h dt (d :: l) = Motion.move (h.set d ((h d).updatePosition dt)) dt l := rfl
    rw [this, ih hn]
    by_cases hk : k = d
    · subst hk
      simp [hd, Bodies.set]
    · simp [hk, Bodies.set]

theorem integrate_apply (g : Vec ℝ) (d dt : ℝ) (dyn : List Nat) (hn : dyn.Nodup) :
    ∀ (s : Solver ℝ),
    let s' := s.run (dyn.map fun k => SolverOp.integrate k g d dt)
    (∀ k, s'.bodies k = if k ∈ dyn then (s.bodies k).updateVelocity g d dt else s.bodies k) ∧
    s'.joints = s.joints ∧ s'.arbs = s.arbs := by
  induction dyn with
  | nil => intro s; simp [Solver.run]
  | cons x l ih =>
    intro s
    obtain ⟨hx, hn⟩ := List.nodup_cons.mp hn
    obtain ⟨e1, e2, e3⟩ := ih hn (s.step (.integrate x g d dt))
    refine ⟨fun k => ?_, e2, e3⟩
    have := e1 k
    refine Eq.trans (show _ = _ from this) ?_
    by_cases hk : k = x
    · subst hk
      simp [hx, Solver.step, Bodies.set]
    · simp [hk, Solver.step, Bodies.set]

/-! ### Isolated actions -/

/-- A body in no joint and no arbiter is not changed by the solver's actions. -/
theorem run_apart (k : Nat) (ops : List (SolverOp ℝ)) : ∀ (s : Solver ℝ),
    (∀ op ∈ ops, op.integrated? = none) →
    (∀ op ∈ ops, ∀ j, op.joint? = some j → k ≠ (s.joints j).con.a ∧ k ≠ (s.joints j).con.b) →
    (∀ op ∈ ops, ∀ j, op.arb? = some j → k ≠ (s.arbs j).a ∧ k ≠ (s.arbs j).b) →
    (s.run ops).bodies k = s.bodies k := by
  induction ops with
  | nil => intro s _ _ _; rfl
  | cons op ops ih =>
    intro s hi hj ha
    have hk := step_kicks s op (hi op List.mem_cons_self)
    obtain ⟨c1, c2⟩ := step_con s op
    have e : (s.step op).bodies k = s.bodies k := by
      have hq : ∀ κ, OpQ s op κ → k ≠ κ.a ∧ k ≠ κ.b := by
        rintro κ (⟨j, h1, h2, h3⟩ | ⟨j, h1, h2, h3⟩)
        · rw [h2, h3]; exact hj op List.mem_cons_self j h1
        · rw [h2, h3]; exact ha op List.mem_cons_self j h1
      have aux : ∀ {h h' : Bodies ℝ}, Kicks (OpQ s op) h h' → h' k = h k := by
        intro h h' hk
        induction hk with
        | refl => rfl
        | step _ q hd ih => exact (hd.apart k (hq _ q).1 (hq _ q).2).trans ih
      exact aux hk
    have := ih (s.step op)
      (fun o ho => hi o (List.mem_cons_of_mem _ ho))
      (fun o ho j hj' => by rw [c1]; exact hj o (List.mem_cons_of_mem _ ho) j hj')
      (fun o ho j hj' => by rw [(c2 j).1, (c2 j).2]; exact ha o (List.mem_cons_of_mem _ ho) j hj')
    exact Eq.trans this e

/-! ### The three parts of the solver phase -/

/-- The actions before velocities are integrated. -/
noncomputable def preOps (t : Tick ℝ) : List (SolverOp ℝ) :=
  t.arbs.map (fun k => SolverOp.arbPreStep k t.dt t.slop (1 - t.collisionBias ^ t.dt)) ++
    t.joints.map (fun k => SolverOp.jointPreStep k t.dt)

/-- The actions after velocities are integrated. -/
noncomputable def postOps (t : Tick ℝ) (prev : ℝ) : List (SolverOp ℝ) :=
  t.arbs.map (fun k => SolverOp.arbCached k (if prev ≠ 0 then t.dt / prev else 0)) ++
    (t.joints.map (fun k => SolverOp.jointCached k (if prev ≠ 0 then t.dt / prev else 0)) ++
    (List.replicate t.iterations (t.arbs.map (fun k => SolverOp.arbApply k) ++
      t.joints.map (fun k => SolverOp.jointApply k t.dt))).flatten)

theorem program_split (t : Tick ℝ) (prev : ℝ) :
    Solver.stepProgram t.arbs t.joints t.dyn t.iterations t.dt prev t.slop t.collisionBias t.damping t.gravity =
    preOps t ++ (t.dyn.map (fun k => SolverOp.integrate k t.gravity (t.damping ^ t.dt) t.dt) ++ postOps t prev) := by
  simp only [Solver.stepProgram, pow_real, preOps, postOps, List.append_assoc]

theorem preOps_ops (t : Tick ℝ) : ∀ op ∈ preOps t, op.integrated? = none ∧
    (∀ k, op.joint? = some k → k ∈ t.joints) ∧ (∀ k, op.arb? = some k → k ∈ t.arbs) := by
  intro op hop
  rcases List.mem_append.mp hop with h | h <;> obtain ⟨k, hk, rfl⟩ := List.mem_map.mp h <;>
    simp [SolverOp.integrated?, SolverOp.joint?, SolverOp.arb?, hk]

theorem postOps_ops (t : Tick ℝ) (prev : ℝ) : ∀ op ∈ postOps t prev, op.integrated? = none ∧
    (∀ k, op.joint? = some k → k ∈ t.joints) ∧ (∀ k, op.arb? = some k → k ∈ t.arbs) := by
  intro op hop
  rcases List.mem_append.mp hop with h | h
  · obtain ⟨k, hk, rfl⟩ := List.mem_map.mp h
    simp [SolverOp.integrated?, SolverOp.joint?, SolverOp.arb?, hk]
  · rcases List.mem_append.mp h with h | h
    · obtain ⟨k, hk, rfl⟩ := List.mem_map.mp h
      simp [SolverOp.integrated?, SolverOp.joint?, SolverOp.arb?, hk]
    · obtain ⟨l, hl, hop⟩ := List.mem_flatten.mp h
      obtain ⟨-, rfl⟩ := List.mem_replicate.mp hl
      rcases List.mem_append.mp hop with h | h <;> obtain ⟨k, hk, rfl⟩ := List.mem_map.mp h <;>
        simp [SolverOp.integrated?, SolverOp.joint?, SolverOp.arb?, hk]

/-- The solver's state when a step's solver phase starts. -/
noncomputable def startOf (m : Motion ℝ) (t : Tick ℝ) : Solver ℝ :=
  { bodies := Motion.move m.bodies t.dt t.movers, joints := m.joints, arbs := t.contact }

/-- A step as four phases, with what each of them keeps. -/
structure Phases (m : Motion ℝ) (t : Tick ℝ) where
  s1 : Solver ℝ
  s2 : Solver ℝ
  s3 : Solver ℝ
  e1 : s1 = (startOf m t).run (preOps t)
  e2 : s2 = s1.run (t.dyn.map fun k => SolverOp.integrate k t.gravity (t.damping ^ t.dt) t.dt)
  e3 : s3 = s2.run (postOps t m.currDt)
  tick : m.tick t = { bodies := s3.bodies, joints := s3.joints, currDt := t.dt }
  f1 : ∀ k, Frozen ((startOf m t).bodies k) (s1.bodies k) ∧ (s1.bodies k).f = ((startOf m t).bodies k).f
  f3 : ∀ k, Frozen (s2.bodies k) (s3.bodies k) ∧ (s3.bodies k).f = (s2.bodies k).f
  con1 : ∀ k, (s1.joints k).con = (m.joints k).con
  con2 : ∀ k, (s2.joints k).con = (m.joints k).con
  con3 : ∀ k, (s3.joints k).con = (m.joints k).con
  arb2 : ∀ k, (s2.arbs k).a = (t.contact k).a ∧ (s2.arbs k).b = (t.contact k).b
  int : ∀ k, s2.bodies k = if k ∈ t.dyn then (s1.bodies k).updateVelocity t.gravity (t.damping ^ t.dt) t.dt
    else s1.bodies k

theorem phases (m : Motion ℝ) (t : Tick ℝ) (hdt : t.dt ≠ 0) (hn : t.dyn.Nodup) : Nonempty (Phases m t) := by
  obtain ⟨i1, i2, i3⟩ := integrate_apply t.gravity (t.damping ^ t.dt) t.dt t.dyn hn
    ((startOf m t).run (preOps t))
  obtain ⟨c1, c1'⟩ := run_con (startOf m t) (preOps t)
  refine ⟨⟨_, _, _, rfl, rfl, rfl, ?_, run_frozen _ _ fun op hop => (preOps_ops t op hop).1,
    run_frozen _ _ fun op hop => (postOps_ops t _ op hop).1, c1, ?_, ?_, ?_, i1⟩⟩
  · simp only [Motion.tick, if_neg hdt, program_split, solver_run_append, startOf]
  · intro k; rw [i2]; exact c1 k
  · intro k
    rw [(run_con _ _).1 k, i2]; exact c1 k
  · intro k; rw [i3]; exact c1' k


/-! ### A group of bodies as a whole -/

/-- What a history needs of the state it starts in, and keeps. -/
structure Group (S : Finset Nat) (M : ℝ) (m : Motion ℝ) : Prop where
  finite : ∀ k ∈ S, FiniteMass (m.bodies k)
  dynamic : ∀ k ∈ S, (m.bodies k).type = .dynamic
  bias : biasMomentum S m.bodies = ⟨0, 0⟩
  mass : groupMass S m.bodies = M
  joint : ∀ k, Isolates S (m.joints k).con.a (m.joints k).con.b

theorem updatePosition_keeps (b : Body ℝ) (dt : ℝ) :
    (b.updatePosition dt).m = b.m ∧ (b.updatePosition dt).m_inv = b.m_inv ∧
    (b.updatePosition dt).i = b.i ∧ (b.updatePosition dt).i_inv = b.i_inv ∧
    (b.updatePosition dt).idle = b.idle ∧ (b.updatePosition dt).v = b.v ∧
    (b.updatePosition dt).w = b.w ∧ (b.updatePosition dt).f = b.f ∧ (b.updatePosition dt).t = b.t ∧
    (b.updatePosition dt).v_bias = ⟨0, 0⟩ ∧ (b.updatePosition dt).w_bias = 0 ∧
    (b.updatePosition dt).p = b.p.add ((b.v.add b.v_bias).mult dt) ∧
    (b.updatePosition dt).a = b.a + (b.w + b.w_bias) * dt ∧ (b.updatePosition dt).cog = b.cog :=
  ⟨rfl, rfl, rfl, rfl, rfl, rfl, rfl, rfl, rfl, rfl, rfl, rfl, rfl, rfl⟩

theorem type_congr {x y : Body ℝ} (hm : y.m = x.m) (hi : y.idle = x.idle) : y.type = x.type := by
  simp only [Body.type, hm, hi]

theorem finite_congr {x y : Body ℝ} (h1 : y.m = x.m) (h2 : y.m_inv = x.m_inv) (h3 : y.i = x.i)
    (h4 : y.i_inv = x.i_inv) (h : FiniteMass x) : FiniteMass y := by
  simpa only [FiniteMass, h1, h2, h3, h4] using h

theorem tick_group (S : Finset Nat) (M : ℝ) (m : Motion ℝ) (t : Tick ℝ) (hdt : t.dt ≠ 0)
    (hg : Group S M m) (ht : t.Isolated S) :
    Group S M (m.tick t) ∧ whole S (m.tick t).bodies = (whole S m.bodies).act S M (.step t) := by
  obtain ⟨ph⟩ := phases m t hdt ht.dyn
  -- after moving
  have mv : ∀ k ∈ S, (startOf m t).bodies k = (m.bodies k).updatePosition t.dt := by
    intro k hk
    simp only [startOf, move_apply _ _ ht.movers, if_pos (ht.moved k hk)]
  have q0 : ∀ k ∈ S, FiniteMass ((startOf m t).bodies k) := fun k hk => by
    rw [mv k hk]; exact finite_congr rfl rfl rfl rfl (hg.finite k hk)
  have l0 : linearMomentum S (startOf m t).bodies = linearMomentum S m.bodies := by
    ext <;> exact sum_congr rfl fun k hk => by rw [mv k hk]; rfl
  have b0 : biasMomentum S (startOf m t).bodies = ⟨0, 0⟩ := by
    ext <;> exact sum_eq_zero fun k hk => by rw [mv k hk]; exact mul_zero _
  -- before integrating
  obtain ⟨l1, b1⟩ := C15_linear (startOf m t) S (preOps t) q0 (fun op h => (preOps_ops t op h).1)
    (fun op h k hk => hg.joint k) (fun op h k hk => ht.contact k ((preOps_ops t op h).2.2 k hk))
  rw [← ph.e1] at l1 b1
  have k1 : ∀ k ∈ S, (ph.s1.bodies k).m = (m.bodies k).m ∧ (ph.s1.bodies k).m_inv = (m.bodies k).m_inv ∧
      (ph.s1.bodies k).i = (m.bodies k).i ∧ (ph.s1.bodies k).i_inv = (m.bodies k).i_inv ∧
      (ph.s1.bodies k).idle = (m.bodies k).idle ∧ (ph.s1.bodies k).f = (m.bodies k).f ∧
      (ph.s1.bodies k).p = ((m.bodies k).updatePosition t.dt).p := by
    intro k hk
    obtain ⟨fr, ff⟩ := ph.f1 k
    have := mv k hk
    refine ⟨fr.m.trans ?_, fr.m_inv.trans ?_, fr.i.trans ?_, fr.i_inv.trans ?_, fr.idle.trans ?_,
      ff.trans ?_, fr.p.trans ?_⟩ <;> rw [this] <;> rfl
  -- integrated
  have ty : ∀ k ∈ S, (ph.s1.bodies k).type ≠ .kinematic := by
    intro k hk
    rw [type_congr (k1 k hk).1 (k1 k hk).2.2.2.2.1, hg.dynamic k hk]; decide
  have k2 : ∀ k ∈ S, ph.s2.bodies k = { ph.s1.bodies k with
      v := ((ph.s1.bodies k).v.mult (t.damping ^ t.dt)).add
        ((t.gravity.add ((ph.s1.bodies k).f.mult (ph.s1.bodies k).m_inv)).mult t.dt)
      w := (ph.s1.bodies k).w * (t.damping ^ t.dt) + (ph.s1.bodies k).t * (ph.s1.bodies k).i_inv * t.dt
      f := ⟨0, 0⟩
      t := 0 } := by
    intro k hk
    rw [ph.int k, if_pos (ht.driven k hk), Body.updateVelocity, if_neg (ty k hk)]
    rfl
  have q2 : ∀ k ∈ S, FiniteMass (ph.s2.bodies k) := fun k hk => by
    rw [k2 k hk]
    exact finite_congr (k1 k hk).1 (k1 k hk).2.1 (k1 k hk).2.2.1 (k1 k hk).2.2.2.1 (hg.finite k hk)
  have b2 : biasMomentum S ph.s2.bodies = biasMomentum S ph.s1.bodies := by
    ext <;> exact sum_congr rfl fun k hk => by rw [k2 k hk]
  obtain ⟨l3, b3⟩ := C15_linear ph.s2 S (postOps t m.currDt) q2
    (fun op h => (postOps_ops t _ op h).1)
    (fun op h k hk => by rw [ph.con2 k]; exact hg.joint k)
    (fun op h k hk => by
      rw [(ph.arb2 k).1, (ph.arb2 k).2]; exact ht.contact k ((postOps_ops t _ op h).2.2 k hk))
  rw [← ph.e3] at l3 b3
  have k3 : ∀ k ∈ S, (ph.s3.bodies k).m = (m.bodies k).m ∧ (ph.s3.bodies k).m_inv = (m.bodies k).m_inv ∧
      (ph.s3.bodies k).i = (m.bodies k).i ∧ (ph.s3.bodies k).i_inv = (m.bodies k).i_inv ∧
      (ph.s3.bodies k).idle = (m.bodies k).idle ∧ (ph.s3.bodies k).f = ⟨0, 0⟩ ∧
      (ph.s3.bodies k).p = ((m.bodies k).updatePosition t.dt).p := by
    intro k hk
    obtain ⟨fr, ff⟩ := ph.f3 k
    have h2 := k2 k hk
    obtain ⟨a1, a2, a3, a4, a5, a6, a7⟩ := k1 k hk
    refine ⟨fr.m.trans ?_, fr.m_inv.trans ?_, fr.i.trans ?_, fr.i_inv.trans ?_, fr.idle.trans ?_,
      ff.trans ?_, fr.p.trans ?_⟩ <;> rw [h2] <;> assumption
  rw [ph.tick]
  refine ⟨⟨fun k hk => ?_, fun k hk => ?_, ?_, ?_, fun k => ?_⟩, ?_⟩
  · obtain ⟨a1, a2, a3, a4, -⟩ := k3 k hk
    exact finite_congr a1 a2 a3 a4 (hg.finite k hk)
  · obtain ⟨a1, -, -, -, a5, -⟩ := k3 k hk
    rw [← hg.dynamic k hk]; exact type_congr a1 a5
  · show biasMomentum S ph.s3.bodies = _
    rw [b3, b2, b1, b0]
  · rw [← hg.mass]
    exact sum_congr rfl fun k hk => (k3 k hk).1
  · show Isolates S (ph.s3.joints k).con.a (ph.s3.joints k).con.b
    rw [ph.con3 k]; exact hg.joint k
  · -- the three sums
    have bx : ∑ k ∈ S, (m.bodies k).m * (m.bodies k).v_bias.x = 0 := congrArg Vec.x hg.bias
    have b_y : ∑ k ∈ S, (m.bodies k).m * (m.bodies k).v_bias.y = 0 := congrArg Vec.y hg.bias
    have hl : linearMomentum S ph.s3.bodies = ((linearMomentum S m.bodies).mult (t.damping ^ t.dt)).add
        (((t.gravity.mult M).add (whole S m.bodies).force).mult t.dt) := by
      rw [l3, ← l0, ← l1, ← hg.mass]
      ext
      · simp only [linearMomentum, Vec.add, Vec.mult, whole, groupMass]
        simp only [add_mul, mul_sum, sum_mul, ← sum_add_distrib]
        refine sum_congr rfl fun k hk => ?_
        rw [k2 k hk]
        obtain ⟨a1, a2, a3, a4, a5, a6, a7⟩ := k1 k hk
        have := (hg.finite k hk).1
        simp only [Vec.add, Vec.mult, a1, a2, a6]
        linear_combination (m.bodies k).f.x * t.dt * this
      · simp only [linearMomentum, Vec.add, Vec.mult, whole, groupMass]
        simp only [add_mul, mul_sum, sum_mul, ← sum_add_distrib]
        refine sum_congr rfl fun k hk => ?_
        rw [k2 k hk]
        obtain ⟨a1, a2, a3, a4, a5, a6, a7⟩ := k1 k hk
        have := (hg.finite k hk).1
        simp only [Vec.add, Vec.mult, a1, a2, a6]
        linear_combination (m.bodies k).f.y * t.dt * this
    have hp : (whole S ph.s3.bodies).moment = (whole S m.bodies).moment.add
        ((whole S m.bodies).momentum.mult t.dt) := by
      ext
      · simp only [whole, Vec.add, Vec.mult, sum_mul]
        have : ∑ k ∈ S, (m.bodies k).m * (m.bodies k).v_bias.x * t.dt = 0 := by
          rw [← sum_mul, bx, zero_mul]
        rw [← add_zero (∑ k ∈ S, (m.bodies k).m * (m.bodies k).v.x * t.dt), ← this,
          ← sum_add_distrib, ← sum_add_distrib]
        refine sum_congr rfl fun k hk => ?_
        obtain ⟨a1, a2, a3, a4, a5, a6, a7⟩ := k3 k hk
        rw [a1, a7, (updatePosition_keeps _ _).2.2.2.2.2.2.2.2.2.2.2.1]
        simp only [Vec.add, Vec.mult]; ring
      · simp only [whole, Vec.add, Vec.mult, sum_mul]
        have : ∑ k ∈ S, (m.bodies k).m * (m.bodies k).v_bias.y * t.dt = 0 := by
          rw [← sum_mul, b_y, zero_mul]
        rw [← add_zero (∑ k ∈ S, (m.bodies k).m * (m.bodies k).v.y * t.dt), ← this,
          ← sum_add_distrib, ← sum_add_distrib]
        refine sum_congr rfl fun k hk => ?_
        obtain ⟨a1, a2, a3, a4, a5, a6, a7⟩ := k3 k hk
        rw [a1, a7, (updatePosition_keeps _ _).2.2.2.2.2.2.2.2.2.2.2.1]
        simp only [Vec.add, Vec.mult]; ring
    simp only [Whole.act, if_neg hdt]
    refine Whole.ext hp ?_ ?_
    · exact hl
    · ext
      · exact sum_eq_zero fun k hk => by rw [(k3 k hk).2.2.2.2.2.1]
      · exact sum_eq_zero fun k hk => by rw [(k3 k hk).2.2.2.2.2.1]

theorem activate_eq (b : Body ℝ) (h : b.type = .dynamic) : b.activate = { b with idle := 0 } := by
  simp only [Body.activate, h, if_true]

theorem activate_type (b : Body ℝ) : b.activate.type = b.type := by
  by_cases h : b.type = .dynamic
  · rw [activate_eq b h, h]
    have : b.m ≠ maxFloat := by
      intro e
      simp only [Body.type] at h
      split at h
      · cases h
      · cases h
    simp [Body.type, this, maxFloat_pos.ne]
  · simp only [Body.activate, if_neg h]

theorem act_group (S : Finset Nat) (M : ℝ) (m : Motion ℝ) (a : Motion.Act ℝ)
    (hg : Group S M m) (ha : a.Isolated S) :
    Group S M (m.act a) ∧ whole S (m.act a).bodies = (whole S m.bodies).act S M a := by
  cases a with
  | step t =>
    by_cases hdt : t.dt = 0
    · simp only [Motion.act, Motion.tick, hdt, if_true, Whole.act]
      exact ⟨hg, trivial⟩
    · exact tick_group S M m t hdt hg (ha hdt)
  | joint k j =>
    refine ⟨⟨hg.finite, hg.dynamic, hg.bias, hg.mass, fun i => ?_⟩, rfl⟩
    simp only [Motion.act]
    split
    · exact ha
    · exact hg.joint i
  | force k f pt =>
    have hset : ∀ i, (m.act (.force k f pt)).bodies i =
        if i = k then (m.bodies k).applyForceAtWorldPoint f pt else m.bodies i := fun i => by
      simp only [Motion.act, Bodies.set]
    obtain ⟨y, hy⟩ : ∃ y, y = (m.bodies k).applyForceAtWorldPoint f pt := ⟨_, rfl⟩
    have hk : y.m = (m.bodies k).m ∧ y.m_inv = (m.bodies k).m_inv ∧ y.i = (m.bodies k).i ∧
        y.i_inv = (m.bodies k).i_inv ∧ y.type = (m.bodies k).type ∧ y.p = (m.bodies k).p ∧
        y.v = (m.bodies k).v ∧ y.v_bias = (m.bodies k).v_bias ∧ y.f = (m.bodies k).f.add f := by
      have h1 : y.type = (m.bodies k).activate.type := by rw [hy]; rfl
      refine ⟨?_, ?_, ?_, ?_, h1.trans (activate_type _), ?_, ?_, ?_, ?_⟩ <;>
        (rw [hy]; simp only [Body.applyForceAtWorldPoint, Body.activate]; split <;> rfl)
    rw [← hy] at hset
    obtain ⟨e1, e2, e3, e4, e5, e6, e7, e8, e9⟩ := hk
    refine ⟨⟨fun i hi => ?_, fun i hi => ?_, ?_, ?_, hg.joint⟩, ?_⟩
    · rw [hset i]; split
      · subst_vars; exact finite_congr e1 e2 e3 e4 (hg.finite _ hi)
      · exact hg.finite i hi
    · rw [hset i]; split
      · subst_vars; rw [e5]; exact hg.dynamic _ hi
      · exact hg.dynamic i hi
    · rw [← hg.bias]
      ext <;> refine sum_congr rfl fun i _ => ?_ <;> rw [hset i] <;> split <;> first | rfl | (subst_vars; rw [e1, e8])
    · rw [← hg.mass]
      refine sum_congr rfl fun i _ => ?_
      rw [hset i]; split
      · subst_vars; rw [e1]
      · rfl
    · have hm : (whole S (m.act (.force k f pt)).bodies).moment = (whole S m.bodies).moment := by
        ext <;> refine sum_congr rfl fun i _ => ?_ <;> rw [hset i] <;> split <;> first | rfl | (subst_vars; rw [e1, e6])
      have hv : (whole S (m.act (.force k f pt)).bodies).momentum = (whole S m.bodies).momentum := by
        ext <;> refine sum_congr rfl fun i _ => ?_ <;> rw [hset i] <;> split <;> first | rfl | (subst_vars; rw [e1, e7])
      by_cases hkS : k ∈ S
      · have hf : (whole S (m.act (.force k f pt)).bodies).force = (whole S m.bodies).force.add f := by
          ext
          · simp only [whole, Vec.add]
            rw [← add_sum_erase S _ hkS, ← add_sum_erase S (fun i => (m.bodies i).f.x) hkS,
              sum_congr rfl (fun i hi => by rw [hset i, if_neg (ne_of_mem_erase hi)]), hset k, if_pos rfl, e9]
            simp only [Vec.add]; ring
          · simp only [whole, Vec.add]
            rw [← add_sum_erase S _ hkS, ← add_sum_erase S (fun i => (m.bodies i).f.y) hkS,
              sum_congr rfl (fun i hi => by rw [hset i, if_neg (ne_of_mem_erase hi)]), hset k, if_pos rfl, e9]
            simp only [Vec.add]; ring
        simp only [Whole.act, if_pos hkS]
        exact Whole.ext hm hv hf
      · have hf : (whole S (m.act (.force k f pt)).bodies).force = (whole S m.bodies).force := by
          ext <;> refine sum_congr rfl fun i hi => ?_ <;> rw [hset i, if_neg (fun (e : i = k) => hkS (e ▸ hi))]
        simp only [Whole.act, if_neg hkS]
        exact Whole.ext hm hv hf
  | impulse k f pt =>
    have hset : ∀ i, (m.act (.impulse k f pt)).bodies i =
        if i = k then (m.bodies k).applyImpulseAtWorldPoint f pt else m.bodies i := fun i => by
      simp only [Motion.act, Bodies.set]
    obtain ⟨y, hy⟩ : ∃ y, y = (m.bodies k).applyImpulseAtWorldPoint f pt := ⟨_, rfl⟩
    have hk : y.m = (m.bodies k).m ∧ y.m_inv = (m.bodies k).m_inv ∧ y.i = (m.bodies k).i ∧
        y.i_inv = (m.bodies k).i_inv ∧ y.type = (m.bodies k).type ∧ y.p = (m.bodies k).p ∧
        y.f = (m.bodies k).f ∧ y.v_bias = (m.bodies k).v_bias ∧
        y.v = (m.bodies k).v.add (f.mult (m.bodies k).m_inv) := by
      have h1 : y.type = (m.bodies k).activate.type := by rw [hy]; rfl
      refine ⟨?_, ?_, ?_, ?_, h1.trans (activate_type _), ?_, ?_, ?_, ?_⟩ <;>
        (rw [hy]; simp only [Body.applyImpulseAtWorldPoint, Body.applyImpulse, Body.activate]; split <;> rfl)
    rw [← hy] at hset
    obtain ⟨e1, e2, e3, e4, e5, e6, e7, e8, e9⟩ := hk
    refine ⟨⟨fun i hi => ?_, fun i hi => ?_, ?_, ?_, hg.joint⟩, ?_⟩
    · rw [hset i]; split
      · subst_vars; exact finite_congr e1 e2 e3 e4 (hg.finite _ hi)
      · exact hg.finite i hi
    · rw [hset i]; split
      · subst_vars; rw [e5]; exact hg.dynamic _ hi
      · exact hg.dynamic i hi
    · rw [← hg.bias]
      ext <;> refine sum_congr rfl fun i _ => ?_ <;> rw [hset i] <;> split <;> first | rfl | (subst_vars; rw [e1, e8])
    · rw [← hg.mass]
      refine sum_congr rfl fun i _ => ?_
      rw [hset i]; split
      · subst_vars; rw [e1]
      · rfl
    · have hm : (whole S (m.act (.impulse k f pt)).bodies).moment = (whole S m.bodies).moment := by
        ext <;> refine sum_congr rfl fun i _ => ?_ <;> rw [hset i] <;> split <;> first | rfl | (subst_vars; rw [e1, e6])
      have hv : (whole S (m.act (.impulse k f pt)).bodies).force = (whole S m.bodies).force := by
        ext <;> refine sum_congr rfl fun i _ => ?_ <;> rw [hset i] <;> split <;> first | rfl | (subst_vars; rw [e7])
      by_cases hkS : k ∈ S
      · have hmm := (hg.finite k hkS).1
        have hf : (whole S (m.act (.impulse k f pt)).bodies).momentum = (whole S m.bodies).momentum.add f := by
          ext
          · simp only [whole, Vec.add]
            rw [← add_sum_erase S _ hkS, ← add_sum_erase S (fun i => (m.bodies i).m * (m.bodies i).v.x) hkS,
              sum_congr rfl (fun i hi => by rw [hset i, if_neg (ne_of_mem_erase hi)]), hset k, if_pos rfl, e9, e1]
            simp only [Vec.add, Vec.mult]; linear_combination f.x * hmm
          · simp only [whole, Vec.add]
            rw [← add_sum_erase S _ hkS, ← add_sum_erase S (fun i => (m.bodies i).m * (m.bodies i).v.y) hkS,
              sum_congr rfl (fun i hi => by rw [hset i, if_neg (ne_of_mem_erase hi)]), hset k, if_pos rfl, e9, e1]
            simp only [Vec.add, Vec.mult]; linear_combination f.y * hmm
        simp only [Whole.act, if_pos hkS]
        exact Whole.ext hm hf hv
      · have hf : (whole S (m.act (.impulse k f pt)).bodies).momentum = (whole S m.bodies).momentum := by
          ext <;> refine sum_congr rfl fun i hi => ?_ <;> rw [hset i, if_neg (fun (e : i = k) => hkS (e ▸ hi))]
        simp only [Whole.act, if_neg hkS]
        exact Whole.ext hm hf hv

theorem run_group (S : Finset Nat) (M : ℝ) (acts : List (Motion.Act ℝ)) : ∀ (m : Motion ℝ),
    Group S M m → (∀ a ∈ acts, a.Isolated S) →
    Group S M (m.run acts) ∧ whole S (m.run acts).bodies = acts.foldl (Whole.act S M) (whole S m.bodies) := by
  induction acts with
  | nil => intro m hg _; exact ⟨hg, rfl⟩
  | cons a acts ih =>
    intro m hg ha
    obtain ⟨h1, h2⟩ := act_group S M m a hg (ha a List.mem_cons_self)
    obtain ⟨h3, h4⟩ := ih (m.act a) h1 (fun b hb => ha b (List.mem_cons_of_mem _ hb))
    refine ⟨h3, ?_⟩
    rw [List.foldl_cons, ← h2]; exact h4

end CP
