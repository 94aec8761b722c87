import Verif.Proofs.Load
import Verif.Spec.Rest

/-! # C71: the load on a body is what its arbiters report -/

namespace CP
open GoFloat

/-- The sum of what `Arbiter.TotalImpulse` reports in `Body.EachArbiter` of body `k` (which shows each arbiter from the side of the body:
`arb.swapped = body == arb.body_b`, /repo/body.go:586), for the arbiters `l` with contents `X`. -/
noncomputable def bodyLoad (X : Nat → Arb ℝ) (l : List Nat) (k : Nat) : Vec ℝ :=
  ((l.filter fun x => (X x).a = k ∨ (X x).b = k).map fun x => (X x).totalImpulse (decide (k = (X x).b))).foldr Vec.add ⟨0, 0⟩

theorem bodyLoad_eq (X : Nat → Arb ℝ) (l : List Nat) (k : Nat) (hne : ∀ x ∈ l, (X x).a = k ∨ (X x).b = k → (X x).a ≠ (X x).b) :
    bodyLoad X l k = ⟨loadX X l k, loadY X l k⟩ := by
  induction l with
  | nil => simp [bodyLoad, loadX, loadY]
  | cons x l ih =>
    have ih := ih fun y hy => hne y (List.mem_cons_of_mem _ hy)
    have hx := hne x List.mem_cons_self
    have tot : ∀ b, (X x).totalImpulse b = if b then ⟨storedX (X x).n (X x).contacts, storedY (X x).n (X x).contacts⟩
        else (⟨-storedX (X x).n (X x).contacts, -storedY (X x).n (X x).contacts⟩ : Vec ℝ) := by
      intro b
      simp only [Arb.totalImpulse, stored_fold, zero_add]
      cases b <;> simp [Vec.neg]
    have ex : loadX X (x :: l) k = sideOf (X x).a (X x).b k * storedX (X x).n (X x).contacts + loadX X l k := by simp [loadX]
    have ey : loadY X (x :: l) k = sideOf (X x).a (X x).b k * storedY (X x).n (X x).contacts + loadY X l k := by simp [loadY]
    by_cases hb : k = (X x).b
    · have ha : k ≠ (X x).a := fun e => hx (.inr hb.symm) (e.symm.trans hb)
      have s1 : sideOf (X x).a (X x).b k = 1 := by simp [sideOf, pairv, if_pos hb, if_neg ha]
      have e : bodyLoad X (x :: l) k = ((X x).totalImpulse (decide (k = (X x).b))).add (bodyLoad X l k) := by
        simp only [bodyLoad]
        rw [List.filter_cons_of_pos (by simp [hb.symm]), List.map_cons, List.foldr_cons]
      rw [e, ih, tot, ex, ey, s1, decide_eq_true hb]
      ext <;> simp [Vec.add]
    · by_cases ha : k = (X x).a
      · have s1 : sideOf (X x).a (X x).b k = -1 := by simp [sideOf, pairv, if_pos ha, if_neg hb]
        have e : bodyLoad X (x :: l) k = ((X x).totalImpulse (decide (k = (X x).b))).add (bodyLoad X l k) := by
          simp only [bodyLoad]
          rw [List.filter_cons_of_pos (by simp [ha.symm]), List.map_cons, List.foldr_cons]
        rw [e, ih, tot, ex, ey, s1, decide_eq_false hb]
        ext <;> simp [Vec.add]
      · have s1 : sideOf (X x).a (X x).b k = 0 := by simp [sideOf, pairv, if_neg ha, if_neg hb]
        have e : bodyLoad X (x :: l) k = bodyLoad X l k := by
          simp only [bodyLoad]
          rw [List.filter_cons_of_neg (by simp [Ne.symm ha, Ne.symm hb])]
        rw [e, ih, ex, ey, s1]
        ext <;> simp

theorem run_joints_arbs (ops : List (SolverOp ℝ)) (h : ∀ op ∈ ops, op.arb? = none) : ∀ s : Solver ℝ, (s.run ops).arbs = s.arbs := by
  induction ops with
  | nil => exact fun _ => rfl
  | cons op ops ih =>
    intro s
    have e : (s.step op).arbs = s.arbs := by
      have := h op List.mem_cons_self
      cases op <;> first | rfl | cases this
    exact (ih (fun o ho => h o (List.mem_cons_of_mem _ ho)) (s.step op)).trans e

theorem run_jointCon' (ops : List (SolverOp ℝ)) : ∀ (s : Solver ℝ) (c : Nat), ((s.run ops).joints c).con = (s.joints c).con := by
  induction ops with
  | nil => exact fun _ _ => rfl
  | cons op ops ih => exact fun s c => (ih (s.step op) c).trans ((step_con s op).1 c)

/-- **C71**: in a step as long as the one before, the velocity of a body without joints is the one that gravity, forces and damping give it, plus, divided by its mass, the sum of what
`TotalImpulse` reports afterwards for each of its arbiters, seen from the body: for any number of contacts, bodies, joints elsewhere and iterations. -/
theorem C71_load (m : Motion ℝ) (t : Tick ℝ) (k : Nat) (hdt : t.dt ≠ 0) (steady : m.currDt = t.dt) (hn : t.arbs.Nodup) (hd : t.dyn.Nodup)
    (hj : ∀ c ∈ t.joints, k ≠ (m.joints c).con.a ∧ k ≠ (m.joints c).con.b)
    (hne : ∀ x ∈ t.arbs, (t.contact x).a = k ∨ (t.contact x).b = k → (t.contact x).a ≠ (t.contact x).b)
    (hf : ∀ x ∈ t.arbs, (t.contact x).first = true → ∀ c ∈ (t.contact x).contacts, c.jnAcc = 0 ∧ c.jtAcc = 0) :
    ((m.tick t).bodies k).v = ((m.tick t.free).bodies k).v.add ((bodyLoad (m.solved t).arbs t.arbs k).mult ((m.tick t.free).bodies k).m_inv) := by
  -- before the velocities are integrated
  obtain ⟨p1, p2, p3⟩ := pre_arbs t.dt t.slop (1 - t.collisionBias ^ t.dt) t.arbs hn (startOf m t)
  obtain ⟨s', hs'⟩ : ∃ s', s' = (startOf m t).run (t.arbs.map fun k => .arbPreStep k t.dt t.slop (1 - t.collisionBias ^ t.dt)) := ⟨_, rfl⟩
  rw [← hs'] at p1 p2 p3
  obtain ⟨s1, hs1⟩ : ∃ s1, s1 = s'.run (t.joints.map fun k => .jointPreStep k t.dt) := ⟨_, rfl⟩
  have e1 : (startOf m t).run (preOps t) = s1 := by rw [preOps, solver_run_append, hs1, hs']
  have jops : ∀ op ∈ (t.joints.map fun k => (SolverOp.jointPreStep k t.dt : SolverOp ℝ)), op.integrated? = none ∧ (∀ c, op.joint? = some c → c ∈ t.joints) ∧ op.arb? = none := by
    intro op ho
    obtain ⟨c, hc, rfl⟩ := List.mem_map.1 ho
    exact ⟨rfl, fun d hd => by cases hd; exact hc, rfl⟩
  have b1 : s1.bodies k = m.seen t k := by
    rw [hs1, run_apart k _ s' (fun op ho => (jops op ho).1) (fun op ho c hc => by rw [p2]; exact hj c ((jops op ho).2.1 c hc))
      (fun op ho c hc => by rw [(jops op ho).2.2] at hc; cases hc), p1]
    rfl
  have a1 : s1.arbs = s'.arbs := by rw [hs1]; exact run_joints_arbs _ (fun op ho => (jops op ho).2.2) s'
  have j1 : ∀ c, (s1.joints c).con = (m.joints c).con := by intro c; rw [hs1, run_jointCon', p2]; rfl
  -- the velocities
  obtain ⟨i1, i2, i3⟩ := integrate_apply t.gravity (t.damping ^ t.dt) t.dt t.dyn hd s1
  obtain ⟨s2, hs2⟩ : ∃ s2, s2 = s1.run (t.dyn.map fun k => SolverOp.integrate k t.gravity (t.damping ^ t.dt) t.dt) := ⟨_, rfl⟩
  rw [← hs2] at i1 i2 i3
  have B2 : s2.bodies k = (m.tick t.free).bodies k := by rw [i1 k, free_bodies m t hdt hd k, b1]
  have f2 : ∀ x ∈ t.arbs, (s2.arbs x).first = true → ∀ c ∈ (s2.arbs x).contacts, c.jnAcc = 0 ∧ c.jtAcc = 0 := by
    intro x hx h c hc
    rw [i3, a1, p3, if_pos hx] at h hc
    simp only [Arb.preStep, List.mem_map] at h hc
    obtain ⟨c', hc', rfl⟩ := hc
    exact hf x hx h c' hc'
  -- the warm start and the iterations
  have co : (if m.currDt ≠ 0 then t.dt / m.currDt else 0) = 1 := by rw [steady, if_pos hdt, div_self hdt]
  obtain ⟨w1, w2, w3, w4, w5⟩ := warm_load k t.arbs s2 f2
  obtain ⟨s3, hs3⟩ : ∃ s3, s3 = s2.run (t.arbs.map fun x => SolverOp.arbCached x 1) := ⟨_, rfl⟩
  rw [← hs3] at w1 w2 w3 w4 w5
  have L3 : Loaded t.arbs t.joints k (s2.bodies k) s3 :=
    ⟨w3, by rw [w4, w1], by rw [w5, w1], fun c hc => by rw [w2, i2, j1 c]; exact hj c hc⟩
  have fin : m.solved t = s3.run (t.joints.map (fun k => SolverOp.jointCached k 1) ++
      (List.replicate t.iterations (t.arbs.map (fun k => SolverOp.arbApply k) ++ t.joints.map (fun k => SolverOp.jointApply k t.dt))).flatten) := by
    have : m.solved t = (startOf m t).run (Solver.stepProgram t.arbs t.joints t.dyn t.iterations t.dt m.currDt t.slop t.collisionBias t.damping t.gravity) := rfl
    rw [this, program_split, solver_run_append, e1, solver_run_append, ← hs2, postOps, co, solver_run_append, ← hs3]
  have V : Loaded t.arbs t.joints k (s2.bodies k) (m.solved t) := by
    rw [fin]
    refine L3.run hn _ (fun op ho => ?_)
    rcases List.mem_append.1 ho with h | h
    · obtain ⟨c, hc, rfl⟩ := List.mem_map.1 h
      exact .inr ⟨rfl, fun d hd => by cases hd; exact hc, rfl⟩
    · obtain ⟨l, hl, h⟩ := List.mem_flatten.1 h
      obtain ⟨-, rfl⟩ := List.mem_replicate.1 hl
      rcases List.mem_append.1 h with h | h <;> obtain ⟨c, hc, rfl⟩ := List.mem_map.1 h
      · exact .inl ⟨c, hc, rfl⟩
      · exact .inr ⟨rfl, fun d hd => by cases hd; exact hc, rfl⟩
  have eb : (m.tick t).bodies = (m.solved t).bodies := by simp only [Motion.tick, if_neg hdt, Motion.solved]
  have ends := run_arbCon (Solver.stepProgram t.arbs t.joints t.dyn t.iterations t.dt m.currDt t.slop t.collisionBias t.damping t.gravity) (startOf m t)
  rw [eb, ← B2, bodyLoad_eq _ _ _ (fun x hx h => ?_)]
  · ext
    · simp only [Vec.add, Vec.mult]; rw [V.x]
    · simp only [Vec.add, Vec.mult]; rw [V.y]
  · obtain ⟨q1, q2⟩ := ends x
    have q1 : ((m.solved t).arbs x).a = (t.contact x).a := q1
    have q2 : ((m.solved t).arbs x).b = (t.contact x).b := q2
    rw [q1, q2] at h ⊢
    exact hne x hx h

/-- **C71**: the load on a body at rest: if a step leaves the velocity of a body with mass `M` as it was, then the contacts carry exactly what gravity, forces and damping would have
added: the reported impulses add up to `M` times (velocity before minus the velocity the body would have reached without them). For a body that rests (velocity zero before and after, no forces, not
damped) on whatever it touches this is its weight: `-M g dt`. -/
theorem C71_weight (m : Motion ℝ) (t : Tick ℝ) (k : Nat) (hdt : t.dt ≠ 0) (steady : m.currDt = t.dt) (hn : t.arbs.Nodup) (hd : t.dyn.Nodup)
    (hj : ∀ c ∈ t.joints, k ≠ (m.joints c).con.a ∧ k ≠ (m.joints c).con.b)
    (hne : ∀ x ∈ t.arbs, (t.contact x).a = k ∨ (t.contact x).b = k → (t.contact x).a ≠ (t.contact x).b)
    (hf : ∀ x ∈ t.arbs, (t.contact x).first = true → ∀ c ∈ (t.contact x).contacts, c.jnAcc = 0 ∧ c.jtAcc = 0)
    {M : ℝ} (hM : M * ((m.tick t.free).bodies k).m_inv = 1) (still : ((m.tick t).bodies k).v = (m.bodies k).v) :
    bodyLoad (m.solved t).arbs t.arbs k = ((m.bodies k).v.sub ((m.tick t.free).bodies k).v).mult M ∧
    (∀ g : Vec ℝ, (m.bodies k).v = ⟨0, 0⟩ → ((m.tick t.free).bodies k).v = g.mult t.dt → bodyLoad (m.solved t).arbs t.arbs k = (g.mult (M * t.dt)).neg) := by
  have e := C71_load m t k hdt steady hn hd hj hne hf
  rw [still] at e
  have key : bodyLoad (m.solved t).arbs t.arbs k = ((m.bodies k).v.sub ((m.tick t.free).bodies k).v).mult M := by
    generalize bodyLoad (m.solved t).arbs t.arbs k = B at *
    rw [e]
    ext
    · simp only [Vec.mult, Vec.sub, Vec.add]; linear_combination (-B.x) * hM
    · simp only [Vec.mult, Vec.sub, Vec.add]; linear_combination (-B.y) * hM
  refine ⟨key, fun g h0 h1 => ?_⟩
  rw [key, h0, h1]
  ext <;> simp only [Vec.mult, Vec.sub, Vec.neg] <;> ring

end CP
