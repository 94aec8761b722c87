import Verif.Proofs.Energy5
import Verif.Props.CorrectExamples

/-! # C59: a groove joint can create energy

A body hangs on a groove by an anchor that is not its centre of gravity, and moves along the groove. -/

namespace CP
open GoFloat Finset

/-- Body 1 hangs on the groove by its anchor `(1, 1)`; body 0 carries the groove and does not move. -/
noncomputable def hangBodies (p v : Vec ℝ) (w : ℝ) : Bodies ℝ := fun k =>
  if k = 1 then { sled 1 0 0 with p := p, v := v, w := w, i := 1, i_inv := 1 } else sled 0 0 0

/-- A horizontal groove from `(-2, 0)` to `(2, 0)`. -/
noncomputable def hangGroove : GrooveJoint ℝ :=
  { a := 0, b := 1, maxForce := 1, errorBias := 1 / 2, maxBias := 1, grooveN := ⟨0, 1⟩, grooveA := ⟨-2, 0⟩, grooveB := ⟨2, 0⟩, anchorB := ⟨1, 1⟩
    grooveTn := ⟨0, 0⟩, clamp := 0, r1 := ⟨0, 0⟩, r2 := ⟨0, 0⟩, k := ⟨0, 0, 0, 0⟩, jAcc := ⟨0, 0⟩, bias := ⟨0, 0⟩ }

/-- The groove joint as PreStep leaves it. -/
noncomputable def hangReady (jAcc : Vec ℝ) : GrooveJoint ℝ :=
  { hangGroove with grooveTn := ⟨0, 1⟩, r1 := ⟨0, 0⟩, r2 := ⟨1, 1⟩, k := ⟨2 / 3, 1 / 3, 1 / 3, 2 / 3⟩, jAcc := jAcc, bias := ⟨0, 0⟩ }

/-- A step with `n` iterations. -/
noncomputable def hangTick (n : Nat) : Tick ℝ where
  dt := 1
  gravity := ⟨0, 0⟩
  damping := 1
  iterations := n
  slop := 1 / 10
  collisionBias := 1 / 2
  movers := [1]
  dyn := [1]
  arbs := []
  contact := fun _ => { e := 0, u := 0, surface_vr := ⟨0, 0⟩, a := 0, b := 1, n := ⟨1, 0⟩, first := true, contacts := [] }
  joints := [0]

/-- The body moves along the groove with velocity 1. -/
noncomputable def hangMotion : Motion ℝ :=
  { bodies := hangBodies ⟨-2, -1⟩ ⟨1, 0⟩ 0, joints := fun _ => .groove hangGroove, currDt := 1 }

theorem hangSeen (n : Nat) : hangMotion.seen (hangTick n) = fun k => if k = 1 then (hangBodies ⟨-1, -1⟩ ⟨1, 0⟩ 0 1).setTransform ⟨-1, -1⟩ 0 else sled 0 0 0 := by
  funext k
  simp only [Motion.seen, hangMotion, hangTick, Motion.move, List.foldl, Bodies.set, hangBodies]
  by_cases h : k = 1
  · simp [h, Body.updatePosition, sled, Body.setTransform, Vec.add, Vec.mult, Body.zeroV]
    norm_num
  · simp [h]

/-- What matters in the solver's state. -/
structure Hangs (s : Solver ℝ) (vx vy w : ℝ) (J : Vec ℝ) : Prop where
  v : (s.bodies 1).v = ⟨vx, vy⟩
  w : (s.bodies 1).w = w
  m : (s.bodies 1).m = 1
  i : (s.bodies 1).i = 1
  m_inv : (s.bodies 1).m_inv = 1
  i_inv : (s.bodies 1).i_inv = 1
  v0 : (s.bodies 0).v = ⟨0, 0⟩
  w0 : (s.bodies 0).w = 0
  m0 : (s.bodies 0).m_inv = 0
  i0 : (s.bodies 0).i_inv = 0
  joint : s.joints 0 = .groove (hangReady J)

theorem third_inside : (⟨0, -1 / 3⟩ : Vec ℝ).clampLen 1 = ⟨0, -1 / 3⟩ := by
  refine (C41_clampLen _ 1 zero_le_one).2.1 ?_
  have h := (⟨0, -1 / 3⟩ : Vec ℝ).length_nonneg
  have e := (⟨0, -1 / 3⟩ : Vec ℝ).length_sq
  simp only [Vec.dot] at e
  nlinarith

/-- One call of ApplyImpulse. -/
theorem Hangs.apply {s : Solver ℝ} {vx vy w J : ℝ} (c : Hangs s vx vy w ⟨0, J⟩) (hJ : J + ((w - vx) * (1 / 3) - (vy + w) * (2 / 3)) = -1 / 3) :
    Hangs (s.step (.jointApply 0 1)) vx (vy + (-1 / 3 - J)) (w + (-1 / 3 - J)) ⟨0, -1 / 3⟩ := by
  obtain ⟨cv, cw, cm, ci, cmi, cii, ov, ow, om, oi, e⟩ := c
  have hc : (hangReady ⟨0, J⟩).grooveConstrain ((hangReady ⟨0, J⟩).jAcc.add ((hangReady ⟨0, J⟩).k.transform ((hangReady ⟨0, J⟩).bias.sub (relVel s.bodies 0 1 ⟨0, 0⟩ ⟨1, 1⟩)))) 1 = ⟨0, -1 / 3⟩ := by
    have : ((hangReady ⟨0, J⟩).jAcc.add ((hangReady ⟨0, J⟩).k.transform ((hangReady ⟨0, J⟩).bias.sub (relVel s.bodies 0 1 ⟨0, 0⟩ ⟨1, 1⟩)))).project ⟨0, 1⟩ = ⟨0, -1 / 3⟩ := by
      simp only [hangReady, relVel, cv, cw, ov, ow, Vec.project, Vec.dot, Vec.add, Vec.sub, Vec.mult, Vec.perp, Mat2.transform]
      ext
      · simp
      · simp only; linarith
    simp only [GrooveJoint.grooveConstrain, show (hangReady ⟨0, J⟩).clamp = 0 from rfl, zero_mul, lt_irrefl, if_false]
    rw [show (hangReady ⟨0, J⟩).grooveTn = ⟨0, 1⟩ from rfl, this, show (hangReady ⟨0, J⟩).maxForce * 1 = 1 from one_mul 1]
    exact third_inside
  have hs : s.step (.jointApply 0 1) = { s with bodies := applyImpulses s.bodies 0 1 ⟨0, 0⟩ ⟨1, 1⟩ ⟨0, -1 / 3 - J⟩, joints := fun i => if i = 0 then .groove (hangReady ⟨0, -1 / 3⟩) else s.joints i } := by
    have e1 : ((⟨0, -1 / 3⟩ : Vec ℝ).sub ⟨0, J⟩) = ⟨0, -1 / 3 - J⟩ := by simp [Vec.sub]
    simp only [Solver.step, Solver.setJoint, e, Joint.applyImpulse, GrooveJoint.applyImpulse, Prod.map, id]
    rw [show (hangReady ⟨0, J⟩).a = 0 from rfl, show (hangReady ⟨0, J⟩).b = 1 from rfl, show (hangReady ⟨0, J⟩).r1 = ⟨0, 0⟩ from rfl,
      show (hangReady ⟨0, J⟩).r2 = ⟨1, 1⟩ from rfl, hc, show (hangReady ⟨0, J⟩).jAcc = ⟨0, J⟩ from rfl, e1]
    rfl
  rw [hs]
  refine ⟨?_, ?_, ?_, ?_, ?_, ?_, ?_, ?_, ?_, ?_, by simp⟩
  · simp [applyImpulses, Bodies.set, cv, cmi, Vec.add, Vec.mult]
  · simp [applyImpulses, Bodies.set, cw, cii, Vec.cross]
  · simp [applyImpulses, Bodies.set, cm]
  · simp [applyImpulses, Bodies.set, ci]
  · simp [applyImpulses, Bodies.set, cmi]
  · simp [applyImpulses, Bodies.set, cii]
  · simp [applyImpulses, Bodies.set, ov, om, Vec.add, Vec.mult, Vec.neg]
  · simp [applyImpulses, Bodies.set, ow, oi]
  · simp [applyImpulses, Bodies.set, om]
  · simp [applyImpulses, Bodies.set, oi]

theorem Hangs.settled {s : Solver ℝ} (n : Nat) : Hangs s 1 (-1 / 3) (-1 / 3) ⟨0, -1 / 3⟩ →
    Hangs (s.run (List.replicate n (.jointApply 0 1))) 1 (-1 / 3) (-1 / 3) ⟨0, -1 / 3⟩ := by
  induction n generalizing s with
  | zero => exact id
  | succ n ih =>
    intro c
    have := c.apply (by norm_num)
    exact ih (by convert this using 1 <;> norm_num)

theorem hang_pre (n : Nat) : (Joint.groove hangGroove).preStep (hangMotion.seen (hangTick n)) 1 = (hangMotion.seen (hangTick n), .groove (hangReady ⟨0, 0⟩)) := by
  obtain ⟨h, hh⟩ : ∃ h, h = hangMotion.seen (hangTick n) := ⟨_, rfl⟩
  have hb := hangSeen n
  rw [← hh] at hb ⊢
  have h0 : h 0 = sled 0 0 0 := by rw [hb]; simp
  have h1 : h 1 = (hangBodies ⟨-1, -1⟩ ⟨1, 0⟩ 0 1).setTransform ⟨-1, -1⟩ 0 := by rw [hb]; simp
  have o2 : anchorOffset (h 1) ⟨1, 1⟩ = ⟨1, 1⟩ := by
    rw [h1]
    simp [anchorOffset, hangBodies, sled, Body.setTransform, Transform.vect, Vec.sub, Transform.transpose]
  have tA : (h 0).transform = ⟨1, 0, 0, 1, 0, 0⟩ := by
    rw [h0]; simp [sled, Body.setTransform, Transform.transpose]
  have p0 : (h 0).p = ⟨0, 0⟩ := by rw [h0]; simp [sled, Body.setTransform]
  have p1 : (h 1).p = ⟨-1, -1⟩ := by rw [h1]; simp [hangBodies, sled, Body.setTransform]
  have i0 : (h 0).m_inv = 0 ∧ (h 0).i_inv = 0 := by rw [h0]; simp [sled, Body.setTransform]
  have i1 : (h 1).m_inv = 1 ∧ (h 1).i_inv = 1 := by rw [h1]; simp [hangBodies, sled, Body.setTransform]
  have hk : kTensor h 0 1 ⟨0, 0⟩ ⟨1, 1⟩ = ⟨2 / 3, 1 / 3, 1 / 3, 2 / 3⟩ := by
    simp only [kTensor, i0.1, i0.2, i1.1, i1.2]
    norm_num
  simp only [Joint.preStep, GrooveJoint.preStep, hangGroove, o2, tA, p0, p1, Prod.map, id]
  simp only [Transform.point, Transform.vect, Vec.cross, Vec.dot, Vec.add, Vec.sub, Vec.mult, Vec.perp, hangReady, hangGroove]
  norm_num
  rw [hk]
  exact ⟨rfl, clampLen_zero 1⟩

theorem hang_start (n : Nat) : ∃ s2, Hangs s2 1 0 0 ⟨0, 0⟩ ∧ (hangMotion.tick (hangTick n)).bodies = (s2.run (List.replicate n (.jointApply 0 1))).bodies := by
  have hdt : (hangTick n).dt ≠ 0 := one_ne_zero
  refine ⟨(startOf hangMotion (hangTick n)).run [.jointPreStep 0 1, SolverOp.integrate 1 ⟨0, 0⟩ 1 1, .jointCached 0 1], ?_, ?_⟩
  · have hb : (startOf hangMotion (hangTick n)).bodies = fun k => if k = 1 then (hangBodies ⟨-1, -1⟩ ⟨1, 0⟩ 0 1).setTransform ⟨-1, -1⟩ 0 else sled 0 0 0 := hangSeen n
    obtain ⟨s, hs⟩ : ∃ s, s = startOf hangMotion (hangTick n) := ⟨_, rfl⟩
    rw [← hs] at hb ⊢
    have hj : s.joints 0 = .groove hangGroove := by rw [hs]; rfl
    have h0 : s.bodies 0 = sled 0 0 0 := by rw [hb]; simp
    have h1 : s.bodies 1 = (hangBodies ⟨-1, -1⟩ ⟨1, 0⟩ 0 1).setTransform ⟨-1, -1⟩ 0 := by rw [hb]; simp
    have i0 : (s.bodies 0).m_inv = 0 ∧ (s.bodies 0).i_inv = 0 := by rw [h0]; simp [sled, Body.setTransform]
    have i1 : (s.bodies 1).m_inv = 1 ∧ (s.bodies 1).i_inv = 1 := by rw [h1]; simp [hangBodies, sled, Body.setTransform]
    have hp : (Joint.groove hangGroove).preStep s.bodies 1 = (s.bodies, .groove (hangReady ⟨0, 0⟩)) := by
      have := hang_pre n
      rw [hs]; exact this
    have e0 : s.bodies.set 1 ((s.bodies 1).updateVelocity ⟨0, 0⟩ 1 1) = s.bodies := by
      funext k
      simp only [Bodies.set]
      by_cases h : k = 1
      · subst h
        simp only [if_true, Body.updateVelocity]
        split
        · rfl
        · rw [h1]; simp [hangBodies, sled, Body.setTransform, Vec.add, Vec.mult, Body.zeroV]
      · simp [h]
    have hr : s.run [.jointPreStep 0 1, SolverOp.integrate 1 ⟨0, 0⟩ 1 1, .jointCached 0 1] =
        { s with joints := fun i => if i = 0 then .groove (hangReady ⟨0, 0⟩) else s.joints i } := by
      simp only [Solver.run, List.foldl, Solver.step, Solver.setJoint, hj, hp, e0, if_true]
      rw [cached_idle _ _ _ (show (Joint.groove (hangReady ⟨0, 0⟩)).getImpulse = 0 by simp [Joint.getImpulse, GrooveJoint.getImpulse, hangReady, Vec.length, Vec.dot])]
      congr 1
      funext i
      by_cases h : i = 0 <;> simp [h]
    rw [hr]
    refine ⟨?_, ?_, ?_, ?_, i1.1, i1.2, ?_, ?_, i0.1, i0.2, by simp⟩
    · show (s.bodies 1).v = _; rw [h1]; simp [hangBodies, Body.setTransform]
    · show (s.bodies 1).w = _; rw [h1]; simp [hangBodies, Body.setTransform]
    · show (s.bodies 1).m = _; rw [h1]; simp [hangBodies, Body.setTransform, sled]
    · show (s.bodies 1).i = _; rw [h1]; simp [hangBodies, Body.setTransform]
    · show (s.bodies 0).v = _; rw [h0]; simp [sled, Body.setTransform]
    · show (s.bodies 0).w = _; rw [h0]; simp [sled, Body.setTransform]
  · rw [tick_bodies _ _ hdt, program_split]
    have : preOps (hangTick n) ++ ((hangTick n).dyn.map (fun k => SolverOp.integrate k (hangTick n).gravity ((hangTick n).damping ^ (hangTick n).dt) (hangTick n).dt) ++
        postOps (hangTick n) hangMotion.currDt) = [.jointPreStep 0 1, SolverOp.integrate 1 ⟨0, 0⟩ 1 1, .jointCached 0 1] ++ List.replicate n (.jointApply 0 1) := by
      simp [preOps, postOps, hangTick, hangMotion]
    rw [this, solver_run_append]
    rfl

theorem Hangs.energy {s : Solver ℝ} {vx vy w : ℝ} {J : Vec ℝ} (c : Hangs s vx vy w J) : energy {0, 1} s.bodies = vx ^ 2 + vy ^ 2 + w ^ 2 := by
  simp only [CP.energy]
  rw [sum_insert (by simp), sum_singleton, kineticEnergy_eq, kineticEnergy_eq, c.v, c.w, c.m, c.i, c.v0, c.w0]
  simp only [Vec.dot]; ring

/-- **C59**, groove joints: a body that hangs on a fixed groove by an anchor off its centre, and moves along the groove, has more kinetic
energy after a step with any number of iterations but 0 (11/9 instead of 1), although the joint has no error to correct, no stored impulse
and does not reach its `MaxForce`. And the anchor leaves the groove, with velocity 2/3: PreStep and ApplyImpulse take for the impulse along
the groove's normal that of a pivot joint without the part along the groove. -/
theorem C59_groove_violated (n : Nat) :
    (∀ k, (hangMotion.bodies k).Undriven) ∧ energy {0, 1} hangMotion.bodies = 1 ∧
    ((Joint.groove hangGroove).preStep (hangMotion.seen (hangTick n)) 1).2.biasSize = 0 ∧ (Joint.groove hangGroove).getImpulse = 0 ∧
    gripVel (hangMotion.tick (hangTick 0)).bodies 1 ⟨1, 1⟩ = ⟨1, 0⟩ ∧
    gripVel (hangMotion.tick (hangTick (n + 1))).bodies 1 ⟨1, 1⟩ = ⟨4 / 3, -2 / 3⟩ ∧
    energy {0, 1} (hangMotion.tick (hangTick (n + 1))).bodies = 11 / 9 := by
  have settle : ∀ k, ∃ s, Hangs s 1 (-1 / 3) (-1 / 3) ⟨0, -1 / 3⟩ ∧ (hangMotion.tick (hangTick (k + 1))).bodies = s.bodies := by
    intro k
    obtain ⟨s, c, e⟩ := hang_start (k + 1)
    have c1 := c.apply (by norm_num)
    exact ⟨_, Hangs.settled k (by convert c1 using 1 <;> norm_num), by rw [e]; rfl⟩
  have arm : ∀ k, (grip (hangMotion.tick (hangTick k)).bodies 1 ⟨1, 1⟩).sub ((hangMotion.tick (hangTick k)).bodies 1).p = ⟨1, 1⟩ := by
    intro k
    have f := tick_frozen hangMotion (hangTick k) one_ne_zero 1
    rw [hangSeen k] at f
    simp only [grip, Body.localToWorld, f.p, f.transform]
    simp [hangBodies, sled, Body.setTransform, Transform.point, Transform.transpose, Vec.sub]
  refine ⟨fun k => ?_, ?_, ?_, ?_, ?_, ?_, ?_⟩
  · by_cases h : k = 1
    · subst h
      exact ⟨.inl (by simp [hangMotion, hangBodies, sled, Body.setTransform]), .inl (by simp [hangMotion, hangBodies])⟩
    · exact ⟨.inr (by simp [hangMotion, hangBodies, h, sled, Body.setTransform]), .inr (by simp [hangMotion, hangBodies, h, sled, Body.setTransform])⟩
  · simp only [CP.energy]
    rw [sum_insert (by simp), sum_singleton]
    simp [kineticEnergy_eq, hangMotion, hangBodies, sled, Body.setTransform, Vec.dot]
  · rw [hang_pre n]
    simp [Joint.biasSize, hangReady, Vec.length, Vec.dot]
  · simp [Joint.getImpulse, GrooveJoint.getImpulse, hangGroove, Vec.length, Vec.dot]
  · obtain ⟨s, c, e⟩ := hang_start 0
    have e' : (hangMotion.tick (hangTick 0)).bodies = s.bodies := e
    rw [gripVel, arm 0, e', c.v, c.w]
    simp [Vec.add, Vec.mult]
  · obtain ⟨s, c, e⟩ := settle n
    rw [gripVel, arm (n + 1), e, c.v, c.w]
    simp only [Vec.add, Vec.mult, Vec.perp]
    norm_num
  · obtain ⟨s, c, e⟩ := settle n
    rw [e, c.energy]
    norm_num

end CP
