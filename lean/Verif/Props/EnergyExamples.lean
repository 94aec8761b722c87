import Verif.Props.Energy

/-! # C59: concrete cases -/

namespace CP
open GoFloat Finset

/-- A disc (body 1) that moves to the left and turns, and a fixed body 0. -/
noncomputable def brakeBodies (x : ℝ) : Bodies ℝ := fun k =>
  if k = 1 then { sled 1 x 0 with v := ⟨-1, 1⟩, w := 3, i := 1, i_inv := 1 } else sled 0 0 0

/-- A brake between the two (a motor of rate 0). -/
noncomputable def brake : SimpleMotor ℝ :=
  { a := 0, b := 1, maxForce := 1, errorBias := 1 / 2, maxBias := 10, rate := 0, iSum := 0, jAcc := 0 }

/-- The disc hits the fixed body, at two contacts without friction and bounce, while the brake works on it. -/
noncomputable def brakeTick (n : Nat) : Tick ℝ where
  dt := 1
  gravity := ⟨0, 0⟩
  damping := 1
  iterations := n
  slop := 1 / 10
  collisionBias := 1 / 2
  movers := [1]
  dyn := [1]
  arbs := [0]
  contact := fun _ => { e := 0, u := 0, surface_vr := ⟨0, 0⟩, a := 0, b := 1, n := ⟨1, 0⟩, first := true,
                        contacts := [cornerContact ⟨-1, 1⟩ 0 0 0 0 0 0, cornerContact ⟨-1, -2⟩ 0 0 0 0 0 0] }
  joints := [0]

noncomputable def brakeMotion : Motion ℝ := { bodies := brakeBodies 3, joints := fun _ => .motor brake, currDt := 1 }

theorem brakeSeen (n : Nat) (k : Nat) : (brakeMotion.seen (brakeTick n) k).m_inv = (if k = 1 then 1 else 0) ∧ (brakeMotion.seen (brakeTick n) k).i_inv = (if k = 1 then 1 else 0) := by
  simp only [Motion.seen, brakeMotion, brakeTick, Motion.move, List.foldl, Bodies.set, brakeBodies]
  by_cases h : k = 1
  · simp [h, Body.updatePosition, sled, Body.setTransform]
  · simp [h, sled, Body.setTransform]

theorem brakeUndriven (k : Nat) : (brakeMotion.bodies k).Undriven := by
  by_cases h : k = 1
  · subst h
    exact ⟨.inl (by simp [brakeMotion, brakeBodies, sled, Body.setTransform]), .inl (by simp [brakeMotion, brakeBodies])⟩
  · exact ⟨.inr (by simp [brakeMotion, brakeBodies, h, sled, Body.setTransform]), .inr (by simp [brakeMotion, brakeBodies, h, sled, Body.setTransform])⟩

theorem brakeQuiet (n : Nat) : Quiet {0, 1} brakeMotion (brakeTick n) where
  pos := one_pos
  movers := by simp [brakeTick]
  dyn := by simp [brakeTick]
  arbsOnce := by simp [brakeTick]
  jointsOnce := by simp [brakeTick]
  undriven := fun k _ => brakeUndriven k
  finite := by
    intro k _ hk
    have : k = 1 := by simpa [brakeTick] using hk
    subst this
    simp [brakeMotion, brakeBodies, sled, Body.setTransform]
  smooth := by
    intro k _
    refine ⟨⟨⟨by simp [brakeTick], by simp [brakeTick], by simp [brakeTick], ?_⟩, by simp [brakeTick, Vec.dot], rfl, rfl, by simp [brakeTick, Vec.dot]⟩, ?_⟩
    · rw [(brakeSeen n _).1, (brakeSeen n _).1]; simp [brakeTick]
    · simp [brakeTick, Arb.Fresh, cornerContact]
  still := by
    intro k _
    refine ⟨⟨by simp [brakeMotion, brake, Joint.con], by simp [brakeMotion, brake, Joint.con], by simp [brakeMotion, brake, Joint.con], ?_⟩, ?_, rfl, rfl, ?_, ?_⟩
    · rw [(brakeSeen n _).1, (brakeSeen n _).1]; simp [brakeMotion, brake, Joint.con]
    · intro _
      rw [(brakeSeen n _).2, (brakeSeen n _).2]; simp [brakeMotion, brake, Joint.con]
    · simp [brakeMotion, brake, Joint.getImpulse, SimpleMotor.getImpulse, fabs]
    · simp [brakeMotion, brake, Joint.con]
  hold := fun _ _ _ _ h => h.elim

/-- The hypotheses of `C59_dissipates` are met: with any number of iterations the disc is left with no more than the energy 11 it has. -/
example (n : Nat) : energy {0, 1} (brakeMotion.tick (brakeTick n)).bodies ≤ 11 := by
  have e : energy {0, 1} brakeMotion.bodies = 11 := by
    simp only [CP.energy]
    rw [sum_insert (by simp), sum_singleton]
    simp [kineticEnergy_eq, brakeMotion, brakeBodies, sled, Body.setTransform, Vec.dot]
    norm_num
  rw [← e]
  refine C59_dissipates _ _ _ (brakeQuiet n) rfl (fun k _ => ?_) zero_le_one le_rfl
  by_cases h : k = 1 <;> simp [brakeMotion, brakeBodies, h, sled, Body.setTransform]

/-- A sled (body 1) that moves with velocity 1, and arrives where a pivot holds it. -/
noncomputable def caught : Motion ℝ := sledMotion (-1) 1 (.pivot (pivotDemo ⟨0, 0, 0, 0⟩ ⟨0, 0⟩ ⟨0, 0⟩))

theorem caughtPre : Joint.preStep (caught.seen gearTick) (.pivot (pivotDemo ⟨0, 0, 0, 0⟩ ⟨0, 0⟩ ⟨0, 0⟩)) 1 =
    (sledBodies 0 1, .pivot (pivotDemo ⟨1, 0, 0, 1⟩ ⟨0, 0⟩ ⟨0, 0⟩)) := by
  rw [caught, sledSeen, show (-1 + 1 : ℝ) = 0 by norm_num]
  simp only [Joint.preStep, PivotJoint.preStep, Prod.map, id, pivotDemo, sledOffset]
  refine Prod.ext rfl ?_
  have e : (sledBodies 0 1 1).p = ⟨0, 0⟩ ∧ (sledBodies 0 1 0).p = ⟨0, 0⟩ := ⟨rfl, rfl⟩
  have c' : ((((sledBodies 0 1 1).p.add ⟨0, 0⟩).sub ((sledBodies 0 1 0).p.add ⟨0, 0⟩)).mult (-biasCoef (1 / 2) 1 / 1)) = ⟨0, 0⟩ := by
    rw [e.1, e.2]
    simp [Vec.add, Vec.sub, Vec.mult]
  have hk : kTensor (sledBodies 0 1) 0 1 ⟨0, 0⟩ ⟨0, 0⟩ = ⟨1, 0, 0, 1⟩ := by
    simp [kTensor, sledBodies, sled, Body.setTransform]
  rw [c', clampLen_zero, hk]

theorem caughtHold : caught.PivotsHold gearTick := by
  intro pre post k e hk
  have hl : pre ++ .jointApply k gearTick.dt :: post = [.jointPreStep 0 1, SolverOp.integrate 1 ⟨0, 0⟩ 1 1, .jointCached 0 1] ++ .jointApply 0 1 :: [] := by
    rw [← e, program_split]
    simp [preOps, postOps, gearTick, caught, sledMotion]
  have h : k = 0 ∧ post = [] := by
    rcases pre with _ | ⟨x, _ | ⟨y, _ | ⟨z, _ | ⟨u, pre⟩⟩⟩⟩
    · simp at hl
    · simp at hl
    · simp at hl
    · simp at hl; exact ⟨hl.2.2.2.1.1, hl.2.2.2.2⟩
    · simp at hl
  obtain ⟨rfl, rfl⟩ := h
  have q2 : Joint.applyCached (sledBodies 0 1) (.pivot (pivotDemo ⟨1, 0, 0, 1⟩ ⟨0, 0⟩ ⟨0, 0⟩)) 1 =
      (sledBodies 0 1, .pivot (pivotDemo ⟨1, 0, 0, 1⟩ ⟨0, 0⟩ ⟨0, 0⟩)) := by
    have := sledPush 0 1 0 ⟨0, 0⟩ ⟨0, 0⟩
    rw [add_zero (1:ℝ)] at this
    simp [Joint.applyCached, PivotJoint.applyCached, pivotDemo, Vec.mult] at this ⊢
    exact this
  have q3 : Joint.applyImpulse (sledBodies 0 1) (.pivot (pivotDemo ⟨1, 0, 0, 1⟩ ⟨0, 0⟩ ⟨0, 0⟩)) 1 =
      (sledBodies 0 (1 + -1), .pivot (pivotDemo ⟨1, 0, 0, 1⟩ ⟨-1, 0⟩ ⟨0, 0⟩)) := by
    have hv : relVel (sledBodies 0 1) 0 1 ⟨0, 0⟩ ⟨0, 0⟩ = ⟨1, 0⟩ := by
      simp [relVel, sledBodies, sled, Body.setTransform, Vec.add, Vec.sub, Vec.mult, Vec.perp]
    have c : (⟨-1, 0⟩ : Vec ℝ).clampLen (100 * 1) = ⟨-1, 0⟩ := clampLen_id _ _ (by rw [length_flat]; norm_num) (by norm_num)
    have c' : (Vec.add ⟨0, 0⟩ (Mat2.transform ⟨1, 0, 0, 1⟩ (Vec.sub ⟨0, 0⟩ ⟨1, 0⟩)) : Vec ℝ) = ⟨-1, 0⟩ := by
      simp [Vec.add, Vec.sub, Mat2.transform]
    have c2 : (Vec.sub ⟨-1, 0⟩ ⟨0, 0⟩ : Vec ℝ) = ⟨-1, 0⟩ := by simp [Vec.sub]
    simp only [Joint.applyImpulse, PivotJoint.applyImpulse, Prod.map, id, pivotDemo, hv, c', c, c2, sledPush]
  obtain ⟨-, t2⟩ := gearTick_one (m := caught) rfl caughtPre (sledIntegrate _ _) q2 q3
  intro s
  have hs : s.joints 0 = (caught.tick gearTick).joints 0 := by
    have : gearTick.dt ≠ 0 := one_ne_zero
    simp only [s, ← e, Motion.tick, if_neg this, Motion.seen]
  rw [hs, t2]
  show (⟨-1, 0⟩ : Vec ℝ).length + 1 / 10 ^ 15 ≤ 100 * 1
  rw [length_flat]
  norm_num

/-- The hypotheses of `C59_step` are met by a pivot joint, too. -/
theorem caughtQuiet : Quiet {0, 1} caught gearTick where
  pos := one_pos
  movers := by simp [gearTick]
  dyn := by simp [gearTick]
  arbsOnce := by simp [gearTick]
  jointsOnce := by simp [gearTick]
  undriven := by
    intro k _
    by_cases h : k = 1
    · subst h
      exact ⟨.inl (by simp [caught, sledMotion, sledBodies, sled, Body.setTransform]), .inr (by simp [caught, sledMotion, sledBodies, sled, Body.setTransform])⟩
    · exact ⟨.inr (by simp [caught, sledMotion, sledBodies, h, sled, Body.setTransform]), .inr (by simp [caught, sledMotion, sledBodies, h, sled, Body.setTransform])⟩
  finite := by
    intro k _ hk
    have : k = 1 := by simpa [gearTick] using hk
    subst this
    simp [caught, sledMotion, sledBodies, sled, Body.setTransform]
  smooth := by simp [gearTick]
  still := by
    intro k _
    refine ⟨⟨by simp [caught, sledMotion, pivotDemo, Joint.con], by simp [caught, sledMotion, pivotDemo, Joint.con], by simp [caught, sledMotion, pivotDemo, Joint.con], ?_⟩, fun h => h.elim, trivial, ?_, ?_, ?_⟩
    · rw [caught, sledSeen]
      simp [sledMotion, pivotDemo, Joint.con, sledBodies, sled, Body.setTransform]
    · show (Joint.preStep (caught.seen gearTick) (.pivot (pivotDemo ⟨0, 0, 0, 0⟩ ⟨0, 0⟩ ⟨0, 0⟩)) 1).2.biasSize = 0
      rw [caughtPre]
      simp [Joint.biasSize, pivotDemo, Vec.length, Vec.dot]
    · simp [caught, sledMotion, pivotDemo, Joint.getImpulse, PivotJoint.getImpulse, Vec.length, Vec.dot]
    · simp [caught, sledMotion, pivotDemo, Joint.con]
  hold := caughtHold

end CP
