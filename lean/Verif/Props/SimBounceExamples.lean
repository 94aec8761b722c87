import Verif.Props.SimBounce
import Verif.Props.SimExamples

/-! # C64: two circles collide

The simulation of Props/SimExamples: body 1 flies with speed `v` along the axis and runs into body 2, which was at rest. -/

namespace CP
open Sim GoFloat

theorem sqrt_axis (x : ℝ) : (sqrt (x * x + 0 * 0) : ℝ) = |x| := by
  rw [show x * x + 0 * 0 = x * x by ring]
  exact Real.sqrt_mul_self_eq_abs _

/-- The step of Props/SimExamples is an encounter, whatever the material, if the circles overlap after the move. -/
theorem chase_encounter (d v : ℝ) (m : Surface ℝ) (hv : 0 < v) (h1 : v < d) (h2 : d < v + 2) : ∃ s s' : Sim ℝ, ∃ cx cy : Circle ℝ,
    s.Reach id ∧ s.call id (.step chaseIn) = some s' ∧ Encounter s s' chaseIn 1 2 cx cy ∧ (cx.r = 1 ∧ cy.r = 1) ∧
    ((s.sc.sp.shapes 1).body = 1 ∧ (s.sc.sp.shapes 2).body = 2) ∧ s.mo = chaseMotion d v ∧ s.surf = (fun _ => m) ∧
    s'.direction 1 2 = ⟨1, 0⟩ ∧ s'.sc.size ≤ 2 ∧
    s'.engine.awake 1 ∧ (s'.velocity 2 ≠ ⟨0, 0⟩ → s'.engine.awake 2) := by
  obtain ⟨s, hr, h12, only, hmo, hcls, hfil, hcons, hsz, hsurf, harbs, htr, hsen⟩ := chaseWith d v m
  obtain ⟨s', run, hr'⟩ := C64_no_panic hr (.step chaseIn) chase_ok hsz
  have hdt : chaseIn.dt ≠ 0 := by norm_num [chaseIn]
  obtain ⟨i1, b1, p1, a1, t1⟩ := h12 1 (.inl rfl)
  obtain ⟨i2, b2, p2, a2, t2⟩ := h12 2 (.inr rfl)
  have m1 : s.sc.Mobile 1 := ⟨by rw [b1, t1]; simp, by
    rw [b1, Sp.isSleeping, show (s.sc.sp.bodies 1).root = none from (Engine.awake_iff.1 a1).2.2]; rfl⟩
  have na := chase_awake hv.ne' hr hmo a1 t1 run
  obtain ⟨w1, w2⟩ := chase_pos hr hmo a1 a2 run
  obtain ⟨tc1, q1⟩ := hcls 1
  obtain ⟨tc2, q2⟩ := hcls 2
  obtain ⟨e, x1, -, -, -, -, -, -, -, -, x8, x9, -⟩ := C64_tests hr hdt chase_ok run
  have e1 : (s'.mo.bodies 1).p = ⟨v, 0⟩ := by
    refine (step_centre hr.ok hdt x1 x8 x9 1).trans ?_
    rw [show Motion.move s.mo.bodies chaseIn.dt s.sc.sp.dynamicBodies 1 = (chaseBody 0 v).updatePosition 1 by
      rw [show Motion.move s.mo.bodies chaseIn.dt s.sc.sp.dynamicBodies 1 = s.movedPos chaseIn.dt 1 from rfl, movedPos_awake hr.ok.eng _ a1, hmo]; rfl]
    norm_num [chaseBody, Body.updatePosition, Body.setTransform, Vec.add, Vec.mult]
  have e2 : (s'.mo.bodies 2).p = ⟨d, 0⟩ := by
    refine (step_centre hr.ok hdt x1 x8 x9 2).trans ?_
    rw [show Motion.move s.mo.bodies chaseIn.dt s.sc.sp.dynamicBodies 2 = (chaseBody d 0).updatePosition 1 by
      rw [show Motion.move s.mo.bodies chaseIn.dt s.sc.sp.dynamicBodies 2 = s.movedPos chaseIn.dt 2 from rfl, movedPos_awake hr.ok.eng _ a2, hmo]; rfl]
    norm_num [chaseBody, Body.updatePosition, Body.setTransform, Vec.add, Vec.mult]
  have clear : ∀ b, ClearBut s s' b 1 2 := by
    intro b u w hu hw hbu hbw n1 n2
    exfalso
    rcases only u hu with rfl | rfl <;> rcases only w hw with rfl | rfl
    · exact hbw hbu
    · exact n1 ⟨rfl, rfl⟩
    · exact n2 ⟨rfl, rfl⟩
    · exact hbw hbu
  have sp := hr.ok.eng.good.1
  have dist : (⟨v, 0⟩ : Vec ℝ).distance ⟨d, 0⟩ = d - v := by
    simp only [Vec.distance, Vec.sub, Vec.length, Vec.dot]
    rw [show (0 : ℝ) - 0 = 0 by ring, sqrt_axis, abs_of_neg (by linarith)]
    ring
  obtain ⟨mid, H⟩ := Engine.step_mid hr.ok.eng (by rw [x1]; exact hdt) x8 x9
  have size : s'.sc.size ≤ 2 := by
    obtain ⟨n1, n2, k1, k2⟩ := shape_lists hr'.ok.eng.good.1
    have hn : (s'.sc.sp.dynamicShapes ++ s'.sc.sp.staticShapes).Nodup := by
      rw [List.nodup_append]
      exact ⟨n1, n2, fun x hx y hy e => lists_disjoint hr'.ok.eng.good.1 x hx (e ▸ hy)⟩
    refine (List.subperm_of_subset hn (l₂ := [1, 2]) fun x hx => ?_).length_le
    have : (s'.sc.sp.shapes x).inSpace = true := by
      have hx := List.mem_append.1 hx
      rcases hx with hx | hx
      · exact ((k1 x).1 hx).1
      · exact ((k2 x).1 hx).1
    rw [(step_shapes hr.ok hdt chase_ok run x).2.2.1] at this
    rcases only x this with rfl | rfl <;> simp
  have aw : ∀ b, s.engine.awake b → ¬ s'.engine.asleep b → s'.engine.awake b := fun b h1 h2 => by
    refine ⟨?_, ?_, h2⟩
    · rw [show (s'.engine.sp.bodies b).inSpace = (s.engine.sp.bodies b).inSpace from H.keep.inSpace b]; exact h1.1
    · rw [show s'.engine.sp.typ b = s.engine.sp.typ b from H.keep.typ b]; exact h1.2.1
  have aw2 : s'.velocity 2 ≠ ⟨0, 0⟩ → s'.engine.awake 2 := fun hv2 => aw 2 a2 fun as => hv2 (by
    have := C63_falls_asleep hr.ok.eng (by rw [x1]; exact hdt) x8 x9 a2 as
    show (s'.engine.mo.bodies 2).v = _
    rw [this, show s.engine.mo = chaseMotion d v from hmo]
    simp [chaseMotion, chaseBody, Body.updatePosition, Body.setTransform])
  refine ⟨s, s', _, _, hr, run, ⟨⟨i1, i2, by rw [b1, b2]; decide, ?_, ?_, .inr p2, ?_, ?_, fun _ => ⟨rfl, rfl⟩,
    by norm_num [chaseIn], ?_, ?_, ?_⟩, q1, q2, by norm_num, by norm_num, ?_, ?_, ?_, ?_⟩, ⟨rfl, rfl⟩, ⟨b1, b2⟩, hmo, hsurf, ?_, size, aw 1 a1 na, aw2⟩
  · rw [hfil, hfil]; decide
  · refine ⟨m1, ?_⟩
    rw [b1]
    refine ⟨?_, na⟩
    obtain ⟨mid, H⟩ := Engine.step_mid hr.ok.eng (by rw [x1]; exact hdt) x8 x9
    rw [show s'.sc.sp.typ 1 = s.sc.sp.typ 1 from H.keep.typ 1, t1]
    simp
  · rw [b1, b2]
    rintro b (rfl | rfl)
    · exact .inr ⟨a1.2, (by rintro ⟨c, hc, -⟩; rw [show s.engine.sp = s.sc.sp from rfl, hcons] at hc; cases hc), clear _⟩
    · exact .inr ⟨a2.2, (by rintro ⟨c, hc, -⟩; rw [show s.engine.sp = s.sc.sp from rfl, hcons] at hc; cases hc), clear _⟩
  · refine ⟨?_, ?_, fun p q _ => ⟨rfl, rfl, rfl, rfl⟩⟩
    · have : (s.sc.sp.bodies 1).infMass = false := by
        by_contra h
        rw [Bool.not_eq_false] at h
        have := t1
        simp only [Sp.typ, BodyR.type, h] at this
        split at this <;> simp at this
      simp only [Sp.inert, hsen, b1, b2, this, Bool.false_or, Bool.false_and]
    · have := C23_state sp 1 2
      rw [show s.engine.sp.trace = [] from htr] at this
      simp only [proto_nil, Option.some.injEq] at this
      intro h
      rw [show s.engine.sp = s.sc.sp from rfl, h] at this
      simp at this
  · rw [b1, b2, hmo]; norm_num [chaseMotion, chaseBody]
  · rw [b1, b2, hmo]; norm_num [chaseMotion, chaseBody]
  · refine .inl fun k _ _ c hc => ?_
    rw [harbs] at hc
    cases hc
  · rw [b1, e1]; exact w1
  · rw [b2, e2]; exact w2
  · rw [b1, b2, e1, e2, dist]; norm_num; linarith
  · rw [b1, b2, e1, e2]
    intro h
    simp only [Vec.mk.injEq, and_true] at h
    linarith
  · simp only [direction, e1, e2, dist]
    have : d - v ≠ 0 := by linarith
    simp only [Vec.sub, Vec.mult, sub_zero, zero_mul, Vec.mk.injEq, and_true]
    field_simp

/-- What chase_collide says, and the rest of what is known about the states. -/
theorem chase_full (d v : ℝ) (m : Surface ℝ) (hv : 0 < v) (h1 : v < d) (h2 : d < v + 2) : ∃ s s' : Sim ℝ,
    s.Reach id ∧ s.call id (.step chaseIn) = some s' ∧ s.velocity 1 = ⟨v, 0⟩ ∧ s.velocity 2 = ⟨0, 0⟩ ∧
    s'.velocity 1 = ⟨(1 - m.e * m.e) * v / 2, 0⟩ ∧ s'.velocity 2 = ⟨(1 + m.e * m.e) * v / 2, 0⟩ ∧ s'.spin 1 = 0 ∧ s'.spin 2 = 0 ∧
    s'.parting 1 2 s'.velocity = m.e * m.e * v ∧ (∃ cx cy : Circle ℝ, Encounter s s' chaseIn 1 2 cx cy ∧ cx.r = 1 ∧ cy.r = 1) ∧
    ((s.sc.sp.shapes 1).body = 1 ∧ (s.sc.sp.shapes 2).body = 2) ∧ s.surf = (fun _ => m) ∧ s'.direction 1 2 = ⟨1, 0⟩ ∧ s'.sc.size ≤ 2 ∧
    s'.engine.awake 1 ∧ (s'.velocity 2 ≠ ⟨0, 0⟩ → s'.engine.awake 2) ∧ s'.parting 1 2 s.velocity = -v := by
  obtain ⟨s, s', cx, cy, hr, run, E, ⟨r1, r2⟩, ⟨b1, b2⟩, hmo, hsurf, hdir, rest⟩ := chase_encounter d v m hv h1 h2
  have quiet : (∀ y, (chaseIn).sepActs y = []) ∧ (chaseIn).lateActs = [] := ⟨fun _ => rfl, rfl⟩
  have C := C64_collision hr (by norm_num [chaseIn]) chase_ok quiet run E
  have B := C64_bounce hr (by norm_num [chaseIn]) chase_ok quiet run E
  have fv : ∀ b, b = 1 ∨ b = 2 → s.freeVel s' chaseIn b = s.velocity b ∧ s.freeSpin s' chaseIn b = 0 := by
    intro b hb
    have hmax : (maxFloat : ℝ) ≠ 1 := ne_of_gt one_lt_maxFloat
    have hmax0 : (maxFloat : ℝ) ≠ 0 := ne_of_gt maxFloat_pos
    have one : (1 : ℝ) ^ (1 : ℝ) = 1 := Real.one_rpow 1
    simp only [freeVel, freeSpin, velocity, hmo]
    rcases hb with rfl | rfl <;>
      constructor <;> split <;> simp [chaseMotion, chaseBody, chaseIn, Body.updateVelocity, Body.type, Vec.add, Vec.mult, one, hmax.symm, hmax0.symm]
  have v1 : s.velocity 1 = ⟨v, 0⟩ := by simp [velocity, hmo, chaseMotion, chaseBody]
  have v2 : s.velocity 2 = ⟨0, 0⟩ := by simp [velocity, hmo, chaseMotion, chaseBody]
  simp only [b1, b2] at C B
  have hm : m.e * m.e * v ≥ 0 := mul_nonneg (mul_self_nonneg _) hv.le
  have pf : s'.parting 1 2 (s.freeVel s' chaseIn) = -v := by
    simp [parting, (fv 1 (.inl rfl)).1, (fv 2 (.inr rfl)).1, v1, v2, hdir, Vec.sub, Vec.dot]
  have pv : s'.parting 1 2 s.velocity = -v := by
    simp [parting, v1, v2, hdir, Vec.sub, Vec.dot]
  have ps : s'.sliding 1 2 1 2 cx.r cy.r (s.freeVel s' chaseIn) (s.freeSpin s' chaseIn) = 0 := by
    have hs' : s'.surf = s.surf := by
      obtain ⟨found, arbs, w, start, mid, sp, w', -, -, hs', -⟩ := step_ok hr.ok (by norm_num [chaseIn]) chase_ok run
      rw [hs']; rfl
    simp [sliding, fv, v1, v2, hdir, hs', hsurf, Vec.sub, Vec.dot, Vec.add, Vec.perp]
  obtain ⟨J, T, hJ, hT, k1, k2, k3, k4⟩ := C
  rw [pf, pv, hsurf, hmo] at hJ
  rw [ps] at hT
  have hJ' : J = (1 + m.e * m.e) * v / 2 := by
    rw [hJ]
    norm_num [chaseMotion, chaseBody]
    rw [max_eq_right (by linarith)]
    ring
  have hJ0 : 0 ≤ J := by rw [hJ']; nlinarith
  have hT' : T = 0 := by
    have hu : 0 ≤ m.u * m.u * J := mul_nonneg (mul_self_nonneg _) hJ0
    rw [hT, hsurf]
    dsimp only
    rw [clamp_eq_real _ _ _ (by linarith)]
    simp only [neg_zero, zero_div]
    rw [min_eq_left hu, max_eq_right (by linarith)]
  rw [hdir, (fv 1 (.inl rfl)).1, v1, hmo, hJ', hT'] at k1
  rw [hdir, (fv 2 (.inr rfl)).1, v2, hmo, hJ', hT'] at k2
  rw [(fv 1 (.inl rfl)).2, hT'] at k3
  rw [(fv 2 (.inr rfl)).2, hT'] at k4
  refine ⟨s, s', hr, run, v1, v2, ?_, ?_, ?_, ?_, ?_, ⟨cx, cy, E, r1, r2⟩, ⟨b1, b2⟩, hsurf, hdir, rest.1, rest.2.1, rest.2.2, pv⟩
  · rw [k1]
    simp only [Vec.sub, Vec.add, Vec.mult, Vec.perp, chaseMotion, chaseBody, Vec.mk.injEq]
    norm_num; ring
  · rw [k2]
    simp only [Vec.sub, Vec.add, Vec.mult, Vec.perp, chaseMotion, chaseBody, Vec.mk.injEq]
    norm_num
  · rw [k3]; ring
  · rw [k4]; ring
  · rw [B, pf, pv, hsurf, max_eq_right (by linarith)]; ring

/-- C64_collision applies. The bodies have equal masses; each circle has elasticity `m.e`. Body 1 is slowed down from `v` to `(1 - e) v / 2` and body 2 goes
off with `(1 + e) v / 2`, where `e` is the product of the elasticities: with `e = 1` they swap their velocities, with `e = 0` they go on together. Friction
does nothing, and nothing spins. -/
theorem chase_collide (d v : ℝ) (m : Surface ℝ) (hv : 0 < v) (h1 : v < d) (h2 : d < v + 2) : ∃ s s' : Sim ℝ,
    s.Reach id ∧ s.call id (.step chaseIn) = some s' ∧ s.velocity 1 = ⟨v, 0⟩ ∧ s.velocity 2 = ⟨0, 0⟩ ∧
    s'.velocity 1 = ⟨(1 - m.e * m.e) * v / 2, 0⟩ ∧ s'.velocity 2 = ⟨(1 + m.e * m.e) * v / 2, 0⟩ ∧ s'.spin 1 = 0 ∧ s'.spin 2 = 0 ∧
    s'.parting 1 2 s'.velocity = m.e * m.e * v := by
  obtain ⟨s, s', hr, run, v1, v2, k1, k2, k3, k4, k5, -⟩ := chase_full d v m hv h1 h2
  exact ⟨s, s', hr, run, v1, v2, k1, k2, k3, k4, k5⟩

end CP
