import Verif.Props.Engine

/-! # C63: examples

A space with two bodies, 1 and 2, in free space, computed with rational numbers: body 1 drifts slowly and falls asleep, body 2
moves fast and stays awake. (`sin`, `cos`, `pow` of the rational instance are placeholders; angles are 0 and the damping is 1.) -/

namespace CP
open Engine Call GoFloat

/-- A point mass with a velocity. -/
def driftBody (x v : ℚ) : Body ℚ :=
  { m := 1, m_inv := 1, i := 1, i_inv := 1, cog := ⟨0, 0⟩, p := ⟨x, 0⟩, v := ⟨v, 0⟩, f := ⟨0, 0⟩, a := 0, w := 0, t := 0,
    transform := ⟨1, 0, 0, 1, x, 0⟩, v_bias := ⟨0, 0⟩, w_bias := 0, shapes := [], idle := 0 }

/-- Some joint; it is not added to the space. -/
def driftJoint : Joint ℚ :=
  .motor { a := 1, b := 2, maxForce := 1, errorBias := 1, maxBias := 1, rate := 0, iSum := 0, jAcc := 0 }

/-- A new space and the two bodies. -/
def driftStart : Engine ℚ :=
  ⟨Sp.newSpace 2 1 (fun _ => .dynamic) (fun _ => (1, false)) (fun _ => (1, 2)),
    ⟨fun b => if b = 1 then driftBody 0 1 else driftBody 100 50, fun _ => driftJoint, 0⟩⟩

/-- A step of length 1/2 with idle speed 20 and gravity (0, -10). -/
def driftIn : EngineIn ℚ :=
  { dt := 1 / 2, gravity := ⟨0, -10⟩, damping := 1, iterations := 10, slop := 0, collisionBias := 0, idleSpeed := 20,
    pairs := [], contact := fun _ => ⟨0, 0, ⟨0, 0⟩, 0, 0, [], ⟨0, 0⟩, true⟩ }

/-- The state after a call. -/
def Engine.then (e : Engine ℚ) (c : Call ℚ) : Engine ℚ := (e.call c).getD e

theorem then_eq {e : Engine ℚ} (h : e.Reach) {c : Call ℚ} (ok : c.Allowed e) : e.call c = some (e.then c) := by
  obtain ⟨e', he⟩ := C63_no_panic h c ok
  rw [Engine.then, he]; rfl

theorem then_reach {e : Engine ℚ} (h : e.Reach) {c : Call ℚ} (ok : c.Allowed e) : (e.then c).Reach :=
  .call c h ok (then_eq h ok)

/-- Both bodies are added, sleeping is switched on. -/
def driftReady : Engine ℚ := ((driftStart.then (op (.addBody 1))).then (op (.addBody 2))).then (op (.setThreshold (.time 1)))

theorem drift_step (e : Engine ℚ) : (Call.step driftIn).Allowed e :=
  ⟨by simp [EngineIn.acts, driftIn], by simp [EngineIn.acts, driftIn], by simp [EngineIn.acts, driftIn]⟩

theorem driftReady_reach : driftReady.Reach := by
  refine then_reach (then_reach (then_reach ?_ ?_) ?_) ?_
  · exact .new 2 1 _ _ _ _ fun _ => ⟨rfl, rfl⟩
  · exact ⟨⟨by decide +kernel, by decide +kernel⟩, by intro i; simp⟩
  · exact ⟨⟨by decide +kernel, by decide +kernel⟩, by intro i; simp⟩
  · exact ⟨by show (0 : ℚ) < 1; norm_num, by intro i; simp⟩

/-- After one step. -/
def drift1 : Engine ℚ := driftReady.then (.step driftIn)
/-- After two steps. -/
def drift2 : Engine ℚ := drift1.then (.step driftIn)
/-- After three steps. -/
def drift3 : Engine ℚ := drift2.then (.step driftIn)

theorem drift1_reach : drift1.Reach := then_reach driftReady_reach (drift_step _)
theorem drift2_reach : drift2.Reach := then_reach drift1_reach (drift_step _)
theorem drift3_reach : drift3.Reach := then_reach drift2_reach (drift_step _)

/-- Who sleeps, as something to compute. -/
def sleepers (e : Engine ℚ) : Bool × Bool := (e.sp.isSleeping 1, e.sp.isSleeping 2)

theorem drift_sleepers : sleepers driftReady = (false, false) ∧ sleepers drift1 = (false, false) ∧
    sleepers drift2 = (true, false) ∧ sleepers drift3 = (true, false) := by decide +kernel
theorem drift_pos : (drift1.mo.bodies 1).p.x = 1 / 2 ∧ (drift2.mo.bodies 1).p.x = 1 ∧ (drift3.mo.bodies 1).p.x = 1 ∧
    (drift1.mo.bodies 1).v.y = -5 ∧ (drift2.mo.bodies 1).v.y = -5 ∧ (drift3.mo.bodies 1).v.y = -5 ∧
    (drift3.mo.bodies 2).p.x = 175 ∧ (drift3.mo.bodies 2).v.y = -15 := by decide +kernel

theorem drift_awake {e : Engine ℚ} {b : Nat} (h1 : (e.sp.bodies b).inSpace = true) (h2 : e.sp.typ b = .dynamic)
    (h3 : e.sp.isSleeping b = false) : e.awake b := by
  refine ⟨h1, by rw [h2]; decide, ?_⟩
  simpa [asleep, Sp.isSleeping] using h3

theorem drift_asleep {e : Engine ℚ} {b : Nat} (h : e.sp.isSleeping b = true) : e.asleep b := by
  intro hn
  simp [Sp.isSleeping, hn] at h

theorem asleep2 : drift2.asleep 1 := drift_asleep (by decide +kernel)
theorem asleep3 : drift3.asleep 1 := drift_asleep (by decide +kernel)
theorem awake1 : drift1.awake 1 := drift_awake (by decide +kernel) (by decide +kernel) (by decide +kernel)
theorem awake1' : drift1.awake 2 := drift_awake (by decide +kernel) (by decide +kernel) (by decide +kernel)

/-- C63_falls_asleep and C63_positions apply: in the second step body 1 is moved once more and falls asleep with velocity (1, -5). -/
example : drift2.mo.bodies 1 = (drift1.mo.bodies 1).updatePosition (1 / 2) :=
  C63_falls_asleep drift1_reach (by norm_num [driftIn]) (drift_step _) (then_eq drift1_reach (drift_step _)) awake1 asleep2

/-- C63_asleep applies: in the third step nothing of body 1 changes, although body 2 moves on. -/
example : drift3.mo.bodies 1 = drift2.mo.bodies 1 :=
  C63_asleep drift2_reach _ (drift_step _) (then_eq drift2_reach (drift_step _)) asleep2 asleep3

/-- C63_history and C63_resumes apply: woken after any sleep, body 1 goes on with what it had. -/
example : ¬ (drift3.then (op (.activate 1))).asleep 1 ∧ (drift3.then (op (.activate 1))).mo.bodies 1 = drift2.mo.bodies 1 :=
  C63_resumes drift2_reach (es := [drift3]) (.cons _ (drift_step _) (then_eq drift2_reach (drift_step _)) (.nil _)) asleep2
    (by simpa using asleep3) rfl (then_eq drift3_reach ⟨trivial, by intro i; simp⟩)

/-- C63_restless applies to body 2, C63_free too: it falls freely. -/
example : ¬ drift2.asleep 2 ∧
    drift2.mo.bodies 2 = ((drift1.mo.bodies 2).updatePosition (1 / 2)).updateVelocity ⟨0, -10⟩ 1 (1 / 2) := by
  have n : ¬ drift2.asleep 2 := C63_restless drift1_reach (by norm_num [driftIn]) (drift_step _)
    (then_eq drift1_reach (drift_step _)) awake1' (by decide +kernel) (by decide +kernel)
  refine ⟨n, ?_⟩
  have f := C63_free drift1_reach (i := driftIn) (by norm_num [driftIn]) (drift_step _) ⟨fun _ => rfl, rfl⟩
    (then_eq drift1_reach (drift_step _)) awake1' ⟨by rintro ⟨d, hd, -⟩; simp [driftIn] at hd, ?_⟩
  · exact f.trans (if_neg n)
  · rintro ⟨c, hc, -⟩
    obtain ⟨L, w⟩ := drift1_reach.good.1.world
    have lt : c < drift1.sp.nCons := w.good.inv.full.core.con.bound c hc
    rw [show drift1.sp.nCons = 1 by decide +kernel] at lt
    obtain rfl : c = 0 := by omega
    have : (drift1.sp.cons 0).inSpace = false := by decide +kernel
    rw [this] at hc
    cases hc

/-! ### The group -/

/-- A point mass with velocity (50, 0). -/
noncomputable def dartBody : Body ℝ :=
  { m := 1, m_inv := 1, i := 1, i_inv := 1, cog := ⟨0, 0⟩, p := ⟨0, 0⟩, v := ⟨50, 0⟩, f := ⟨0, 0⟩, a := 0, w := 0, t := 0,
    transform := ⟨1, 0, 0, 1, 0, 0⟩, v_bias := ⟨0, 0⟩, w_bias := 0, shapes := [], idle := 0 }

/-- A joint between bodies 2 and 3. -/
noncomputable def dartJoint : Joint ℝ :=
  .motor { a := 2, b := 3, maxForce := 1, errorBias := 1, maxBias := 1, rate := 0, iSum := 0, jAcc := 0 }

/-- A new space with the body. -/
noncomputable def dartStart : Engine ℝ :=
  ⟨Sp.newSpace 3 1 (fun _ => .dynamic) (fun _ => (1, false)) (fun _ => (2, 3)), ⟨fun _ => dartBody, fun _ => dartJoint, 0⟩⟩

/-- A step of length 1/2. -/
noncomputable def dartIn : EngineIn ℝ :=
  { dt := 1 / 2, gravity := ⟨0, -10⟩, damping := 1, iterations := 10, slop := 0, collisionBias := 0, idleSpeed := 20,
    pairs := [], contact := fun _ => ⟨0, 0, ⟨0, 0⟩, 0, 0, [], ⟨0, 0⟩, true⟩ }

/-- C63_group applies: a single flying body is a group. -/
example : ∃ e e' : Engine ℝ, e.Reach ∧ e.call (.step dartIn) = some e' ∧
    (whole {1} e'.mo.bodies).moment = ⟨25, 0⟩ ∧ (whole {1} e'.mo.bodies).momentum = ⟨50, -5⟩ := by
  have r0 : dartStart.Reach := .new 3 1 _ _ _ _ fun _ => ⟨rfl, rfl⟩
  have ok0 : (Call.op (.addBody 1)).Allowed dartStart := ⟨⟨rfl, by show 1 < 3 + 1; norm_num⟩, by intro i; simp⟩
  obtain ⟨e, he⟩ := C63_no_panic r0 _ ok0
  have r1 : e.Reach := .call _ r0 ok0 he
  obtain ⟨L, w⟩ := r0.good.1.world
  obtain ⟨t, L', et, wt, eff⟩ := Sp.op_good w (.addBody 1) ok0.1
  have ee : e = ⟨t, dartStart.mo⟩ := by
    simp only [Engine.call, et, Option.map_some, Option.some.injEq] at he
    exact he.symm
  have hmo : e.mo = dartStart.mo := by rw [ee]
  have hty : e.sp.typ 1 = .dynamic := by
    rw [ee]
    show t.typ 1 = _
    rw [eff.types]
    rfl
  have hin : (e.sp.bodies 1).inSpace = true := by
    rw [ee]
    show (t.bodies 1).inSpace = _
    rw [eff.bodyIn]
    simp [Sp.Op.bodyIn]
  have hroot : (e.sp.bodies 1).root = none := by
    rw [ee]
    have hz : ∀ b, (dartStart.sp.bodies b).root = none := by
      intro b
      simp only [dartStart, Sp.newSpace]
      split <;> rfl
    simp only [Sp.Op.run, Sp.addBody] at et
    split at et
    · cases et
    · rw [Option.some.injEq] at et
      rw [← et]
      simp only [Sp.setBody]
      split <;> first | exact hz _ | (split <;> exact hz _)
  have aw : e.awake 1 := awake_iff.2 ⟨hin, by rw [hty]; decide, hroot⟩
  have ok1 : (Call.step dartIn).Allowed e :=
    ⟨by simp [EngineIn.acts, dartIn], by simp [EngineIn.acts, dartIn], by simp [EngineIn.acts, dartIn]⟩
  obtain ⟨e', he'⟩ := C63_no_panic r1 _ ok1
  have hdt : dartIn.dt ≠ 0 := by norm_num [dartIn]
  have na : ¬ e'.asleep 1 := by
    refine C63_restless r1 hdt ok1 he' aw hty ?_
    rw [hmo]
    norm_num [EngineIn.restless, dartIn, dartStart, dartBody, Body.kineticEnergy, Body.updatePosition, Body.setTransform, Vec.dot]
  have g : Group {1} 1 e.mo := by
    rw [hmo]
    have hmax : (maxFloat : ℝ) ≠ 1 := ne_of_gt one_lt_maxFloat
    have hmax0 : (maxFloat : ℝ) ≠ 0 := ne_of_gt maxFloat_pos
    refine ⟨fun k hk => ?_, fun k hk => ?_, ?_, ?_, fun k => ?_⟩
    · norm_num [FiniteMass, dartStart, dartBody]
    · simp [dartStart, dartBody, Body.type, hmax.symm, hmax0.symm]
    · simp [biasMomentum, dartStart, dartBody]
    · simp [groupMass, dartStart, dartBody]
    · simp [Isolates, dartStart, dartJoint, Joint.con]
  obtain ⟨-, m1, m2, -⟩ := C63_group r1 hdt ok1 he' {1} 1 g (by simpa using aw) (by simpa using na) ⟨fun _ => rfl, rfl⟩
    (by intro d hd; simp [dartIn] at hd)
  refine ⟨e, e', r1, he', ?_, ?_⟩
  · rw [m1, hmo]
    norm_num [whole, dartStart, dartBody, dartIn, Vec.add, Vec.mult]
  · rw [m2, hmo]
    norm_num [whole, dartStart, dartBody, dartIn, Vec.add, Vec.mult]

/-- A body of infinite mass with velocity (3, 0). -/
noncomputable def liftBody : Body ℝ :=
  { m := maxFloat, m_inv := 0, i := maxFloat, i_inv := 0, cog := ⟨0, 0⟩, p := ⟨0, 0⟩, v := ⟨3, 0⟩, f := ⟨0, 0⟩, a := 0, w := 0, t := 0,
    transform := ⟨1, 0, 0, 1, 0, 0⟩, v_bias := ⟨0, 0⟩, w_bias := 0, shapes := [], idle := 0 }

/-- A new space with kinematic bodies. -/
noncomputable def liftStart : Engine ℝ :=
  ⟨Sp.newSpace 3 1 (fun _ => .kinematic) (fun _ => (1, false)) (fun _ => (2, 3)), ⟨fun _ => liftBody, fun _ => dartJoint, 0⟩⟩

/-- C63_unmoved applies: to a kinematic body of the space and to the static body of the space. -/
example : ∃ e e' : Engine ℝ, e.Reach ∧ e.call (.step dartIn) = some e' ∧
    e'.mo.bodies 1 = liftBody.updatePosition (1 / 2) ∧ e'.mo.bodies 0 = liftBody := by
  have r0 : liftStart.Reach := .new 3 1 _ _ _ _ fun _ => ⟨rfl, rfl⟩
  have ok0 : (Call.op (.addBody 1)).Allowed liftStart := ⟨⟨rfl, by show 1 < 3 + 1; norm_num⟩, by intro i; simp⟩
  obtain ⟨e, he⟩ := C63_no_panic r0 _ ok0
  have r1 : e.Reach := .call _ r0 ok0 he
  obtain ⟨L, w⟩ := r0.good.1.world
  obtain ⟨t, L', et, wt, eff⟩ := Sp.op_good w (.addBody 1) ok0.1
  have ee : e = ⟨t, liftStart.mo⟩ := by
    simp only [Engine.call, et, Option.map_some, Option.some.injEq] at he
    exact he.symm
  have hmo : e.mo = liftStart.mo := by rw [ee]
  have hty : e.sp.typ 1 = .kinematic := by
    rw [ee]
    show t.typ 1 = _
    rw [eff.types]
    rfl
  have hty0 : e.sp.typ 0 = .static := by
    rw [ee]
    show t.typ 0 = _
    rw [eff.types]
    rfl
  have hin : (e.sp.bodies 1).inSpace = true := by
    rw [ee]
    show (t.bodies 1).inSpace = _
    rw [eff.bodyIn]
    simp [Sp.Op.bodyIn]
  have ok1 : (Call.step dartIn).Allowed e :=
    ⟨by simp [EngineIn.acts, dartIn], by simp [EngineIn.acts, dartIn], by simp [EngineIn.acts, dartIn]⟩
  obtain ⟨e', he'⟩ := C63_no_panic r1 _ ok1
  have hdt : dartIn.dt ≠ 0 := by norm_num [dartIn]
  have imm : ∀ b, Immovable (e.mo.bodies b) := by intro b; rw [hmo]; exact ⟨rfl, rfl⟩
  refine ⟨e, e', r1, he', ?_, ?_⟩
  · rw [(C63_unmoved r1 hdt ok1 he' (imm 1)).2 hty ?_ hin, hmo]
    · rfl
    · rw [hmo]
      have hmax0 : (maxFloat : ℝ) ≠ 0 := ne_of_gt maxFloat_pos
      simp [liftStart, liftBody, Body.type, hmax0.symm]
  · rw [(C63_unmoved r1 hdt ok1 he' (imm 0)).1 hty0, hmo]; rfl

end CP
