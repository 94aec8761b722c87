import Verif.Props.Push
import Verif.Props.CorrectExamples

/-! # C58: concrete cases -/

namespace CP
open GoFloat

/-- A disc of radius 1 (body 1) at `(x, 0)`, at rest but pushed with `(β, 0)`, and a fixed one of radius 1 at the origin. -/
noncomputable def discBodies (x β : ℝ) : Bodies ℝ := fun k => if k = 1 then { sled 1 x 0 with v_bias := ⟨β, 0⟩ } else sled 0 0 0

/-- The contact of the two discs as the solver keeps it. -/
noncomputable def discContact (mass bias jBias : ℝ) : Contact ℝ :=
  { r1 := ⟨1, 0⟩, r2 := ⟨-1, 0⟩, nMass := mass, tMass := mass, bounce := 0, jnAcc := 0, jtAcc := 0, jBias := jBias, bias := bias, hash := 0 }

/-- The arbiter of the two discs: inelastic, with friction. -/
noncomputable def discArb (mass bias jBias : ℝ) : Arb ℝ :=
  { e := 0, u := 1 / 2, surface_vr := ⟨0, 0⟩, a := 0, b := 1, n := ⟨1, 0⟩, first := false, contacts := [discContact mass bias jBias] }

/-- The discs, with no joints. -/
noncomputable def discMotion (x β : ℝ) : Motion ℝ := { bodies := discBodies x β, joints := fun _ => .gear (gearDemo 0 0 0), currDt := 1 }

/-- One second, half of the overlap beyond 1/10 is to be undone. -/
noncomputable def discTick : Tick ℝ where
  dt := 1
  gravity := ⟨0, 0⟩
  damping := 1
  iterations := 1
  slop := 1 / 10
  collisionBias := 1 / 2
  movers := [1]
  dyn := [1]
  arbs := [0]
  contact := fun _ => discArb 0 0 0
  joints := []

theorem discSeen (x β : ℝ) : (discMotion x β).seen discTick = discBodies (x + β) 0 := by
  funext k
  simp only [Motion.seen, discMotion, discTick, Motion.move, List.foldl, Bodies.set, discBodies]
  by_cases h : k = 1
  · simp [h, Body.updatePosition, sled, Body.setTransform, Vec.add, Vec.mult, Body.zeroV]
  · simp [h]

theorem discIntegrate (x : ℝ) : (discBodies x 0).set 1 ((discBodies x 0 1).updateVelocity ⟨0, 0⟩ 1 1) = discBodies x 0 := by
  funext k
  simp only [discBodies, Bodies.set]
  by_cases h : k = 1
  · have : ({ sled 1 x 0 with v_bias := ⟨0, 0⟩ } : Body ℝ).type = .dynamic := by
      have n1 : ¬ ({ sled 1 x 0 with v_bias := ⟨0, 0⟩ } : Body ℝ).idle = maxFloat := maxFloat_pos.ne
      have n2 : ¬ ({ sled 1 x 0 with v_bias := ⟨0, 0⟩ } : Body ℝ).m = maxFloat := one_lt_maxFloat.ne
      rw [Body.type, if_neg n1, if_neg n2]
    simp [h, Body.updateVelocity, this]
    simp [sled, Body.setTransform, Vec.add, Vec.mult, Body.zeroV]
  · simp [h]

theorem discStill (x β : ℝ) (r1 r2 : Vec ℝ) : applyImpulses (discBodies x β) 0 1 r1 r2 ⟨0, 0⟩ = discBodies x β := by
  funext k
  simp only [applyImpulses, discBodies, Bodies.set]
  by_cases h : k = 1
  · simp [h, sled, Body.setTransform]
  · by_cases h2 : k = 0
    · simp [h2, sled, Body.setTransform]
    · simp [h, h2]

theorem discShove (x β : ℝ) : applyBiasImpulses (discBodies x 0) 0 1 ⟨1, 0⟩ ⟨-1, 0⟩ ⟨β, 0⟩ = discBodies x β := by
  funext k
  simp only [applyBiasImpulses, discBodies, Bodies.set]
  by_cases h : k = 1
  · simp [h, sled, Body.setTransform]
  · by_cases h2 : k = 0
    · simp [h2, sled, Body.setTransform]
    · simp [h, h2]

theorem discPre (x : ℝ) : (discArb 0 0 0).preStep (discBodies x 0) 1 (1 / 10) (1 / 2) = discArb 1 (1 / 2 * max 0 (2 - x - 1 / 10)) 0 := by
  have hm : min 0 ((-1 - 1 + x) + 1 / 10) = -max 0 (2 - x - 1 / 10) := by
    rw [show (-1 - 1 + x) + 1 / 10 = -(2 - x - 1 / 10) by ring]
    rw [← min_neg_neg, neg_zero]
  simp only [Arb.preStep, discArb, discContact, List.map, discBodies, sled, Body.setTransform, kScalar, kScalarBody, normalRelVel, relVel, Vec.dot, Vec.add, Vec.sub, Vec.mult,
    Vec.perp, Vec.cross]
  norm_num
  have h2 : -2 + x + 1 / 10 = (-1 - 1 + x) + 1 / 10 := by ring
  rw [h2, hm]
  ring

theorem discApply (x β : ℝ) (hβ : 0 ≤ β) : ((discArb 1 β 0).applyImpulse (discBodies x 0)).1 = discBodies x β := by
  have e : (discArb 1 β 0).applyContact (discBodies x 0) (discContact 1 β 0) =
      (applyImpulses (applyBiasImpulses (discBodies x 0) 0 1 ⟨1, 0⟩ ⟨-1, 0⟩ ⟨β, 0⟩) 0 1 ⟨1, 0⟩ ⟨-1, 0⟩ ⟨0, 0⟩, discContact 1 β β) := by
    simp [Arb.applyContact, discArb, discContact, discBodies, sled, Body.setTransform, relVel, Vec.add, Vec.sub, Vec.mult, Vec.dot, Vec.perp, Vec.rotate, hβ, clamp]
  have : ((discArb 1 β 0).applyImpulse (discBodies x 0)).1 = ((discArb 1 β 0).applyContact (discBodies x 0) (discContact 1 β 0)).1 := rfl
  rw [this, e, discShove, discStill]

/-- One step, computed. -/
theorem discStep (x β : ℝ) : (discMotion x β).tick discTick = discMotion (x + β) (1 / 2 * max 0 (2 - (x + β) - 1 / 10)) := by
  have hβ : 0 ≤ 1 / 2 * max 0 (2 - (x + β) - 1 / 10) := by
    have := le_max_left 0 (2 - (x + β) - 1 / 10)
    positivity
  have h1 : discTick.dt ≠ 0 := one_ne_zero
  have hseen := discSeen x β
  simp only [Motion.seen] at hseen
  simp only [Motion.tick, if_neg h1]
  rw [hseen]
  have hp : Solver.stepProgram discTick.arbs discTick.joints discTick.dyn discTick.iterations discTick.dt (discMotion x β).currDt discTick.slop discTick.collisionBias discTick.damping
      discTick.gravity = [.arbPreStep 0 1 (1 / 10) (1 / 2), .integrate 1 ⟨0, 0⟩ 1 1, .arbCached 0 1, .arbApply 0] := by
    simp [Solver.stepProgram, discTick, discMotion, pow_real]
    norm_num
  rw [hp]
  have c : (discArb 1 (1 / 2 * max 0 (2 - (x + β) - 1 / 10)) 0).applyCached (discBodies (x + β) 0) 1 = discBodies (x + β) 0 := by
    have : (discArb 1 (1 / 2 * max 0 (2 - (x + β) - 1 / 10)) 0).applyCached (discBodies (x + β) 0) 1 =
        applyImpulses (discBodies (x + β) 0) 0 1 ⟨1, 0⟩ ⟨-1, 0⟩ ⟨0, 0⟩ := by
      simp [Arb.applyCached, discArb, discContact, Vec.rotate, Vec.mult]
    rw [this, discStill]
  have a1 : ∀ s : Solver ℝ, s.run [.arbPreStep 0 1 (1 / 10) (1 / 2), .integrate 1 ⟨0, 0⟩ 1 1, .arbCached 0 1, .arbApply 0] =
    (((s.step (.arbPreStep 0 1 (1 / 10) (1 / 2))).step (.integrate 1 ⟨0, 0⟩ 1 1)).step (.arbCached 0 1)).step (.arbApply 0) := fun _ => rfl
  rw [a1]
  have p : (discTick.contact 0).preStep (discBodies (x + β) 0) 1 (1 / 10) (1 / 2) = discArb 1 (1 / 2 * max 0 (2 - (x + β) - 1 / 10)) 0 := discPre _
  simp only [Solver.step, Solver.setArb, if_true, p, discIntegrate, c, discApply _ _ hβ]
  rfl

/-- The discs from their first overlap of 1/2 on. -/
noncomputable def discStates : Nat → Motion ℝ
  | 0 => discMotion (3 / 2) 0
  | n + 1 => (discStates n).tick discTick

theorem discStates_eq (n : Nat) : ∃ x β, discStates n = discMotion x β ∧ 1 ≤ x + β ∧ x + β ≤ 19 / 10 := by
  induction n with
  | zero => exact ⟨_, _, rfl, by norm_num, by norm_num⟩
  | succ n ih =>
    obtain ⟨x, β, e, h1, h2⟩ := ih
    refine ⟨_, _, by rw [discStates, e, discStep], ?_, ?_⟩ <;> rw [max_eq_right (by linarith)] <;> linarith

theorem discRound (x : ℝ) (h1 : 1 ≤ x) (h2 : x ≤ 19 / 10) : (discTick.contact 0).Round (discBodies x 0) 1 1 := by
  refine ⟨⟨⟨⟨1, 0⟩, 0, [⟨⟨1, 0⟩, ⟨x - 1, 0⟩, 0#64⟩]⟩, ⟨⟨1, 0⟩, ⟨x - 1, 0⟩, 0#64⟩, discContact 0 0 0, ?_, rfl, rfl, rfl, ?_, ?_⟩, ?_⟩
  · have pa : (discBodies x 0 (discTick.contact 0).a).p = ⟨0, 0⟩ := rfl
    have pb : (discBodies x 0 (discTick.contact 0).b).p = ⟨x, 0⟩ := rfl
    rw [pa, pb]
    have hl : (Vec.sub ⟨x, 0⟩ ⟨0, 0⟩ : Vec ℝ).lengthSq = x * x := by simp [Vec.lengthSq, Vec.sub, Vec.dot]
    have hlt : x * x < (1 + 1) * (1 + 1) := by nlinarith
    have hx : x ≠ 0 := by linarith
    simp only [Coll.circleToCircle, hl, if_pos hlt, sqrt_real, Real.sqrt_mul_self (by linarith : 0 ≤ x), ne_eq, hx, not_false_eq_true, if_true, Coll.Info.push, List.length_nil,
      Nat.zero_lt_two, List.nil_append, Option.some.injEq]
    have : (Vec.sub ⟨x, 0⟩ ⟨0, 0⟩ : Vec ℝ).mult (1 / x) = ⟨1, 0⟩ := by simp [Vec.sub, Vec.mult, hx]
    rw [this]
    simp [Vec.add, Vec.mult, sub_eq_add_neg]
  · show (⟨0, 0⟩ : Vec ℝ).add ⟨1, 0⟩ = ⟨1, 0⟩
    simp [Vec.add]
  · show (⟨x, 0⟩ : Vec ℝ).add ⟨-1, 0⟩ = ⟨x - 1, 0⟩
    simp [Vec.add, sub_eq_add_neg]
  · simp [discTick, discArb, Vec.dot]

theorem discLast (m : Motion ℝ) : discTick.LastPush m 0 := ⟨Nat.one_pos, [], [], rfl, by simp, by simp, by simp⟩

theorem discCarries (x β : ℝ) (k : Nat) (hk : k = 0 ∨ k = 1) : discTick.Carries (discBodies x β) k := by
  refine ⟨by simp [discTick], ?_⟩
  rcases hk with rfl | rfl
  · exact .inr ⟨rfl, rfl, rfl, rfl⟩
  · exact .inl (by simp [discTick])

theorem discPressed : Pressed discStates (fun _ => discTick) (fun _ => 0) 1 (1 / 10) (1 / 2) 1 1 0 1 where
  step n := rfl
  kind n := ⟨rfl, rfl, rfl⟩
  pair n := ⟨rfl, rfl⟩
  round n := by
    obtain ⟨x, β, e, h1, h2⟩ := discStates_eq n
    rw [e, discSeen]
    exact discRound _ h1 h2
  inelastic n := rfl
  last n := discLast _
  free n x _ := .inr (by simp [Tick.Unjoined, discTick])
  carried n x hx := by
    obtain ⟨y, β, e, -, -⟩ := discStates_eq n
    rw [e]
    exact discCarries y β x hx

theorem discSolvable (x β : ℝ) : Solvable (discBodies x β) 0 1 :=
  ⟨by show (0:ℝ) < 0 + 1; norm_num, le_refl (0:ℝ), le_refl (0:ℝ)⟩

/-- A concrete sequence that meets the hypotheses of `C58_settle`: the discs overlap by 1/2 at first, and beyond 1/10 after `n` seconds by at
most `(1/2)^n * 4/10`. -/
example (n : Nat) : roundOverlap ((discStates n).seen discTick) 0 1 1 1 - 1 / 10 ≤ (1 / 2) ^ n * (4 / 10) := by
  have := C58_settle discStates (fun _ => discTick) (fun _ => 0) 1 (1 / 10) (1 / 2) 1 1 0 1 discPressed one_pos (by decide) (discSolvable _ _)
    (by norm_num) (by norm_num) n
  have h0 : roundOverlap ((discStates 0).seen discTick) 0 1 1 1 = 1 / 2 := by
    have e : (discStates 0).seen discTick = discBodies (3 / 2 + 0) 0 := discSeen _ _
    rw [e, roundOverlap]
    have : (discBodies (3 / 2 + 0) 0 0).p.distance (discBodies (3 / 2 + 0) 0 1).p = (⟨-(3 / 2), 0⟩ : Vec ℝ).length := by
      simp [Vec.distance, discBodies, sled, Body.setTransform, Vec.sub]
    rw [this, length_flat]
    norm_num
  rw [h0] at this
  norm_num at this ⊢
  linarith

/-- A concrete case for `C58_exact`: the first of these steps pushes with 1/5, which undoes half of 4/10 in a second. -/
example : discTick.Alone (discMotion (3 / 2) 0) 0 ∧ ((discMotion (3 / 2) 0).tick discTick).bodies 1 = discBodies (3 / 2) (1 / 5) 1 ∧
    (discTick.contact 0).pushVel (discContact 0 0 0) ((discMotion (3 / 2) 0).tick discTick).bodies = 1 / 5 := by
  have ha : discTick.Alone (discMotion (3 / 2) 0) 0 := ⟨Nat.one_pos, by simp [discTick], fun k hk hne => by simp [discTick] at hk; exact absurd hk hne⟩
  refine ⟨ha, ?_, ?_⟩
  · rw [discStep]
    show discBodies _ _ 1 = _
    rw [max_eq_right (by norm_num)]
    norm_num
  · have := (C58_exact (discMotion (3 / 2) 0) discTick 0 (discContact 0 0 0) one_pos ha rfl (by decide) (by simp [discTick, discArb, Vec.dot]) (discSolvable _ _)
      (by simp [discTick]; norm_num) (discCarries _ _ _ (.inl rfl)) (discCarries _ _ _ (.inr rfl))).1
    rw [this, discSeen]
    have ho : (discTick.contact 0).overlap (discContact 0 0 0) (discBodies (3 / 2 + 0) 0) = 1 / 2 := by
      simp [Arb.overlap, discTick, discArb, discContact, discBodies, sled, Body.setTransform, Vec.add, Vec.sub, Vec.dot]
      norm_num
    rw [ho]
    simp only [discTick, Real.rpow_one]
    rw [max_eq_right (by norm_num)]
    norm_num

/-- A concrete case for `C58_idle`: discs that overlap by 1/20 only are not pushed. -/
example : ((discMotion (39 / 20) 0).tick discTick).bodies 1 = discBodies (39 / 20) 0 1 ∧
    (((discMotion (39 / 20) 0).tick discTick).bodies 1).v_bias = ⟨0, 0⟩ := by
  constructor
  · rw [discStep]
    show discBodies _ _ 1 = _
    rw [max_eq_left (by norm_num)]
    norm_num
  · refine (C58_idle (discMotion (39 / 20) 0) discTick one_ne_zero ?_ ?_ 1 (discCarries _ _ _ (.inr rfl))).1
    · intro i hi c hc
      have hc' : c = discContact 0 0 0 := by simpa [discTick, discArb] using hc
      rw [hc', discSeen]
      show (discArb 0 0 0).overlap _ _ ≤ 1 / 10
      simp [Arb.overlap, discArb, discContact, discBodies, sled, Body.setTransform, Vec.add, Vec.sub, Vec.dot]
      norm_num
    · intro i hi x hx
      exact discCarries _ _ x hx

/-- A concrete case for `C58_velocities`: with a weaker correction the disc is pushed less but has the same velocity. -/
example : ((discMotion (3 / 2) 0).tick { discTick with slop := 1 / 4, collisionBias := 3 / 4 }).bodies 1 = discBodies (3 / 2) (1 / 16) 1 := by
  have h := (C58_velocities (discMotion (3 / 2) 0) discTick (1 / 4) (3 / 4)).2 1
  obtain ⟨t, ht⟩ : ∃ t : Tick ℝ, t = { discTick with slop := 1 / 4, collisionBias := 3 / 4 } := ⟨_, rfl⟩
  rw [← ht] at h ⊢
  have ha : t.Alone (discMotion (3 / 2) 0) 0 := by rw [ht]; exact ⟨Nat.one_pos, by simp [discTick], fun k hk hne => by simp [discTick] at hk; exact absurd hk hne⟩
  have hs : (discMotion (3 / 2) 0).seen t = discBodies (3 / 2 + 0) 0 := by rw [ht]; exact discSeen _ _
  have hc : t.contact 0 = discArb 0 0 0 := by rw [ht]; rfl
  have hca : ∀ k, k = 0 ∨ k = 1 → t.Carries (discMotion (3 / 2) 0).bodies k := by rw [ht]; exact fun k hk => discCarries _ _ k hk
  have z := alone_shoved (discMotion (3 / 2) 0) t 0 (discContact 0 0 0) (by rw [ht]; exact one_pos) ha (by rw [hc]; rfl) (by rw [hc]; decide)
    (by rw [hc]; simp [discArb, Vec.dot]) (by rw [hc]; exact discSolvable _ _) (by rw [ht]; simp [discTick]; norm_num) (by
      rw [hc, hs]
      rintro x (rfl | rfl) <;> exact ⟨rfl, rfl⟩)
  rw [hc, hs] at z
  have ho : (discArb 0 0 0).overlap (discContact 0 0 0) (discBodies (3 / 2 + 0) 0) = 1 / 2 := by
    simp [Arb.overlap, discArb, discContact, discBodies, sled, Body.setTransform, Vec.add, Vec.sub, Vec.dot]
    norm_num
  have hk : kScalar (discBodies (3 / 2 + 0) 0) (discArb 0 0 0).a (discArb 0 0 0).b (discContact 0 0 0).r1 (discContact 0 0 0).r2 (discArb 0 0 0).n = 1 := by
    simp [kScalar, kScalarBody, discArb, discContact, discBodies, sled, Body.setTransform, Vec.cross]
  rw [ho, hk, show t.collisionBias = 3 / 4 by rw [ht], show t.slop = 1 / 4 by rw [ht], show t.dt = 1 by rw [ht]; rfl] at z
  rw [Real.rpow_one, max_eq_right (by norm_num)] at z
  have e2 : (1 - 3 / 4 : ℝ) * (1 / 2 - 1 / 4) / 1 / 1 = 1 / 16 := by norm_num
  rw [e2] at z
  have vb := z.vb
  have wb := z.wb
  have s1 : ((discMotion (3 / 2) 0).tick discTick).bodies 1 = discBodies (3 / 2) (1 / 5) 1 := by
    rw [discStep]
    show discBodies _ _ 1 = _
    rw [max_eq_right (by norm_num)]
    norm_num
  rw [s1] at h
  have vb' : (((discMotion (3 / 2) 0).tick t).bodies 1).v_bias = ⟨1 / 16, 0⟩ := by
    refine vb.trans ?_
    simp [discArb, Vec.mult, discBodies, sled, Body.setTransform]
  have wb' : (((discMotion (3 / 2) 0).tick t).bodies 1).w_bias = 0 := by
    refine wb.trans ?_
    simp [discArb, discContact, Vec.cross]
  generalize ((discMotion (3 / 2) 0).tick t).bodies 1 = b at h vb' wb'
  obtain ⟨⟩ := b
  simp only at vb' wb'
  simp only [discBodies, if_true, sled, Body.setTransform, Body.mk.injEq] at h ⊢
  simp only [vb', wb']
  tauto

end CP
