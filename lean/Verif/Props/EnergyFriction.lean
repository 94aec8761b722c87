import Verif.Proofs.Energy5
import Verif.Props.CorrectExamples

/-! # C59: friction can create energy

A body in a corner: it touches a wall on its left and a floor below, moves away from both, and turns such that its lowest part slides into
the floor. Everything is cold (first contact), inelastic, there is no gravity. -/

namespace CP
open GoFloat Finset

/-- Bodies: 0 is the body in the corner, the others do not move; 1 is the wall, 2 is the floor. -/
noncomputable def cornerBodies (v : Vec ℝ) (w : ℝ) : Bodies ℝ := fun k =>
  if k = 0 then { sled 1 0 0 with v := v, w := w, i := 1, i_inv := 1 }
  else { sled 0 0 0 with p := if k = 1 then ⟨-3, -2⟩ else ⟨-1, -3⟩ }

/-- The contacts of the wall and the floor. -/
noncomputable def cornerContact (r2 : Vec ℝ) (nM tM jn jt jb b : ℝ) : Contact ℝ :=
  { r1 := ⟨0, 0⟩, r2 := r2, nMass := nM, tMass := tM, bounce := 0, jnAcc := jn, jtAcc := jt, jBias := jb, bias := b, hash := 0 }

/-- The wall touches the body at `(-3, -2)`, friction 1. -/
noncomputable def wallArb (nM tM jn jt jb b : ℝ) : Arb ℝ :=
  { e := 0, u := 1, surface_vr := ⟨0, 0⟩, a := 1, b := 0, n := ⟨1, 0⟩, first := true, contacts := [cornerContact ⟨-3, -2⟩ nM tM jn jt jb b] }

/-- The floor touches the body at `(-1, -3)`, friction 2. -/
noncomputable def floorArb (nM tM jn jt jb b : ℝ) : Arb ℝ :=
  { e := 0, u := 2, surface_vr := ⟨0, 0⟩, a := 2, b := 0, n := ⟨0, 1⟩, first := true, contacts := [cornerContact ⟨-1, -3⟩ nM tM jn jt jb b] }

/-- A step with `n` iterations. -/
noncomputable def cornerTick (n : Nat) : Tick ℝ where
  dt := 1
  gravity := ⟨0, 0⟩
  damping := 1
  iterations := n
  slop := 1 / 10
  collisionBias := 1 / 2
  movers := [0]
  dyn := [0]
  arbs := [0, 1]
  contact := fun k => if k = 0 then wallArb 0 0 0 0 0 0 else floorArb 0 0 0 0 0 0
  joints := []

/-- A body that arrives in the corner with the velocity `(1, 1)`, turning with 2. -/
noncomputable def cornerMotion : Motion ℝ :=
  { bodies := fun k => if k = 0 then { sled 1 0 0 with p := ⟨-1, -1⟩, a := -2, v := ⟨1, 1⟩, w := 2, i := 1, i_inv := 1 } else cornerBodies ⟨0, 0⟩ 0 k,
    joints := fun _ => .gear (gearDemo 0 0 0), currDt := 1 }

/-- What matters in the solver's state. -/
structure Corner (s : Solver ℝ) (vx vy w j0 t0 j1 t1 : ℝ) : Prop where
  v : (s.bodies 0).v = ⟨vx, vy⟩
  w : (s.bodies 0).w = w
  m : (s.bodies 0).m = 1
  i : (s.bodies 0).i = 1
  m_inv : (s.bodies 0).m_inv = 1
  i_inv : (s.bodies 0).i_inv = 1
  others : ∀ k, k ≠ 0 → (s.bodies k).v = ⟨0, 0⟩ ∧ (s.bodies k).w = 0 ∧ (s.bodies k).m_inv = 0 ∧ (s.bodies k).i_inv = 0
  wall : ∃ jb b, s.arbs 0 = wallArb (1 / 5) (1 / 10) j0 t0 jb b
  floor : ∃ jb b, s.arbs 1 = floorArb (1 / 2) (1 / 10) j1 t1 jb b

theorem Corner.hitWall {s : Solver ℝ} {vx vy w j0 t0 j1 t1 : ℝ} (c : Corner s vx vy w j0 t0 j1 t1) (J T : ℝ)
    (hJ : J = max (j0 - (vx + 2 * w) / 5) 0) (hT : T = min (max (t0 - (vy - 3 * w) / 10) (-J)) J) :
    Corner (s.step (.arbApply 0)) (vx + (J - j0)) (vy + (T - t0)) (w + (2 * (J - j0) - 3 * (T - t0))) J T j1 t1 := by
  obtain ⟨cv, cw, cm, ci, cmi, cii, co, ⟨jb, b, e0⟩, ⟨jb', b', e1⟩⟩ := c
  obtain ⟨ov, ow, om, oi⟩ := co 1 one_ne_zero
  have ej : ((wallArb (1 / 5) (1 / 10) j0 t0 jb b).applyContact s.bodies (cornerContact ⟨-3, -2⟩ (1 / 5) (1 / 10) j0 t0 jb b)).2.jnAcc = J := by
    rw [hJ]
    simp only [Arb.applyContact, wallArb, cornerContact, relVel, cv, cw, ov, ow, Vec.dot, Vec.add, Vec.sub, Vec.mult, Vec.perp]
    congr 1; ring
  have et : ((wallArb (1 / 5) (1 / 10) j0 t0 jb b).applyContact s.bodies (cornerContact ⟨-3, -2⟩ (1 / 5) (1 / 10) j0 t0 jb b)).2.jtAcc = T := by
    rw [hT]
    rw [show ((wallArb (1 / 5) (1 / 10) j0 t0 jb b).applyContact s.bodies (cornerContact ⟨-3, -2⟩ (1 / 5) (1 / 10) j0 t0 jb b)).2.jtAcc =
      clamp (t0 + -((relVel s.bodies 1 0 ⟨0, 0⟩ ⟨-3, -2⟩).add ⟨0, 0⟩).dot (⟨1, 0⟩ : Vec ℝ).perp * (1 / 10)) (-(1 * ((wallArb (1 / 5) (1 / 10) j0 t0 jb b).applyContact s.bodies (cornerContact ⟨-3, -2⟩ (1 / 5) (1 / 10) j0 t0 jb b)).2.jnAcc))
        (1 * ((wallArb (1 / 5) (1 / 10) j0 t0 jb b).applyContact s.bodies (cornerContact ⟨-3, -2⟩ (1 / 5) (1 / 10) j0 t0 jb b)).2.jnAcc) from rfl, ej, clamp_eq, one_mul]
    simp only [relVel, cv, cw, ov, ow, Vec.dot, Vec.add, Vec.sub, Vec.mult, Vec.perp]
    congr 2; ring
  obtain ⟨jb2, hjb⟩ : ∃ jb2, jb2 = ((wallArb (1 / 5) (1 / 10) j0 t0 jb b).applyContact s.bodies (cornerContact ⟨-3, -2⟩ (1 / 5) (1 / 10) j0 t0 jb b)).2.jBias := ⟨_, rfl⟩
  have hc : ((wallArb (1 / 5) (1 / 10) j0 t0 jb b).applyContact s.bodies (cornerContact ⟨-3, -2⟩ (1 / 5) (1 / 10) j0 t0 jb b)).2 = cornerContact ⟨-3, -2⟩ (1 / 5) (1 / 10) J T jb2 b := by
    rw [← ej, ← et, hjb]; rfl
  have hh : ((wallArb (1 / 5) (1 / 10) j0 t0 jb b).applyContact s.bodies (cornerContact ⟨-3, -2⟩ (1 / 5) (1 / 10) j0 t0 jb b)).1 =
      applyImpulses (applyBiasImpulses s.bodies 1 0 ⟨0, 0⟩ ⟨-3, -2⟩ ((⟨1, 0⟩ : Vec ℝ).mult (jb2 - jb))) 1 0 ⟨0, 0⟩ ⟨-3, -2⟩ ((⟨1, 0⟩ : Vec ℝ).rotate ⟨J - j0, T - t0⟩) := by
    rw [← ej, ← et, hjb]; rfl
  have hs : s.step (.arbApply 0) = { s with bodies := applyImpulses (applyBiasImpulses s.bodies 1 0 ⟨0, 0⟩ ⟨-3, -2⟩ ((⟨1, 0⟩ : Vec ℝ).mult (jb2 - jb))) 1 0 ⟨0, 0⟩ ⟨-3, -2⟩ ((⟨1, 0⟩ : Vec ℝ).rotate ⟨J - j0, T - t0⟩), arbs := fun i => if i = 0 then wallArb (1 / 5) (1 / 10) J T jb2 b else s.arbs i } := by
    simp only [Solver.step, Solver.setArb, e0, Arb.applyImpulse]
    have : (wallArb (1 / 5) (1 / 10) j0 t0 jb b).applyLoop s.bodies (wallArb (1 / 5) (1 / 10) j0 t0 jb b).contacts =
      (((wallArb (1 / 5) (1 / 10) j0 t0 jb b).applyContact s.bodies (cornerContact ⟨-3, -2⟩ (1 / 5) (1 / 10) j0 t0 jb b)).1, [((wallArb (1 / 5) (1 / 10) j0 t0 jb b).applyContact s.bodies (cornerContact ⟨-3, -2⟩ (1 / 5) (1 / 10) j0 t0 jb b)).2]) := rfl
    rw [this, hc, hh]
    rfl
  rw [hs]
  refine ⟨?_, ?_, ?_, ?_, ?_, ?_, ?_, ⟨jb2, b, by simp⟩, ⟨jb', b', by simpa using e1⟩⟩
  · simp [applyImpulses, applyBiasImpulses, Bodies.set, cv, cmi, Vec.add, Vec.mult, Vec.rotate]
  · simp [applyImpulses, applyBiasImpulses, Bodies.set, cw, cii, Vec.cross, Vec.rotate]; ring
  · simp [applyImpulses, applyBiasImpulses, Bodies.set, cm]
  · simp [applyImpulses, applyBiasImpulses, Bodies.set, ci]
  · simp [applyImpulses, applyBiasImpulses, Bodies.set, cmi]
  · simp [applyImpulses, applyBiasImpulses, Bodies.set, cii]
  · intro k hk
    by_cases h1 : k = 1
    · subst h1
      simp [applyImpulses, applyBiasImpulses, Bodies.set, ov, ow, om, oi, Vec.add, Vec.mult, Vec.neg]
    · simp [applyImpulses, applyBiasImpulses, Bodies.set, hk, h1, co k hk]

theorem Corner.hitFloor {s : Solver ℝ} {vx vy w j0 t0 j1 t1 : ℝ} (c : Corner s vx vy w j0 t0 j1 t1) (J T : ℝ)
    (hJ : J = max (j1 - (vy - w) / 2) 0) (hT : T = min (max (t1 + (vx + 3 * w) / 10) (-(2 * J))) (2 * J)) :
    Corner (s.step (.arbApply 1)) (vx - (T - t1)) (vy + (J - j1)) (w - ((J - j1) + 3 * (T - t1))) j0 t0 J T := by
  obtain ⟨cv, cw, cm, ci, cmi, cii, co, ⟨jb', b', e1⟩, ⟨jb, b, e0⟩⟩ := c
  obtain ⟨ov, ow, om, oi⟩ := co 2 two_ne_zero
  have ej : ((floorArb (1 / 2) (1 / 10) j1 t1 jb b).applyContact s.bodies (cornerContact ⟨-1, -3⟩ (1 / 2) (1 / 10) j1 t1 jb b)).2.jnAcc = J := by
    rw [hJ]
    simp only [Arb.applyContact, floorArb, cornerContact, relVel, cv, cw, ov, ow, Vec.dot, Vec.add, Vec.sub, Vec.mult, Vec.perp]
    congr 1; ring
  have et : ((floorArb (1 / 2) (1 / 10) j1 t1 jb b).applyContact s.bodies (cornerContact ⟨-1, -3⟩ (1 / 2) (1 / 10) j1 t1 jb b)).2.jtAcc = T := by
    rw [hT]
    rw [show ((floorArb (1 / 2) (1 / 10) j1 t1 jb b).applyContact s.bodies (cornerContact ⟨-1, -3⟩ (1 / 2) (1 / 10) j1 t1 jb b)).2.jtAcc =
      clamp (t1 + -((relVel s.bodies 2 0 ⟨0, 0⟩ ⟨-1, -3⟩).add ⟨0, 0⟩).dot (⟨0, 1⟩ : Vec ℝ).perp * (1 / 10)) (-(2 * ((floorArb (1 / 2) (1 / 10) j1 t1 jb b).applyContact s.bodies (cornerContact ⟨-1, -3⟩ (1 / 2) (1 / 10) j1 t1 jb b)).2.jnAcc))
        (2 * ((floorArb (1 / 2) (1 / 10) j1 t1 jb b).applyContact s.bodies (cornerContact ⟨-1, -3⟩ (1 / 2) (1 / 10) j1 t1 jb b)).2.jnAcc) from rfl, ej, clamp_eq]
    simp only [relVel, cv, cw, ov, ow, Vec.dot, Vec.add, Vec.sub, Vec.mult, Vec.perp]
    congr 2; ring
  obtain ⟨jb2, hjb⟩ : ∃ jb2, jb2 = ((floorArb (1 / 2) (1 / 10) j1 t1 jb b).applyContact s.bodies (cornerContact ⟨-1, -3⟩ (1 / 2) (1 / 10) j1 t1 jb b)).2.jBias := ⟨_, rfl⟩
  have hc : ((floorArb (1 / 2) (1 / 10) j1 t1 jb b).applyContact s.bodies (cornerContact ⟨-1, -3⟩ (1 / 2) (1 / 10) j1 t1 jb b)).2 = cornerContact ⟨-1, -3⟩ (1 / 2) (1 / 10) J T jb2 b := by
    rw [← ej, ← et, hjb]; rfl
  have hh : ((floorArb (1 / 2) (1 / 10) j1 t1 jb b).applyContact s.bodies (cornerContact ⟨-1, -3⟩ (1 / 2) (1 / 10) j1 t1 jb b)).1 =
      applyImpulses (applyBiasImpulses s.bodies 2 0 ⟨0, 0⟩ ⟨-1, -3⟩ ((⟨0, 1⟩ : Vec ℝ).mult (jb2 - jb))) 2 0 ⟨0, 0⟩ ⟨-1, -3⟩ ((⟨0, 1⟩ : Vec ℝ).rotate ⟨J - j1, T - t1⟩) := by
    rw [← ej, ← et, hjb]; rfl
  have hs : s.step (.arbApply 1) = { s with bodies := applyImpulses (applyBiasImpulses s.bodies 2 0 ⟨0, 0⟩ ⟨-1, -3⟩ ((⟨0, 1⟩ : Vec ℝ).mult (jb2 - jb))) 2 0 ⟨0, 0⟩ ⟨-1, -3⟩ ((⟨0, 1⟩ : Vec ℝ).rotate ⟨J - j1, T - t1⟩), arbs := fun i => if i = 1 then floorArb (1 / 2) (1 / 10) J T jb2 b else s.arbs i } := by
    simp only [Solver.step, Solver.setArb, e0, Arb.applyImpulse]
    have : (floorArb (1 / 2) (1 / 10) j1 t1 jb b).applyLoop s.bodies (floorArb (1 / 2) (1 / 10) j1 t1 jb b).contacts =
      (((floorArb (1 / 2) (1 / 10) j1 t1 jb b).applyContact s.bodies (cornerContact ⟨-1, -3⟩ (1 / 2) (1 / 10) j1 t1 jb b)).1, [((floorArb (1 / 2) (1 / 10) j1 t1 jb b).applyContact s.bodies (cornerContact ⟨-1, -3⟩ (1 / 2) (1 / 10) j1 t1 jb b)).2]) := rfl
    rw [this, hc, hh]
    rfl
  rw [hs]
  refine ⟨?_, ?_, ?_, ?_, ?_, ?_, ?_, ⟨jb', b', by simpa using e1⟩, ⟨jb2, b, by simp⟩⟩
  · simp [applyImpulses, applyBiasImpulses, Bodies.set, cv, cmi, Vec.add, Vec.mult, Vec.rotate]; ring
  · simp [applyImpulses, applyBiasImpulses, Bodies.set, cw, cii, Vec.cross, Vec.rotate]; ring
  · simp [applyImpulses, applyBiasImpulses, Bodies.set, cm]
  · simp [applyImpulses, applyBiasImpulses, Bodies.set, ci]
  · simp [applyImpulses, applyBiasImpulses, Bodies.set, cmi]
  · simp [applyImpulses, applyBiasImpulses, Bodies.set, cii]
  · intro k hk
    by_cases h1 : k = 2
    · subst h1
      simp [applyImpulses, applyBiasImpulses, Bodies.set, ov, ow, om, oi, Vec.add, Vec.mult, Vec.neg]
    · simp [applyImpulses, applyBiasImpulses, Bodies.set, hk, h1, co k hk]

theorem cornerSeen (n : Nat) : cornerMotion.seen (cornerTick n) = cornerBodies ⟨1, 1⟩ 2 := by
  funext k
  simp only [Motion.seen, cornerMotion, cornerTick, Motion.move, List.foldl, Bodies.set, cornerBodies]
  by_cases h : k = 0
  · simp [h, Body.updatePosition, sled, Body.setTransform, Vec.add, Vec.mult, Body.zeroV]
  · simp [h]

/-- One pass. -/
noncomputable def cornerPass : List (SolverOp ℝ) := [.arbApply 0, .arbApply 1]

theorem pass_first {s : Solver ℝ} (c : Corner s 1 1 2 0 0 0 0) : Corner (s.run cornerPass) (3 / 10) (3 / 2) (-3 / 5) 0 0 (1 / 2) (7 / 10) := by
  have c1 := c.hitWall 0 0 (by norm_num) (by norm_num)
  have c2 := c1.hitFloor (1 / 2) (7 / 10) (by norm_num) (by norm_num)
  show Corner ((s.step (.arbApply 0)).step (.arbApply 1)) _ _ _ _ _ _ _
  convert c2 using 1 <;> norm_num

theorem pass_odd {s : Solver ℝ} (c : Corner s (3 / 10) (3 / 2) (-3 / 5) 0 0 (1 / 2) (7 / 10)) :
    Corner (s.run cornerPass) (59 / 50) (41 / 50) (29 / 10) (9 / 50) (-9 / 50) 0 0 := by
  have c1 := c.hitWall (9 / 50) (-9 / 50) (by norm_num) (by norm_num)
  have c2 := c1.hitFloor 0 0 (by norm_num) (by norm_num)
  show Corner ((s.step (.arbApply 0)).step (.arbApply 1)) _ _ _ _ _ _ _
  convert c2 using 1 <;> norm_num

theorem pass_even {s : Solver ℝ} (c : Corner s (59 / 50) (41 / 50) (29 / 10) (9 / 50) (-9 / 50) 0 0) :
    Corner (s.run cornerPass) (3 / 10) (3 / 2) (-3 / 5) 0 0 (1 / 2) (7 / 10) := by
  have c1 := c.hitWall 0 0 (by norm_num) (by norm_num)
  have c2 := c1.hitFloor (1 / 2) (7 / 10) (by norm_num) (by norm_num)
  show Corner ((s.step (.arbApply 0)).step (.arbApply 1)) _ _ _ _ _ _ _
  convert c2 using 1 <;> norm_num

theorem passes_even (n : Nat) : ∀ {s : Solver ℝ}, Corner s (3 / 10) (3 / 2) (-3 / 5) 0 0 (1 / 2) (7 / 10) →
    Corner (s.run (List.replicate (2 * n + 1) cornerPass).flatten) (59 / 50) (41 / 50) (29 / 10) (9 / 50) (-9 / 50) 0 0 := by
  induction n with
  | zero => intro s c; simpa using pass_odd c
  | succ n ih =>
    intro s c
    have : (List.replicate (2 * (n + 1) + 1) cornerPass).flatten = cornerPass ++ (cornerPass ++ (List.replicate (2 * n + 1) cornerPass).flatten) := by
      rw [show 2 * (n + 1) + 1 = (2 * n + 1) + 1 + 1 by ring, List.replicate_succ, List.replicate_succ]
      simp
    rw [this, solver_run_append, solver_run_append]
    exact ih (pass_even (pass_odd c))

theorem passes_odd (n : Nat) {s : Solver ℝ} (c : Corner s (3 / 10) (3 / 2) (-3 / 5) 0 0 (1 / 2) (7 / 10)) :
    Corner (s.run (List.replicate (2 * n) cornerPass).flatten) (3 / 10) (3 / 2) (-3 / 5) 0 0 (1 / 2) (7 / 10) := by
  cases n with
  | zero => exact c
  | succ n =>
    have : (List.replicate (2 * (n + 1)) cornerPass).flatten = (List.replicate (2 * n + 1) cornerPass).flatten ++ cornerPass := by
      rw [show 2 * (n + 1) = (2 * n + 1) + 1 by ring, List.replicate_succ']
      simp
    rw [this, solver_run_append]
    exact pass_even (passes_even n c)

theorem corner_start (n : Nat) : ∃ s2, Corner s2 1 1 2 0 0 0 0 ∧ (cornerMotion.tick (cornerTick n)).bodies = (s2.run (List.replicate n cornerPass).flatten).bodies := by
  have hdt : (cornerTick n).dt ≠ 0 := one_ne_zero
  refine ⟨((startOf cornerMotion (cornerTick n)).run (preOps (cornerTick n) ++ ([SolverOp.integrate 0 ⟨0, 0⟩ 1 1] ++ [.arbCached 0 1, .arbCached 1 1]))), ?_, ?_⟩
  · have hb : (startOf cornerMotion (cornerTick n)).bodies = cornerBodies ⟨1, 1⟩ 2 := cornerSeen n
    obtain ⟨p1, p2, p3⟩ := pre_arbs 1 (1 / 10) (1 - (1 / 2) ^ (1 : ℝ)) [0, 1] (by simp) (startOf cornerMotion (cornerTick n))
    have hpre : preOps (cornerTick n) = [0, 1].map fun k => SolverOp.arbPreStep k 1 (1 / 10) (1 - (1 / 2) ^ (1 : ℝ)) := by
      simp [preOps, cornerTick]
    rw [solver_run_append, hpre]
    obtain ⟨s', hs'⟩ : ∃ s', s' = (startOf cornerMotion (cornerTick n)).run ([0, 1].map fun k => SolverOp.arbPreStep k 1 (1 / 10) (1 - (1 / 2) ^ (1 : ℝ))) := ⟨_, rfl⟩
    rw [← hs'] at p1 p2 p3 ⊢
    rw [hb] at p1
    have a0 := p3 0
    have a1 := p3 1
    rw [hb] at a0 a1
    simp only [List.mem_cons, true_or, or_true, if_true] at a0 a1
    have w0 : ∃ b, s'.arbs 0 = wallArb (1 / 5) (1 / 10) 0 0 0 b := by
      refine ⟨-(1 - (1 / 2) ^ (1 : ℝ)) * min 0 (((⟨-3, -2⟩ : Vec ℝ).sub ⟨0, 0⟩ |>.add ((cornerBodies ⟨1, 1⟩ 2 0).p.sub (cornerBodies ⟨1, 1⟩ 2 1).p)).dot ⟨1, 0⟩ + 1 / 10) / 1, ?_⟩
      rw [a0]
      simp only [startOf, cornerTick, wallArb, cornerContact, Arb.preStep, List.map, kScalar, kScalarBody, if_true]
      congr!
      · simp [cornerBodies, sled, Body.setTransform, Vec.cross]; norm_num
      · simp [cornerBodies, sled, Body.setTransform, Vec.cross, Vec.perp]; norm_num
      · simp
    have w1 : ∃ b, s'.arbs 1 = floorArb (1 / 2) (1 / 10) 0 0 0 b := by
      refine ⟨-(1 - (1 / 2) ^ (1 : ℝ)) * min 0 (((⟨-1, -3⟩ : Vec ℝ).sub ⟨0, 0⟩ |>.add ((cornerBodies ⟨1, 1⟩ 2 0).p.sub (cornerBodies ⟨1, 1⟩ 2 2).p)).dot ⟨0, 1⟩ + 1 / 10) / 1, ?_⟩
      rw [a1]
      simp only [startOf, cornerTick, floorArb, cornerContact, Arb.preStep, List.map, kScalar, kScalarBody, if_true, one_ne_zero, if_false]
      congr!
      · simp [cornerBodies, sled, Body.setTransform, Vec.cross]; norm_num
      · simp [cornerBodies, sled, Body.setTransform, Vec.cross, Vec.perp]; norm_num
      · simp
    obtain ⟨b0, w0⟩ := w0
    obtain ⟨b1, w1⟩ := w1
    have hr : s'.run ([SolverOp.integrate 0 ⟨0, 0⟩ 1 1] ++ [.arbCached 0 1, .arbCached 1 1]) = { s' with bodies := s'.bodies.set 0 ((s'.bodies 0).updateVelocity ⟨0, 0⟩ 1 1) } := by
      simp only [Solver.run, List.cons_append, List.nil_append, List.foldl, Solver.step, Arb.applyCached, w0, w1]
      simp [wallArb, floorArb]
    rw [hr, p1]
    have e0 : (cornerBodies ⟨1, 1⟩ 2).set 0 ((cornerBodies ⟨1, 1⟩ 2 0).updateVelocity ⟨0, 0⟩ 1 1) = cornerBodies ⟨1, 1⟩ 2 := by
      funext k
      simp only [Bodies.set]
      by_cases h : k = 0
      · subst h
        simp only [if_true, Body.updateVelocity]
        split
        · rfl
        · simp [cornerBodies, sled, Body.setTransform, Vec.add, Vec.mult, Body.zeroV]
      · simp [h]
    rw [e0]
    refine ⟨by simp [cornerBodies], by simp [cornerBodies], by simp [cornerBodies, sled, Body.setTransform], by simp [cornerBodies],
      by simp [cornerBodies, sled, Body.setTransform], by simp [cornerBodies], fun k hk => ?_, ⟨0, b0, w0⟩, ⟨0, b1, w1⟩⟩
    simp [cornerBodies, hk, sled, Body.setTransform]
  · rw [tick_bodies _ _ hdt, program_split, ← solver_run_append]
    have : (cornerTick n).dyn.map (fun k => SolverOp.integrate k (cornerTick n).gravity ((cornerTick n).damping ^ (cornerTick n).dt) (cornerTick n).dt) ++
        postOps (cornerTick n) cornerMotion.currDt = [SolverOp.integrate 0 ⟨0, 0⟩ 1 1] ++ [.arbCached 0 1, .arbCached 1 1] ++ (List.replicate n cornerPass).flatten := by
      simp [postOps, cornerTick, cornerMotion, cornerPass]
    rw [this]
    simp only [List.append_assoc]
    rfl

theorem Corner.energy {s : Solver ℝ} {vx vy w j0 t0 j1 t1 : ℝ} (c : Corner s vx vy w j0 t0 j1 t1) : energy {0, 1, 2} s.bodies = vx ^ 2 + vy ^ 2 + w ^ 2 := by
  have h : ∀ k, k ≠ 0 → (s.bodies k).kineticEnergy = 0 := by
    intro k hk
    obtain ⟨h1, h2, -, -⟩ := c.others k hk
    rw [kineticEnergy_eq, h1, h2]; simp [Vec.dot]
  simp only [CP.energy]
  rw [sum_insert (by simp), sum_insert (by simp), sum_singleton, h 1 one_ne_zero, h 2 two_ne_zero, kineticEnergy_eq, c.v, c.w, c.m, c.i]
  simp only [Vec.dot]; ring

/-- **C59**, friction: a body without external forces can leave a step with more kinetic energy than it had before, from friction alone, in a
first collision without bounce. It touches two fixed bodies; the friction that one contact has applied is taken back by a later pass when the
other contact has taken over the load. The solver does not settle either: with 2, 4, 6, 8, 10 (the default), … iterations the energy is
10.47 instead of 6, with 1, 3, 5, … it is 2.7. -/
theorem C59_friction_violated (n : Nat) :
    (∀ k, (cornerMotion.bodies k).Undriven) ∧
    (∀ k, ((cornerTick n).contact k).Fresh ∧ ((cornerTick n).contact k).e = 0 ∧ ((cornerTick n).contact k).surface_vr = ⟨0, 0⟩ ∧
      ((cornerTick n).contact k).n.dot ((cornerTick n).contact k).n = 1) ∧
    energy {0, 1, 2} cornerMotion.bodies = 6 ∧
    energy {0, 1, 2} (cornerMotion.tick (cornerTick 0)).bodies = 6 ∧
    energy {0, 1, 2} (cornerMotion.tick (cornerTick (2 * n + 1))).bodies = 27 / 10 ∧
    energy {0, 1, 2} (cornerMotion.tick (cornerTick (2 * n + 2))).bodies = 26187 / 2500 := by
  refine ⟨fun k => ?_, fun k => ?_, ?_, ?_, ?_, ?_⟩
  · by_cases h : k = 0
    · subst h
      exact ⟨.inl (by simp [cornerMotion, sled, Body.setTransform]), .inl (by simp [cornerMotion])⟩
    · exact ⟨.inr (by simp [cornerMotion, cornerBodies, h, sled, Body.setTransform]), .inr (by simp [cornerMotion, cornerBodies, h, sled, Body.setTransform])⟩
  · by_cases h : k = 0 <;> simp [cornerTick, h, wallArb, floorArb, cornerContact, Arb.Fresh, Vec.dot]
  · simp only [CP.energy]
    rw [sum_insert (by simp), sum_insert (by simp), sum_singleton]
    simp [kineticEnergy_eq, cornerMotion, cornerBodies, sled, Body.setTransform, Vec.dot]
    norm_num
  · obtain ⟨s, c, e⟩ := corner_start 0
    rw [e]
    have : energy {0, 1, 2} (s.run (List.replicate 0 cornerPass).flatten).bodies = _ := c.energy
    rw [this]; norm_num
  · obtain ⟨s, c, e⟩ := corner_start (2 * n + 1)
    rw [e, List.replicate_succ, List.flatten_cons, solver_run_append]
    rw [(passes_odd n (pass_first c)).energy]
    norm_num
  · obtain ⟨s, c, e⟩ := corner_start (2 * n + 2)
    rw [e, List.replicate_succ, List.flatten_cons, solver_run_append, (passes_even n (pass_first c)).energy]
    norm_num

end CP
