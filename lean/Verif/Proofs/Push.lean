import Verif.Spec.Push
import Verif.Proofs.Correct3

/-! # The last contact of a step, and what it leaves behind -/

namespace CP
open GoFloat

/-- A contact without its stored impulses. -/
noncomputable def Contact.core (c : Contact ℝ) : Contact ℝ := { c with jnAcc := 0, jtAcc := 0, jBias := 0 }
/-- An arbiter without its stored impulses. -/
noncomputable def Arb.core (arb : Arb ℝ) : Arb ℝ := { arb with contacts := arb.contacts.map Contact.core }

theorem applyLoop_core (arb : Arb ℝ) : ∀ (cs : List (Contact ℝ)) (h : Bodies ℝ), (arb.applyLoop h cs).2.map Contact.core = cs.map Contact.core
  | [], _ => rfl
  | c :: cs, h => by
    simp only [Arb.applyLoop, List.map_cons, applyLoop_core arb cs]
    rfl

theorem arbApply_core (arb : Arb ℝ) (h : Bodies ℝ) : (arb.applyImpulse h).2.core = arb.core := by
  simp only [Arb.applyImpulse, Arb.core, applyLoop_core]

theorem step_arbCore (s : Solver ℝ) (op : SolverOp ℝ) (i : Nat) (hop : ∀ dt sl bc, op ≠ .arbPreStep i dt sl bc) :
    ((s.step op).arbs i).core = (s.arbs i).core := by
  cases op with
  | arbPreStep k dt sl bc =>
    have : i ≠ k := fun e => hop dt sl bc (by rw [e])
    simp only [Solver.step, Solver.setArb, if_neg this]
  | arbApply k =>
    simp only [Solver.step, Solver.setArb]
    by_cases e : i = k
    · rw [if_pos e, arbApply_core, e]
    · rw [if_neg e]
  | _ => rfl

theorem run_arbCore (ops : List (SolverOp ℝ)) (i : Nat) (hop : ∀ op ∈ ops, ∀ dt sl bc, op ≠ .arbPreStep i dt sl bc) : ∀ s : Solver ℝ,
    ((s.run ops).arbs i).core = (s.arbs i).core := by
  induction ops with
  | nil => exact fun _ => rfl
  | cons op ops ih =>
    intro s
    exact (ih (fun o ho => hop o (List.mem_cons_of_mem _ ho)) (s.step op)).trans (step_arbCore s op i (hop op List.mem_cons_self))

/-- Preparing arbiters changes no bodies, no joints and only those arbiters. -/
theorem run_arbPre (l : List Nat) (dt sl bc : ℝ) : ∀ s : Solver ℝ,
    (s.run (l.map fun k => .arbPreStep k dt sl bc)).bodies = s.bodies ∧ (s.run (l.map fun k => .arbPreStep k dt sl bc)).joints = s.joints ∧
      ∀ i, i ∉ l → (s.run (l.map fun k => .arbPreStep k dt sl bc)).arbs i = s.arbs i := by
  induction l with
  | nil => exact fun s => ⟨rfl, rfl, fun _ _ => rfl⟩
  | cons k l ih =>
    intro s
    obtain ⟨h1, h2, h3⟩ := ih (s.step (.arbPreStep k dt sl bc))
    refine ⟨h1, h2, fun i hi => (h3 i fun h => hi (List.mem_cons_of_mem _ h)).trans ?_⟩
    have : i ≠ k := fun e => hi (by rw [e]; exact List.mem_cons_self)
    simp only [Solver.step, Solver.setArb, if_neg this]

/-- The state before the solver phase. -/
noncomputable def Motion.begun (m : Motion ℝ) (t : Tick ℝ) : Solver ℝ := { bodies := m.seen t, joints := m.joints, arbs := t.contact }

/-- The program of a step, cut at the preparation and at the last call for arbiter `i`. -/
theorem program_cut (t : Tick ℝ) (prev : ℝ) (i : Nat) (pre post : List Nat) (harb : t.arbs = pre ++ i :: post) (hit : 0 < t.iterations) :
    ∃ B : List (SolverOp ℝ),
      Solver.stepProgram t.arbs t.joints t.dyn t.iterations t.dt prev t.slop t.collisionBias t.damping t.gravity =
        pre.map (fun k => SolverOp.arbPreStep k t.dt t.slop (1 - t.collisionBias ^ t.dt)) ++
          (SolverOp.arbPreStep i t.dt t.slop (1 - t.collisionBias ^ t.dt) :: (B ++ (SolverOp.arbApply i ::
            (post.map (fun k => (SolverOp.arbApply k : SolverOp ℝ)) ++ t.joints.map (fun k => SolverOp.jointApply k t.dt))))) ∧
      (∀ op ∈ B, ∀ k, op.arb? = some k → k ∈ t.arbs) ∧
      ∀ op ∈ B, ∀ k dt sl bc, op = .arbPreStep k dt sl bc → k ∈ post := by
  obtain ⟨round, hround⟩ : ∃ l, l = t.arbs.map (fun k => (SolverOp.arbApply k : SolverOp ℝ)) ++ t.joints.map (fun k => SolverOp.jointApply k t.dt) := ⟨_, rfl⟩
  obtain ⟨co, hco⟩ : ∃ co : ℝ, co = if prev ≠ 0 then t.dt / prev else 0 := ⟨_, rfl⟩
  refine ⟨post.map (fun k => SolverOp.arbPreStep k t.dt t.slop (1 - t.collisionBias ^ t.dt)) ++ (t.joints.map (fun k => SolverOp.jointPreStep k t.dt) ++
    (t.dyn.map (fun k => SolverOp.integrate k t.gravity (t.damping ^ t.dt) t.dt) ++
      (t.arbs.map (fun k => SolverOp.arbCached k co) ++ (t.joints.map (fun k => SolverOp.jointCached k co) ++ ((List.replicate (t.iterations - 1) round).flatten ++
        pre.map (fun k => (SolverOp.arbApply k : SolverOp ℝ))))))), ?_, ?_, ?_⟩
  · simp only [Solver.stepProgram, pow_real]
    rw [← hco, ← hround, replicate_last _ hit]
    conv_lhs => rw [hround]
    simp only [harb, List.map_append, List.map_cons, List.append_assoc, List.cons_append]
    rw [hround, harb]
    simp only [List.map_append, List.map_cons, List.append_assoc, List.cons_append]
  · intro op ho k hk
    simp only [List.mem_append, List.mem_map, List.mem_flatten, List.mem_replicate] at ho
    rcases ho with ⟨i, hi, rfl⟩ | ⟨i, _, rfl⟩ | ⟨i, _, rfl⟩ | ⟨i, hi, rfl⟩ | ⟨i, _, rfl⟩ | ⟨l, ⟨_, rfl⟩, hl⟩ | ⟨i, hi, rfl⟩
    · cases hk; rw [harb]; simp [hi]
    · cases hk
    · cases hk
    · cases hk; exact hi
    · cases hk
    · rw [hround] at hl
      simp only [List.mem_append, List.mem_map] at hl
      rcases hl with ⟨i, hi, rfl⟩ | ⟨i, _, rfl⟩
      · cases hk; exact hi
      · cases hk
    · cases hk; rw [harb]; simp [hi]
  · intro op ho k dt sl bc e
    simp only [List.mem_append, List.mem_map, List.mem_flatten, List.mem_replicate] at ho
    rcases ho with ⟨i, hi, rfl⟩ | ⟨i, _, rfl⟩ | ⟨i, _, rfl⟩ | ⟨i, hi, rfl⟩ | ⟨i, _, rfl⟩ | ⟨l, ⟨_, rfl⟩, hl⟩ | ⟨i, hi, rfl⟩
    · cases e; exact hi
    · cases e
    · cases e
    · cases e
    · cases e
    · rw [hround] at hl
      simp only [List.mem_append, List.mem_map] at hl
      rcases hl with ⟨i, _, rfl⟩ | ⟨i, _, rfl⟩ <;> cases e
    · cases e

theorem tick_bodies (m : Motion ℝ) (t : Tick ℝ) (hdt : t.dt ≠ 0) : (m.tick t).bodies =
    ((m.begun t).run (Solver.stepProgram t.arbs t.joints t.dyn t.iterations t.dt m.currDt t.slop t.collisionBias t.damping t.gravity)).bodies := by
  simp only [Motion.tick, if_neg hdt, Motion.begun, Motion.seen]

theorem begun_stays (m : Motion ℝ) (t : Tick ℝ) : Stays m (m.seen t) (m.begun t) := ⟨fun _ => .refl _, fun _ => rfl⟩

theorem run_arbCon (ops : List (SolverOp ℝ)) : ∀ (s : Solver ℝ) (k : Nat), ((s.run ops).arbs k).a = (s.arbs k).a ∧ ((s.run ops).arbs k).b = (s.arbs k).b := by
  induction ops with
  | nil => exact fun _ _ => ⟨rfl, rfl⟩
  | cons op ops ih =>
    intro s k
    obtain ⟨h1, h2⟩ := ih (s.step op) k
    obtain ⟨k1, k2⟩ := (step_con s op).2 k
    exact ⟨h1.trans k1, h2.trans k2⟩

/-- Actions that do not integrate do not move what cannot be moved. -/
theorem run_immovable (x : Nat) (ops : List (SolverOp ℝ)) : ∀ (s : Solver ℝ), Immovable (s.bodies x) → (∀ op ∈ ops, op.integrated? = none) →
    (s.run ops).bodies x = s.bodies x := by
  induction ops with
  | nil => exact fun _ _ _ => rfl
  | cons op ops ih =>
    intro s hi h
    have e := (step_kicks s op (h op List.mem_cons_self)).immovable x hi
    exact (ih (s.step op) (by rw [e]; exact hi) fun o ho => h o (List.mem_cons_of_mem _ ho)).trans e

/-- The end of a step in which arbiter `i` has the last word on its bodies: the bodies' pushing velocities are those that the last
`ApplyImpulse` left, and, for bodies without joints, so is everything else. -/
theorem last_push (m : Motion ℝ) (t : Tick ℝ) (i : Nat) (hdt : t.dt ≠ 0) (hl : t.LastPush m i) :
    ∃ (h : Bodies ℝ) (arb : Arb ℝ), (∀ x, Frozen (m.seen t x) (h x)) ∧
      arb.core = ((t.contact i).preStep (m.seen t) t.dt t.slop (1 - t.collisionBias ^ t.dt)).core ∧
      ∀ x, x = (t.contact i).a ∨ x = (t.contact i).b →
        ((m.tick t).bodies x).v_bias = ((arb.applyImpulse h).1 x).v_bias ∧ ((m.tick t).bodies x).w_bias = ((arb.applyImpulse h).1 x).w_bias ∧
        (Immovable (m.bodies x) ∨ t.Unjoined m x → (m.tick t).bodies x = (arb.applyImpulse h).1 x) := by
  obtain ⟨hit, pre, post, harb, hpre, hpost, hx⟩ := hl
  obtain ⟨B, hprog, hBa, hBp⟩ := program_cut t m.currDt i pre post harb hit
  obtain ⟨bc, hbc⟩ : ∃ bc : ℝ, bc = 1 - t.collisionBias ^ t.dt := ⟨_, rfl⟩
  rw [← hbc] at hprog ⊢
  obtain ⟨sA, hsA⟩ : ∃ sA, sA = (m.begun t).run (pre.map fun k => .arbPreStep k t.dt t.slop bc) := ⟨_, rfl⟩
  obtain ⟨sP, hsP⟩ : ∃ sP, sP = sA.step (.arbPreStep i t.dt t.slop bc) := ⟨_, rfl⟩
  obtain ⟨sB, hsB⟩ : ∃ sB, sB = sP.run B := ⟨_, rfl⟩
  obtain ⟨sC, hsC⟩ : ∃ sC, sC = sB.step (.arbApply i) := ⟨_, rfl⟩
  obtain ⟨pA1, pA2, pA3⟩ := run_arbPre pre t.dt t.slop bc (m.begun t)
  rw [← hsA] at pA1 pA2 pA3
  have SB : Stays m (m.seen t) sB := by rw [hsB, hsP, hsA]; exact (((begun_stays m t).run _).step _).run _
  have hP : sP.arbs i = (t.contact i).preStep (m.seen t) t.dt t.slop bc := by
    rw [hsP]
    simp only [Solver.step, Solver.setArb, if_pos]
    rw [pA3 i hpre, pA1]
    rfl
  have hcore : (sB.arbs i).core = ((t.contact i).preStep (m.seen t) t.dt t.slop bc).core := by
    rw [hsB, run_arbCore B i ?_, hP]
    intro op ho dt sl bc' e
    exact hpost (hBp op ho i dt sl bc' e)
  have harbs : ∀ k, (sC.arbs k).a = (t.contact k).a ∧ (sC.arbs k).b = (t.contact k).b := by
    intro k
    have : sC = (m.begun t).run ((pre.map fun k => .arbPreStep k t.dt t.slop bc) ++ (.arbPreStep i t.dt t.slop bc :: (B ++ [.arbApply i]))) := by
      rw [solver_run_append, ← hsA]
      have e2 : ∀ (s : Solver ℝ) op l, s.run (op :: l) = (s.step op).run l := fun _ _ _ => rfl
      rw [e2, ← hsP, solver_run_append, ← hsB, hsC]
      rfl
    rw [this]
    exact run_arbCon _ _ k
  have SC : Stays m (m.seen t) sC := by rw [hsC]; exact SB.step _
  have hfin : (m.tick t).bodies = (sC.run (post.map (fun k => (SolverOp.arbApply k : SolverOp ℝ)) ++ t.joints.map (fun k => SolverOp.jointApply k t.dt))).bodies := by
    rw [tick_bodies m t hdt, hprog, solver_run_append, ← hsA]
    have e2 : ∀ (s : Solver ℝ) op l, s.run (op :: l) = (s.step op).run l := fun _ _ _ => rfl
    rw [e2, ← hsP, solver_run_append, ← hsB, e2, ← hsC]
  refine ⟨sB.bodies, sB.arbs i, SB.frozen, hcore, fun x hxx => ?_⟩
  have hCb : sC.bodies = ((sB.arbs i).applyImpulse sB.bodies).1 := by rw [hsC]; rfl
  have hint : ∀ op ∈ post.map (fun k => (SolverOp.arbApply k : SolverOp ℝ)) ++ t.joints.map (fun k => SolverOp.jointApply k t.dt), op.integrated? = none := by
    intro op ho
    simp only [List.mem_append, List.mem_map] at ho
    rcases ho with ⟨j, hj, rfl⟩ | ⟨j, hj, rfl⟩ <;> rfl
  by_cases him : Immovable (m.bodies x)
  · have h1 := SC.frozen x
    have h2 := seen_inertia m t x
    have e := run_immovable x _ sC ⟨by rw [h1.m_inv, h2.1]; exact him.1, by rw [h1.i_inv, h2.2]; exact him.2⟩ hint
    rw [← hfin, hCb] at e
    rw [e]
    exact ⟨rfl, rfl, fun _ => rfl⟩
  have hops : ∀ op ∈ post.map (fun k => (SolverOp.arbApply k : SolverOp ℝ)) ++ t.joints.map (fun k => SolverOp.jointApply k t.dt), ∀ k, op.arb? = some k →
      x ≠ (sC.arbs k).a ∧ x ≠ (sC.arbs k).b := by
    intro op ho k hk
    rw [(harbs k).1, (harbs k).2]
    simp only [List.mem_append, List.mem_map] at ho
    rcases ho with ⟨j, hj, rfl⟩ | ⟨j, hj, rfl⟩
    · cases hk; exact (hx _ hj x hxx).resolve_left him
    · cases hk
  have hb := run_bias_of _ x sC hops
  rw [← hfin, hCb] at hb
  refine ⟨hb.1, hb.2, fun hu => ?_⟩
  rw [hfin, ← hCb]
  have hu := hu.resolve_left him
  refine run_apart x _ sC hint ?_ hops
  · intro op ho k hk
    rw [SC.con]
    simp only [List.mem_append, List.mem_map] at ho
    rcases ho with ⟨j, hj, rfl⟩ | ⟨j, hj, rfl⟩
    · cases hk
    · cases hk; exact hu _ hj

/-! ### One contact -/

theorem applyLoop_last (arb : Arb ℝ) (c : Contact ℝ) : ∀ (cs : List (Contact ℝ)) (h : Bodies ℝ),
    (arb.applyLoop h (cs ++ [c])).1 = (arb.applyContact (arb.applyLoop h cs).1 c).1
  | [], _ => rfl
  | d :: cs, h => by
    have := applyLoop_last arb c cs (arb.applyContact h d).1
    simp only [List.cons_append, Arb.applyLoop]
    exact this

theorem applyImpulses_frozen (h : Bodies ℝ) (a b : Nat) (r1 r2 j : Vec ℝ) (x : Nat) : Frozen (h x) (applyImpulses h a b r1 r2 j x) := by
  constructor <;> simp only [applyImpulses, Bodies.set] <;> repeat' split
  all_goals first | rfl | (subst_vars; rfl)

theorem applyBias_frozen (h : Bodies ℝ) (a b : Nat) (r1 r2 j : Vec ℝ) (x : Nat) : Frozen (h x) (applyBiasImpulses h a b r1 r2 j x) := by
  constructor <;> simp only [applyBiasImpulses, Bodies.set] <;> repeat' split
  all_goals first | rfl | (subst_vars; rfl)

theorem applyContact_frozen (arb : Arb ℝ) (h : Bodies ℝ) (c : Contact ℝ) (x : Nat) : Frozen (h x) ((arb.applyContact h c).1 x) :=
  (applyBias_frozen ..).trans (applyImpulses_frozen ..)

theorem applyLoop_frozen (arb : Arb ℝ) (x : Nat) : ∀ (cs : List (Contact ℝ)) (h : Bodies ℝ), Frozen (h x) ((arb.applyLoop h cs).1 x)
  | [], _ => .refl _
  | c :: cs, h => (applyContact_frozen arb h c x).trans (applyLoop_frozen arb x cs _)

/-- A contact as `PreStep` leaves it, up to the stored impulses. -/
structure Contact.Ready (c d : Contact ℝ) (h : Bodies ℝ) (arb : Arb ℝ) (dt slop bc : ℝ) : Prop where
  r1 : c.r1 = d.r1
  r2 : c.r2 = d.r2
  nMass : c.nMass = 1 / kScalar h arb.a arb.b d.r1 d.r2 arb.n
  bias : c.bias = bc * max 0 (arb.overlap d h - slop) / dt
  bounce : c.bounce = arb.partVel d h * arb.e

theorem ready_of_core (arb : Arb ℝ) (h : Bodies ℝ) (dt slop bc : ℝ) (arb' : Arb ℝ) (e : arb'.core = (arb.preStep h dt slop bc).core) :
    arb'.a = arb.a ∧ arb'.b = arb.b ∧ arb'.n = arb.n ∧ arb'.e = arb.e ∧ arb'.u = arb.u ∧ arb'.surface_vr = arb.surface_vr ∧
      List.Forall₂ (fun c d => Contact.Ready c d h arb dt slop bc) arb'.contacts arb.contacts := by
  have hc : arb'.contacts.map Contact.core = (arb.preStep h dt slop bc).contacts.map Contact.core := congrArg Arb.contacts e
  have q1 := congrArg Arb.a e
  have q2 := congrArg Arb.b e
  have q3 := congrArg Arb.n e
  have q4 := congrArg Arb.e e
  have q5 := congrArg Arb.u e
  have q6 := congrArg Arb.surface_vr e
  refine ⟨q1, q2, q3, q4, q5, q6, ?_⟩
  simp only [Arb.preStep, List.map_map] at hc
  have f := List.forall₂_eq_eq_eq.symm ▸ hc
  rw [List.forall₂_map_left_iff, List.forall₂_map_right_iff] at f
  refine f.imp fun c d k => ?_
  have k1 := congrArg Contact.r1 k
  have k2 := congrArg Contact.r2 k
  have k3 := congrArg Contact.nMass k
  have k4 := congrArg Contact.bias k
  have k5 := congrArg Contact.bounce k
  simp only [Contact.core, Function.comp] at k1 k2 k3 k4 k5
  refine ⟨k1, k2, k3, ?_, ?_⟩
  · rw [k4]
    have : (((d.r2.sub d.r1).add ((h arb.b).p.sub (h arb.a).p)).dot arb.n + slop) = -(arb.overlap d h - slop) := by
      simp only [Arb.overlap, Vec.dot, Vec.sub, Vec.add]; ring
    rw [this]
    have m : min 0 (-(arb.overlap d h - slop)) = -max 0 (arb.overlap d h - slop) := by
      rw [← min_neg_neg, neg_zero]
    rw [m]; ring
  · rw [k5]
    congr 1
    simp only [normalRelVel, relVel, Arb.partVel, Vec.dot, Vec.sub, Vec.add, Vec.mult]; ring

/-- What one call for one contact does to the pushing velocity. -/
theorem contact_push (arb : Arb ℝ) (h h0 : Bodies ℝ) (c d : Contact ℝ) (hab : arb.a ≠ arb.b) (hn : arb.n.dot arb.n = 1)
    (hf : ∀ x, Frozen (h0 x) (h x)) (h1 : c.r1 = d.r1) (h2 : c.r2 = d.r2) :
    arb.pushVel d (arb.applyContact h c).1 = arb.pushVel d h + ((arb.applyContact h c).2.jBias - c.jBias) * kScalar h0 arb.a arb.b d.r1 d.r2 arb.n ∧
    (arb.applyContact h c).2.jBias = max (c.jBias + (c.bias - arb.pushVel d h) * c.nMass) 0 := by
  have hba := hab.symm
  have e2 : (arb.applyContact h c).2.jBias = max (c.jBias + (c.bias - arb.pushVel d h) * c.nMass) 0 := by
    simp only [Arb.applyContact, Arb.pushVel, h1, h2]
  refine ⟨?_, e2⟩
  rw [e2]
  generalize hJ : max (c.jBias + (c.bias - arb.pushVel d h) * c.nMass) 0 = J
  have hb : (arb.applyContact h c).1 = applyImpulses (applyBiasImpulses h arb.a arb.b d.r1 d.r2 (arb.n.mult (J - c.jBias))) arb.a arb.b d.r1 d.r2
      (arb.n.rotate ⟨(arb.applyContact h c).2.jnAcc - c.jnAcc, (arb.applyContact h c).2.jtAcc - c.jtAcc⟩) := by
    rw [← hJ]
    simp only [Arb.applyContact, Arb.pushVel, h1, h2]
  rw [hb]
  generalize (arb.n.rotate _) = w
  simp only [Arb.pushVel, applyImpulses, applyBiasImpulses, Bodies.set, hab, hba, if_false, if_true, kScalar, kScalarBody, Vec.add, Vec.sub, Vec.mult, Vec.perp,
    Vec.cross, Vec.dot, (hf _).m_inv, (hf _).i_inv] at hn ⊢
  linear_combination ((J - c.jBias) * ((h0 arb.a).m_inv + (h0 arb.b).m_inv)) * hn

/-- What one call for one contact through which no torque acts does to the velocity. -/
theorem contact_part (arb : Arb ℝ) (h h0 : Bodies ℝ) (c d : Contact ℝ) (hab : arb.a ≠ arb.b) (hn : arb.n.dot arb.n = 1)
    (hsv : arb.surface_vr.dot arb.n = 0) (hr1 : d.r1.cross arb.n = 0) (hr2 : d.r2.cross arb.n = 0)
    (hf : ∀ x, Frozen (h0 x) (h x)) (h1 : c.r1 = d.r1) (h2 : c.r2 = d.r2) :
    arb.partVel d (arb.applyContact h c).1 = arb.partVel d h + ((arb.applyContact h c).2.jnAcc - c.jnAcc) * kScalar h0 arb.a arb.b d.r1 d.r2 arb.n ∧
    (arb.applyContact h c).2.jnAcc = max (c.jnAcc + -(c.bounce + arb.partVel d h) * c.nMass) 0 := by
  have hba := hab.symm
  have e2 : (arb.applyContact h c).2.jnAcc = max (c.jnAcc + -(c.bounce + arb.partVel d h) * c.nMass) 0 := by
    have : ((relVel h arb.a arb.b d.r1 d.r2).add arb.surface_vr).dot arb.n = arb.partVel d h := by
      simp only [relVel, Arb.partVel, Vec.dot, Vec.add, Vec.sub, Vec.mult, Vec.perp] at hsv ⊢
      linear_combination hsv
    simp only [Arb.applyContact, h1, h2, this]
  refine ⟨?_, e2⟩
  obtain ⟨J, hJ⟩ : ∃ J, J = (arb.applyContact h c).2.jnAcc := ⟨_, rfl⟩
  obtain ⟨T, hT⟩ : ∃ T, T = (arb.applyContact h c).2.jtAcc - c.jtAcc := ⟨_, rfl⟩
  have hb : ∃ w, (arb.applyContact h c).1 = applyImpulses (applyBiasImpulses h arb.a arb.b d.r1 d.r2 w) arb.a arb.b d.r1 d.r2
      (arb.n.rotate ⟨J - c.jnAcc, T⟩) := by
    refine ⟨arb.n.mult ((arb.applyContact h c).2.jBias - c.jBias), ?_⟩
    rw [hJ, hT]
    simp only [Arb.applyContact, h1, h2]
  obtain ⟨w, hb⟩ := hb
  rw [hb, ← hJ]
  simp only [Arb.partVel, applyImpulses, applyBiasImpulses, Bodies.set, hab, hba, if_false, if_true, kScalar, kScalarBody, Vec.add, Vec.sub, Vec.mult, Vec.perp,
    Vec.cross, Vec.dot, Vec.rotate, (hf _).m_inv, (hf _).i_inv] at hn hr1 hr2 ⊢
  obtain ⟨x, hx⟩ : ∃ x, x = J - c.jnAcc := ⟨_, rfl⟩
  rw [← hx]
  linear_combination (x * ((h0 arb.a).m_inv + (h0 arb.b).m_inv)) * hn +
    ((h0 arb.b).i_inv * (d.r2.x * (arb.n.x * T + arb.n.y * x) - d.r2.y * (arb.n.x * x - arb.n.y * T) - x * (d.r2.x * arb.n.y - d.r2.y * arb.n.x))) * hr2 +
    ((h0 arb.a).i_inv * (d.r1.x * (arb.n.x * T + arb.n.y * x) - d.r1.y * (arb.n.x * x - arb.n.y * T) - x * (d.r1.x * arb.n.y - d.r1.y * arb.n.x))) * hr1

end CP
