import Verif.Spec.Correct
import Verif.Props.Solve
import Verif.Proofs.Rest

/-! # The last word: what a joint's last impulse in a step leaves behind -/

namespace CP
open GoFloat

/-- A joint without the impulses it has stored. -/
noncomputable def Joint.core : Joint ℝ → Joint ℝ
  | .pin j => .pin { j with jnAcc := 0 }
  | .slide j => .slide { j with jnAcc := 0 }
  | .pivot j => .pivot { j with jAcc := ⟨0, 0⟩ }
  | .groove j => .groove { j with jAcc := ⟨0, 0⟩ }
  | .spring j => .spring { j with jAcc := 0, targetVrn := 0 }
  | .rotarySpring j => .rotarySpring { j with jAcc := 0, targetWrn := 0 }
  | .gear j => .gear { j with jAcc := 0 }
  | .ratchet j => .ratchet { j with jAcc := 0 }
  | .rotaryLimit j => .rotaryLimit { j with jAcc := 0 }
  | .motor j => .motor { j with jAcc := 0 }

theorem core_cached (j : Joint ℝ) (h : Bodies ℝ) (c : ℝ) : (j.applyCached h c).2.core = j.core := by rw [jointCached_snd]

theorem core_apply (j : Joint ℝ) (h : Bodies ℝ) (dt : ℝ) : (j.applyImpulse h dt).2.core = j.core := by
  cases j with
  | slide j =>
    simp only [Joint.applyImpulse, SlideJoint.applyImpulse]
    split <;> rfl
  | ratchet j =>
    simp only [Joint.applyImpulse, RatchetJoint.applyImpulse]
    split <;> rfl
  | rotaryLimit j =>
    simp only [Joint.applyImpulse, RotaryLimitJoint.applyImpulse]
    split <;> rfl
  | _ => rfl

theorem core_con (j : Joint ℝ) : j.core.con = j.con := by cases j <;> rfl

theorem core_pre (j : Joint ℝ) (h0 h : Bodies ℝ) (dt : ℝ) (hf : ∀ x, Frozen (h0 x) (h x)) :
    (j.preStep h dt).2.core = (j.preStep h0 dt).2.core := by
  cases j <;> simp only [Joint.preStep, Prod.map, Joint.core, PinJoint.preStep, SlideJoint.preStep, PivotJoint.preStep, GrooveJoint.preStep,
    DampedSpring.preStep, DampedRotarySpring.preStep, GearJoint.preStep, RatchetJoint.preStep, RotaryLimitJoint.preStep, SimpleMotor.preStep,
    anchorOffset, kScalar, kScalarBody, kTensor, (hf _).p, (hf _).a, (hf _).transform, (hf _).cog, (hf _).m_inv, (hf _).i_inv] <;> congr!

theorem updateVelocity_frozen (b : Body ℝ) (g : Vec ℝ) (d dt : ℝ) : Frozen b (b.updateVelocity g d dt) := by
  unfold Body.updateVelocity
  split
  · exact .refl _
  · exact ⟨rfl, rfl, rfl, rfl, rfl, rfl, rfl, rfl, rfl, rfl⟩

theorem step_frozen (s : Solver ℝ) (op : SolverOp ℝ) (x : Nat) : Frozen (s.bodies x) ((s.step op).bodies x) := by
  cases hi : op.integrated? with
  | none => exact (step_kicks s op hi).frozen x
  | some k =>
    cases op with
    | integrate k g d dt =>
      simp only [Solver.step, Bodies.set]
      by_cases e : x = k
      · rw [if_pos e, e]; exact updateVelocity_frozen _ _ _ _
      · rw [if_neg e]; exact .refl _
    | _ => cases hi

/-- What stays through the solver phase. -/
structure Stays (m : Motion ℝ) (h0 : Bodies ℝ) (s : Solver ℝ) : Prop where
  frozen : ∀ x, Frozen (h0 x) (s.bodies x)
  con : ∀ i, (s.joints i).con = (m.joints i).con

theorem Stays.step {m : Motion ℝ} {h0 : Bodies ℝ} {s : Solver ℝ} (S : Stays m h0 s) (op : SolverOp ℝ) : Stays m h0 (s.step op) :=
  ⟨fun x => (S.frozen x).trans (step_frozen s op x), fun i => ((step_con s op).1 i).trans (S.con i)⟩

theorem Stays.run {m : Motion ℝ} {h0 : Bodies ℝ} (ops : List (SolverOp ℝ)) : ∀ {s : Solver ℝ}, Stays m h0 s → Stays m h0 (s.run ops) := by
  induction ops with
  | nil => exact fun S => S
  | cons op ops ih => exact fun S => ih (S.step op)

/-- An action that does not prepare joint `k` changes at most the impulses stored in it. -/
theorem step_core (s : Solver ℝ) (op : SolverOp ℝ) (k : Nat) (hop : ∀ dt, op ≠ .jointPreStep k dt) : ((s.step op).joints k).core = (s.joints k).core := by
  cases op with
  | jointPreStep i dt =>
    have : k ≠ i := fun e => hop dt (by rw [e])
    simp only [Solver.step, Solver.setJoint, if_neg this]
  | jointCached i c =>
    simp only [Solver.step, Solver.setJoint]
    by_cases e : k = i
    · rw [if_pos e, core_cached, e]
    · rw [if_neg e]
  | jointApply i dt =>
    simp only [Solver.step, Solver.setJoint]
    by_cases e : k = i
    · rw [if_pos e, core_apply, e]
    · rw [if_neg e]
  | _ => rfl

theorem run_core (ops : List (SolverOp ℝ)) (k : Nat) (hop : ∀ op ∈ ops, ∀ dt, op ≠ .jointPreStep k dt) : ∀ s : Solver ℝ,
    ((s.run ops).joints k).core = (s.joints k).core := by
  induction ops with
  | nil => exact fun _ => rfl
  | cons op ops ih =>
    intro s
    have h1 := ih (fun o ho => hop o (List.mem_cons_of_mem _ ho)) (s.step op)
    exact h1.trans (step_core s op k (hop op List.mem_cons_self))


/-- Applying joints that have nothing to do with body `x` nor with joint `k`. -/
theorem run_post (m : Motion ℝ) (h0 : Bodies ℝ) (dt : ℝ) (k : Nat) (x : Nat) (post : List Nat) (hk : k ∉ post)
    (hx : ∀ i ∈ post, x ≠ (m.joints i).con.a ∧ x ≠ (m.joints i).con.b) : ∀ s : Solver ℝ, Stays m h0 s →
    (s.run (post.map fun i => .jointApply i dt)).bodies x = s.bodies x ∧ (s.run (post.map fun i => .jointApply i dt)).joints k = s.joints k := by
  induction post with
  | nil => exact fun _ _ => ⟨rfl, rfl⟩
  | cons i post ih =>
    intro s S
    have hi : k ≠ i := fun e => hk (by rw [e]; exact List.mem_cons_self)
    obtain ⟨h1, h2⟩ := ih (fun h => hk (List.mem_cons_of_mem _ h)) (fun j hj => hx j (List.mem_cons_of_mem _ hj)) (s.step (.jointApply i dt)) (S.step _)
    refine ⟨h1.trans ?_, h2.trans ?_⟩
    · obtain ⟨κ, ha, hb, hd, -⟩ := jointApply_kick s.bodies (s.joints i) dt
      have := hx i List.mem_cons_self
      refine hd.apart x ?_ ?_
      · rw [ha, S.con]; exact this.1
      · rw [hb, S.con]; exact this.2
    · simp only [Solver.step, Solver.setJoint, if_neg hi]

theorem replicate_last {α : Type} (n : Nat) (hn : 0 < n) (l : List α) : (List.replicate n l).flatten = (List.replicate (n - 1) l).flatten ++ l := by
  obtain ⟨k, rfl⟩ : ∃ k, n = k + 1 := ⟨n - 1, by omega⟩
  rw [List.replicate_succ', List.flatten_append, List.flatten_singleton]
  rfl

/-- The end of a step in which joint `k` has the last word: its bodies and itself are as its last `ApplyImpulse` left them; that call
worked on the values of `PreStep`, except for the stored impulses. -/
theorem last_word (m : Motion ℝ) (t : Tick ℝ) (k : Nat) (hdt : t.dt ≠ 0) (hl : t.LastWord m k) :
    ∃ (h : Bodies ℝ) (j : Joint ℝ), (∀ x, Frozen (m.seen t x) (h x)) ∧ j.core = ((m.joints k).preStep (m.seen t) t.dt).2.core ∧
      (m.tick t).joints k = (j.applyImpulse h t.dt).2 ∧ (m.tick t).bodies (m.joints k).con.a = (j.applyImpulse h t.dt).1 (m.joints k).con.a ∧
      (m.tick t).bodies (m.joints k).con.b = (j.applyImpulse h t.dt).1 (m.joints k).con.b := by
  obtain ⟨hit, pre, post, hj, hpre, hpost, hx⟩ := hl
  obtain ⟨s0, hs0⟩ : ∃ s0 : Solver ℝ, s0 = { bodies := m.seen t, joints := m.joints, arbs := t.contact } := ⟨_, rfl⟩
  have S0 : Stays m (m.seen t) s0 := by rw [hs0]; exact ⟨fun x => .refl _, fun i => rfl⟩
  -- the program up to the preparation of joint `k`
  obtain ⟨bc, hbc⟩ : ∃ bc : ℝ, bc = 1 - pow t.collisionBias t.dt := ⟨_, rfl⟩
  obtain ⟨dmp, hdmp⟩ : ∃ dmp : ℝ, dmp = pow t.damping t.dt := ⟨_, rfl⟩
  obtain ⟨co, hco⟩ : ∃ co : ℝ, co = if m.currDt ≠ 0 then t.dt / m.currDt else 0 := ⟨_, rfl⟩
  obtain ⟨round, hround⟩ : ∃ l, l = t.arbs.map (fun k => (SolverOp.arbApply k : SolverOp ℝ)) ++ t.joints.map (fun k => SolverOp.jointApply k t.dt) := ⟨_, rfl⟩
  obtain ⟨A, hA⟩ : ∃ A, A = t.arbs.map (fun k => SolverOp.arbPreStep k t.dt t.slop bc) ++ pre.map (fun k => SolverOp.jointPreStep k t.dt) := ⟨_, rfl⟩
  obtain ⟨B, hB⟩ : ∃ B, B = post.map (fun k => SolverOp.jointPreStep k t.dt) ++ (t.dyn.map (fun k => SolverOp.integrate k t.gravity dmp t.dt) ++
    (t.arbs.map (fun k => SolverOp.arbCached k co) ++ (t.joints.map (fun k => SolverOp.jointCached k co) ++ ((List.replicate (t.iterations - 1) round).flatten ++
      (t.arbs.map (fun k => (SolverOp.arbApply k : SolverOp ℝ)) ++ pre.map (fun k => SolverOp.jointApply k t.dt)))))) := ⟨_, rfl⟩
  have hprog : Solver.stepProgram t.arbs t.joints t.dyn t.iterations t.dt m.currDt t.slop t.collisionBias t.damping t.gravity =
      A ++ (SolverOp.jointPreStep k t.dt :: (B ++ (SolverOp.jointApply k t.dt :: post.map fun i => .jointApply i t.dt))) := by
    simp only [Solver.stepProgram]
    rw [← hbc, ← hdmp, ← hco, ← hround, replicate_last _ hit, hA, hB]
    conv_lhs => rw [hround]
    simp only [hj, List.map_append, List.map_cons, List.append_assoc, List.cons_append]
    rw [hround, hj]
    simp only [List.map_append, List.map_cons]
  have hAk : ∀ op ∈ A, ∀ dt, op ≠ .jointPreStep k dt := by
    intro op ho dt e
    rw [hA, e] at ho
    simp only [List.mem_append, List.mem_map] at ho
    rcases ho with ⟨i, _, e⟩ | ⟨i, hi, e⟩
    · cases e
    · cases e; exact hpre hi
  have hBk : ∀ op ∈ B, ∀ dt, op ≠ .jointPreStep k dt := by
    intro op ho dt e
    rw [hB, e] at ho
    simp only [List.mem_append, List.mem_map, List.mem_flatten, List.mem_replicate] at ho
    rcases ho with ⟨i, hi, e⟩ | ⟨i, _, e⟩ | ⟨i, _, e⟩ | ⟨i, _, e⟩ | ⟨l, ⟨_, rfl⟩, hl⟩ | ⟨i, _, e⟩ | ⟨i, _, e⟩
    · cases e; exact hpost hi
    · cases e
    · cases e
    · cases e
    · rw [hround] at hl
      simp only [List.mem_append, List.mem_map] at hl
      rcases hl with ⟨i, _, e⟩ | ⟨i, _, e⟩ <;> cases e
    · cases e
    · cases e
  obtain ⟨sA, hsA⟩ : ∃ sA, sA = s0.run A := ⟨_, rfl⟩
  obtain ⟨sP, hsP⟩ : ∃ sP, sP = sA.step (.jointPreStep k t.dt) := ⟨_, rfl⟩
  obtain ⟨sB, hsB⟩ : ∃ sB, sB = sP.run B := ⟨_, rfl⟩
  obtain ⟨sC, hsC⟩ : ∃ sC, sC = sB.step (.jointApply k t.dt) := ⟨_, rfl⟩
  have SA : Stays m (m.seen t) sA := by rw [hsA]; exact S0.run A
  have SP : Stays m (m.seen t) sP := by rw [hsP]; exact SA.step _
  have SB : Stays m (m.seen t) sB := by rw [hsB]; exact SP.run B
  have SC : Stays m (m.seen t) sC := by rw [hsC]; exact SB.step _
  have hjA : sA.joints k = m.joints k := by
    have key : ∀ (ops : List (SolverOp ℝ)) (s : Solver ℝ), (∀ op ∈ ops, op.joint? ≠ some k) → (s.run ops).joints k = s.joints k := by
      intro ops
      induction ops with
      | nil => exact fun _ _ => rfl
      | cons op ops ih =>
        intro s ho
        refine (ih (s.step op) fun o h => ho o (List.mem_cons_of_mem _ h)).trans ?_
        have h1 := ho op List.mem_cons_self
        cases op with
        | jointPreStep i dt | jointCached i dt | jointApply i dt =>
          have : k ≠ i := fun e => h1 (by rw [e]; rfl)
          simp only [Solver.step, Solver.setJoint, if_neg this]
        | _ => rfl
    rw [hsA, key A s0, hs0]
    intro op ho e
    rw [hA] at ho
    simp only [List.mem_append, List.mem_map] at ho
    rcases ho with ⟨i, _, rfl⟩ | ⟨i, hi, rfl⟩
    · cases e
    · cases e; exact hpre hi
  have hjB : (sB.joints k).core = ((m.joints k).preStep (m.seen t) t.dt).2.core := by
    rw [hsB, run_core B k hBk, hsP]
    simp only [Solver.step, Solver.setJoint, if_pos, hjA]
    exact core_pre _ _ _ _ SA.frozen
  have hfin : (m.tick t).bodies = (sC.run (post.map fun i => .jointApply i t.dt)).bodies ∧
      (m.tick t).joints = (sC.run (post.map fun i => .jointApply i t.dt)).joints := by
    have e : m.tick t = { bodies := (sC.run (post.map fun i => .jointApply i t.dt)).bodies
                          joints := (sC.run (post.map fun i => .jointApply i t.dt)).joints, currDt := t.dt } := by
      simp only [Motion.tick, if_neg hdt]
      rw [hprog, solver_run_append]
      have : ({ bodies := Motion.move m.bodies t.dt t.movers, joints := m.joints, arbs := t.contact } : Solver ℝ) = s0 := hs0.symm
      rw [this, ← hsA]
      have e2 : ∀ (s : Solver ℝ) op l, s.run (op :: l) = (s.step op).run l := fun _ _ _ => rfl
      rw [e2, ← hsP, solver_run_append, ← hsB, e2, ← hsC]
    rw [e]
    exact ⟨rfl, rfl⟩
  have ha := run_post m (m.seen t) t.dt k (m.joints k).con.a post hpost (fun i hi => hx i hi _ (Or.inl rfl)) sC SC
  have hb := run_post m (m.seen t) t.dt k (m.joints k).con.b post hpost (fun i hi => hx i hi _ (Or.inr rfl)) sC SC
  refine ⟨sB.bodies, sB.joints k, SB.frozen, hjB, ?_, ?_, ?_⟩
  · rw [hfin.2, ha.2, hsC]
    simp only [Solver.step, Solver.setJoint, if_pos]
  · rw [hfin.1, ha.1, hsC]
    rfl
  · rw [hfin.1, hb.1, hsC]
    rfl

end CP
