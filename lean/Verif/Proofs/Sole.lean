import Verif.Spec.Spring
import Verif.Proofs.Bounce3

/-! # A joint that is alone on its two bodies -/

namespace CP
open GoFloat

/-- Two worlds agree on two bodies. -/
def Twin (a b : Nat) (h h' : Bodies ℝ) : Prop := h a = h' a ∧ h b = h' b

theorem applyImpulses_twin {a b : Nat} {h h' : Bodies ℝ} (e : Twin a b h h') (r1 r2 j : Vec ℝ) :
    Twin a b (applyImpulses h a b r1 r2 j) (applyImpulses h' a b r1 r2 j) := by
  obtain ⟨ea, eb⟩ := e
  constructor <;> simp only [applyImpulses, Bodies.set, ea, eb] <;> split <;> simp_all

theorem applySpin_twin {a b : Nat} {h h' : Bodies ℝ} (e : Twin a b h h') (f g : Body ℝ → ℝ) :
    Twin a b (applySpin h a b f g) (applySpin h' a b f g) := by
  obtain ⟨ea, eb⟩ := e
  constructor <;> simp only [applySpin, Bodies.set, ea, eb] <;> split <;> simp_all

theorem preStep_twin {j : Joint ℝ} {h h' : Bodies ℝ} (e : Twin j.con.a j.con.b h h') (dt : ℝ) :
    (j.preStep h dt).2 = (j.preStep h' dt).2 ∧ Twin j.con.a j.con.b (j.preStep h dt).1 (j.preStep h' dt).1 := by
  cases j <;> simp only [Joint.con] at e <;> obtain ⟨ea, eb⟩ := id e <;>
    simp only [Joint.preStep, Prod.map, Joint.con, PinJoint.preStep, SlideJoint.preStep, PivotJoint.preStep, GrooveJoint.preStep,
    DampedSpring.preStep, DampedRotarySpring.preStep, GearJoint.preStep, RatchetJoint.preStep, RotaryLimitJoint.preStep, SimpleMotor.preStep,
    kScalar, kScalarBody, kTensor, ea, eb, id, true_and] <;> first
      | exact e | exact applyImpulses_twin e _ _ _ | exact applySpin_twin e _ _

theorem cached_twin {j : Joint ℝ} {h h' : Bodies ℝ} (e : Twin j.con.a j.con.b h h') (c : ℝ) :
    (j.applyCached h c).2 = (j.applyCached h' c).2 ∧ Twin j.con.a j.con.b (j.applyCached h c).1 (j.applyCached h' c).1 := by
  cases j <;> simp only [Joint.con] at e <;> obtain ⟨ea, eb⟩ := id e <;>
    simp only [Joint.applyCached, Prod.map, Joint.con, PinJoint.applyCached, SlideJoint.applyCached, PivotJoint.applyCached, GrooveJoint.applyCached,
    DampedSpring.applyCached, DampedRotarySpring.applyCached, GearJoint.applyCached, RatchetJoint.applyCached, RotaryLimitJoint.applyCached, SimpleMotor.applyCached,
    ea, eb, id, true_and] <;> first
      | exact e | exact applyImpulses_twin e _ _ _ | exact applySpin_twin e _ _

theorem apply_twin {j : Joint ℝ} {h h' : Bodies ℝ} (e : Twin j.con.a j.con.b h h') (dt : ℝ) :
    (j.applyImpulse h dt).2 = (j.applyImpulse h' dt).2 ∧ Twin j.con.a j.con.b (j.applyImpulse h dt).1 (j.applyImpulse h' dt).1 := by
  cases j <;> simp only [Joint.con] at e <;> obtain ⟨ea, eb⟩ := id e <;>
    simp only [Joint.applyImpulse, Prod.map, Joint.con, PinJoint.applyImpulse, SlideJoint.applyImpulse, PivotJoint.applyImpulse, GrooveJoint.applyImpulse,
    DampedSpring.applyImpulse, DampedRotarySpring.applyImpulse, GearJoint.applyImpulse, RatchetJoint.applyImpulse, RotaryLimitJoint.applyImpulse, SimpleMotor.applyImpulse,
    normalRelVel, relVel, ea, eb, id, true_and] <;> first
      | exact e | exact applyImpulses_twin e _ _ _ | exact applySpin_twin e _ _ | skip
  · split
    · exact ⟨rfl, e⟩
    · exact ⟨rfl, applyImpulses_twin e _ _ _⟩
  · constructor <;> simp only [Bodies.set, ea, eb] <;> split <;> simp_all
  · split
    · exact ⟨rfl, e⟩
    · refine ⟨rfl, ?_⟩
      dsimp only
      exact applySpin_twin e _ _
  · split
    · exact ⟨rfl, e⟩
    · refine ⟨rfl, ?_⟩
      dsimp only
      exact applySpin_twin e _ _

/-- The state of the solver as joint `k` and its bodies see it. -/
structure Soling (m : Motion ℝ) (t : Tick ℝ) (k : Nat) (r : Bodies ℝ × Joint ℝ) (s : Solver ℝ) : Prop where
  con : ∀ i, (s.joints i).con = (m.joints i).con
  arb : ∀ i, (s.arbs i).a = (t.contact i).a ∧ (s.arbs i).b = (t.contact i).b
  joint : s.joints k = r.2
  twin : Twin (m.joints k).con.a (m.joints k).con.b s.bodies r.1

theorem Soling.elsewhere {m : Motion ℝ} {t : Tick ℝ} {k : Nat} {r : Bodies ℝ × Joint ℝ} (hs : t.Sole m k) (ops : List (SolverOp ℝ)) :
    ∀ {s : Solver ℝ}, Soling m t k r s → (∀ op ∈ ops, op.integrated? = none ∧ (∀ i, op.joint? = some i → i ∈ t.joints ∧ i ≠ k) ∧
      (∀ i, op.arb? = some i → i ∈ t.arbs)) → Soling m t k r (s.run ops) := by
  induction ops with
  | nil => exact fun S _ => S
  | cons op ops ih =>
    intro s S h
    obtain ⟨h1, h2, h3⟩ := h op List.mem_cons_self
    have hb : ∀ x, x = (m.joints k).con.a ∨ x = (m.joints k).con.b → (s.step op).bodies x = s.bodies x := by
      intro x hx
      refine run_apart x [op] s ?_ ?_ ?_
      · intro o ho; rw [List.mem_singleton.1 ho]; exact h1
      · intro o ho i hi
        rw [List.mem_singleton.1 ho] at hi
        rw [S.con]
        exact hs.others i (h2 i hi).1 (h2 i hi).2 x hx
      · intro o ho i hi
        rw [List.mem_singleton.1 ho] at hi
        rw [(S.arb i).1, (S.arb i).2]
        exact hs.untouched x hx i (h3 i hi)
    refine ih (s := s.step op) ⟨fun i => ((step_con s op).1 i).trans (S.con i), fun i => ?_, ?_, ?_, ?_⟩ (fun o ho => h o (List.mem_cons_of_mem _ ho))
    · obtain ⟨k1, k2⟩ := (step_con s op).2 i
      exact ⟨k1.trans (S.arb i).1, k2.trans (S.arb i).2⟩
    · refine Eq.trans ?_ S.joint
      cases op with
      | jointPreStep i dt | jointCached i dt | jointApply i dt =>
        have : k ≠ i := fun e => (h2 i rfl).2 e.symm
        simp only [Solver.step, Solver.setJoint, if_neg this]
      | _ => rfl
    · exact (hb _ (.inl rfl)).trans S.twin.1
    · exact (hb _ (.inr rfl)).trans S.twin.2

theorem Soling.pre {m : Motion ℝ} {t : Tick ℝ} {k : Nat} {r : Bodies ℝ × Joint ℝ} {s : Solver ℝ} (S : Soling m t k r s) (dt : ℝ) :
    Soling m t k (r.2.preStep r.1 dt) (s.step (.jointPreStep k dt)) := by
  have hc := S.con k
  have ht := S.twin
  rw [← hc, S.joint] at ht
  obtain ⟨h1, h2⟩ := preStep_twin ht dt
  refine ⟨fun i => ((step_con s _).1 i).trans (S.con i), fun i => ?_, ?_, ?_⟩
  · obtain ⟨k1, k2⟩ := (step_con s (.jointPreStep k dt)).2 i
    exact ⟨k1.trans (S.arb i).1, k2.trans (S.arb i).2⟩
  · simp only [Solver.step, Solver.setJoint, if_true, S.joint]; exact h1
  · simp only [Solver.step, Solver.setJoint]; rw [← hc, S.joint]; exact h2

theorem Soling.cached {m : Motion ℝ} {t : Tick ℝ} {k : Nat} {r : Bodies ℝ × Joint ℝ} {s : Solver ℝ} (S : Soling m t k r s) (c : ℝ) :
    Soling m t k (r.2.applyCached r.1 c) (s.step (.jointCached k c)) := by
  have hc := S.con k
  have ht := S.twin
  rw [← hc, S.joint] at ht
  obtain ⟨h1, h2⟩ := cached_twin ht c
  refine ⟨fun i => ((step_con s _).1 i).trans (S.con i), fun i => ?_, ?_, ?_⟩
  · obtain ⟨k1, k2⟩ := (step_con s (.jointCached k c)).2 i
    exact ⟨k1.trans (S.arb i).1, k2.trans (S.arb i).2⟩
  · simp only [Solver.step, Solver.setJoint, if_true, S.joint]; exact h1
  · simp only [Solver.step, Solver.setJoint]; rw [← hc, S.joint]; exact h2

theorem Soling.apply {m : Motion ℝ} {t : Tick ℝ} {k : Nat} {r : Bodies ℝ × Joint ℝ} {s : Solver ℝ} (S : Soling m t k r s) (dt : ℝ) :
    Soling m t k (r.2.applyImpulse r.1 dt) (s.step (.jointApply k dt)) := by
  have hc := S.con k
  have ht := S.twin
  rw [← hc, S.joint] at ht
  obtain ⟨h1, h2⟩ := apply_twin ht dt
  refine ⟨fun i => ((step_con s _).1 i).trans (S.con i), fun i => ?_, ?_, ?_⟩
  · obtain ⟨k1, k2⟩ := (step_con s (.jointApply k dt)).2 i
    exact ⟨k1.trans (S.arb i).1, k2.trans (S.arb i).2⟩
  · simp only [Solver.step, Solver.setJoint, if_true, S.joint]; exact h1
  · simp only [Solver.step, Solver.setJoint]; rw [← hc, S.joint]; exact h2

/-- What the step `t` does to joint `k` and its bodies if the joint is alone: prepare, integrate, apply the stored impulse, and then iterate. -/
noncomputable def soleSetup (m : Motion ℝ) (t : Tick ℝ) (k : Nat) : Bodies ℝ × Joint ℝ :=
  ((m.joints k).preStep (m.seen t) t.dt).2.applyCached
    (fun x => if x ∈ t.dyn then (((m.joints k).preStep (m.seen t) t.dt).1 x).updateVelocity t.gravity (t.damping ^ t.dt) t.dt
      else ((m.joints k).preStep (m.seen t) t.dt).1 x) (if m.currDt ≠ 0 then t.dt / m.currDt else 0)

/-- `n` calls of `ApplyImpulse`. -/
noncomputable def soleRun (dt : ℝ) : Nat → Bodies ℝ × Joint ℝ → Bodies ℝ × Joint ℝ
  | 0, r => r
  | n + 1, r => soleRun dt n (r.2.applyImpulse r.1 dt)

theorem once_split {l : List Nat} {k : Nat} (h : l.count k = 1) : ∃ pre post, l = pre ++ k :: post ∧ k ∉ pre ∧ k ∉ post := by
  have hm : k ∈ l := List.count_pos_iff.1 (by omega)
  obtain ⟨pre, post, rfl, hp⟩ := List.eq_append_cons_of_mem hm
  refine ⟨pre, post, rfl, hp, fun hq => ?_⟩
  rw [List.count_append, List.count_cons_self] at h
  have := List.count_pos_iff.2 hq
  omega

theorem Soling.list {m : Motion ℝ} {t : Tick ℝ} {k : Nat} {r r' : Bodies ℝ × Joint ℝ} (hs : t.Sole m k) (f : Nat → SolverOp ℝ)
    (hf : ∀ i, (f i).integrated? = none ∧ (f i).joint? = some i ∧ (f i).arb? = none) (hk : ∀ s, Soling m t k r s → Soling m t k r' (s.step (f k)))
    {s : Solver ℝ} (S : Soling m t k r s) : Soling m t k r' (s.run (t.joints.map f)) := by
  obtain ⟨pre, post, hj, hpre, hpost⟩ := once_split hs.once
  rw [hj, List.map_append, List.map_cons, solver_run_append]
  have e2 : ∀ (s : Solver ℝ) op l, s.run (op :: l) = (s.step op).run l := fun _ _ _ => rfl
  rw [e2]
  have side : ∀ l : List Nat, (∀ i ∈ l, i ∈ t.joints ∧ i ≠ k) → ∀ op ∈ l.map f, op.integrated? = none ∧
      (∀ i, op.joint? = some i → i ∈ t.joints ∧ i ≠ k) ∧ (∀ i, op.arb? = some i → i ∈ t.arbs) := by
    intro l hl op ho
    obtain ⟨i, hi, rfl⟩ := List.mem_map.1 ho
    obtain ⟨f1, f2, f3⟩ := hf i
    refine ⟨f1, fun i' h => ?_, fun i' h => ?_⟩
    · rw [f2] at h; cases h; exact hl i hi
    · rw [f3] at h; cases h
  refine (hk _ (S.elsewhere hs _ (side pre fun i hi => ⟨by rw [hj]; simp [hi], fun e => hpre (e ▸ hi)⟩))).elsewhere hs _
    (side post fun i hi => ⟨by rw [hj]; simp [hi], fun e => hpost (e ▸ hi)⟩)

theorem Soling.arbs {m : Motion ℝ} {t : Tick ℝ} {k : Nat} {r : Bodies ℝ × Joint ℝ} (hs : t.Sole m k) (f : Nat → SolverOp ℝ)
    (hf : ∀ i, (f i).integrated? = none ∧ (f i).joint? = none ∧ (f i).arb? = some i)
    {s : Solver ℝ} (S : Soling m t k r s) : Soling m t k r (s.run (t.arbs.map f)) := by
  refine S.elsewhere hs _ ?_
  intro op ho
  obtain ⟨i, hi, rfl⟩ := List.mem_map.1 ho
  obtain ⟨f1, f2, f3⟩ := hf i
  refine ⟨f1, fun i' h => ?_, fun i' h => ?_⟩
  · rw [f2] at h; cases h
  · rw [f3] at h; cases h; exact hi

theorem Soling.passes {m : Motion ℝ} {t : Tick ℝ} {k : Nat} (hs : t.Sole m k) : ∀ (n : Nat) {r : Bodies ℝ × Joint ℝ} {s : Solver ℝ},
    Soling m t k r s → Soling m t k (soleRun t.dt n r) (s.run (passes t n))
  | 0, r, s, S => by simpa [CP.passes, soleRun, Solver.run] using S
  | n + 1, r, s, S => by
    have e : CP.passes t (n + 1) = (t.arbs.map (fun k => (SolverOp.arbApply k : SolverOp ℝ)) ++ t.joints.map (fun k => SolverOp.jointApply k t.dt)) ++ CP.passes t n := by
      simp only [CP.passes, List.replicate_succ, List.flatten_cons]
    rw [e, solver_run_append, solver_run_append]
    refine Soling.passes hs n ?_
    exact Soling.list hs _ (fun i => ⟨rfl, rfl, rfl⟩) (fun s S => S.apply t.dt) (S.arbs hs _ fun i => ⟨rfl, rfl, rfl⟩)

/-- **A joint alone on its bodies**: the step does to it and them just what its own calls do. -/
theorem sole_tick {m : Motion ℝ} {t : Tick ℝ} {k : Nat} (hs : t.Sole m k) :
    (m.tick t).joints k = (soleRun t.dt t.iterations (soleSetup m t k)).2 ∧
    ∀ x, x = (m.joints k).con.a ∨ x = (m.joints k).con.b → (m.tick t).bodies x = (soleRun t.dt t.iterations (soleSetup m t k)).1 x := by
  have S0 : Soling m t k (m.seen t, m.joints k) (startOf m t) := ⟨fun _ => rfl, fun _ => ⟨rfl, rfl⟩, rfl, rfl, rfl⟩
  have S1 : Soling m t k ((m.joints k).preStep (m.seen t) t.dt) ((startOf m t).run (preOps t)) := by
    rw [preOps, solver_run_append]
    exact Soling.list hs _ (fun i => ⟨rfl, rfl, rfl⟩) (fun s S => S.pre t.dt) (S0.arbs hs _ fun i => ⟨rfl, rfl, rfl⟩)
  obtain ⟨s1, hs1⟩ : ∃ s, s = (startOf m t).run (preOps t) := ⟨_, rfl⟩
  rw [← hs1] at S1
  obtain ⟨i1, i2, i3⟩ := integrate_apply t.gravity (t.damping ^ t.dt) t.dt t.dyn hs.dyn s1
  obtain ⟨s2, hs2⟩ : ∃ s, s = s1.run (t.dyn.map fun k => SolverOp.integrate k t.gravity (t.damping ^ t.dt) t.dt) := ⟨_, rfl⟩
  rw [← hs2] at i1 i2 i3
  have S2 : Soling m t k ((fun x => if x ∈ t.dyn then (((m.joints k).preStep (m.seen t) t.dt).1 x).updateVelocity t.gravity (t.damping ^ t.dt) t.dt
      else ((m.joints k).preStep (m.seen t) t.dt).1 x), ((m.joints k).preStep (m.seen t) t.dt).2) s2 := by
    refine ⟨fun i => by rw [i2]; exact S1.con i, fun i => by rw [i3]; exact S1.arb i, by rw [i2]; exact S1.joint, ?_, ?_⟩
    · rw [i1, S1.twin.1]
    · rw [i1, S1.twin.2]
  obtain ⟨s3, hs3⟩ : ∃ s, s = s2.run (postOps t m.currDt) := ⟨_, rfl⟩
  have S3 : Soling m t k (soleRun t.dt t.iterations (soleSetup m t k)) s3 := by
    rw [hs3, postOps, solver_run_append, solver_run_append]
    refine Soling.passes hs t.iterations ?_
    exact Soling.list hs _ (fun i => ⟨rfl, rfl, rfl⟩) (fun s S => S.cached _) (S2.arbs hs _ fun i => ⟨rfl, rfl, rfl⟩)
  have e : m.tick t = { bodies := s3.bodies, joints := s3.joints, currDt := t.dt } := by
    simp only [Motion.tick, if_neg hs.pos.ne', program_split, solver_run_append]
    rw [hs3, hs2, hs1]; rfl
  rw [e]
  refine ⟨S3.joint, ?_⟩
  rintro x (rfl | rfl)
  · exact S3.twin.1
  · exact S3.twin.2

end CP
