import Verif.Spec.Engine
import Verif.Proofs.SpaceReach

/-! # Proofs: which bodies a step touches, for any arithmetic -/

namespace CP
variable {F : Type} [GoFloat F]
open GoFloat

/-- The bodies are changed at `a` and `b` only, and there only the velocities. -/
structure Local (a b : Nat) (h h' : Bodies F) : Prop where
  apart : ∀ k, k ≠ a → k ≠ b → h' k = h k
  keep : ∀ k, h' k = { h k with v := (h' k).v, w := (h' k).w, v_bias := (h' k).v_bias, w_bias := (h' k).w_bias }

namespace Local
variable {a b : Nat} {h h' h'' : Bodies F}

theorem refl : Local a b h h := ⟨fun _ _ _ => rfl, fun _ => rfl⟩

theorem trans (x : Local a b h h') (y : Local a b h' h'') : Local a b h h'' := by
  refine ⟨fun k ha hb => (y.apart k ha hb).trans (x.apart k ha hb), fun k => ?_⟩
  have e1 := x.keep k
  have e2 := y.keep k
  rw [e2]
  dsimp only
  rw [e1]

theorem set (k : Nat) (hk : k = a ∨ k = b) (v w vb wb) :
    Local a b h (h.set k { h k with v := v, w := w, v_bias := vb, w_bias := wb }) := by
  refine ⟨fun i ha hb => ?_, fun i => ?_⟩
  · have : i ≠ k := by rintro rfl; rcases hk with h | h <;> contradiction
    simp only [Bodies.set, if_neg this]
  · by_cases hi : i = k
    · subst hi; simp only [Bodies.set, if_pos]
    · simp only [Bodies.set, if_neg hi]

end Local

theorem applyImpulses_local (h : Bodies F) (a b : Nat) (r1 r2 j : Vec F) : Local a b h (applyImpulses h a b r1 r2 j) :=
  (Local.set b (Or.inr rfl) _ _ _ _).trans (Local.set a (Or.inl rfl) _ _ _ _)

theorem applyBias_local (h : Bodies F) (a b : Nat) (r1 r2 j : Vec F) : Local a b h (applyBiasImpulses h a b r1 r2 j) :=
  (Local.set b (Or.inr rfl) _ _ _ _).trans (Local.set a (Or.inl rfl) _ _ _ _)

theorem applySpin_local (h : Bodies F) (a b : Nat) (da db : Body F → F) : Local a b h (applySpin h a b da db) :=
  (Local.set a (Or.inl rfl) _ _ _ _).trans (Local.set b (Or.inr rfl) _ _ _ _)

theorem rotary_local (h : Bodies F) (j : DampedRotarySpring F) (dt : F) : Local j.a j.b h (j.applyImpulse h dt).1 := by
  simp only [DampedRotarySpring.applyImpulse]
  exact (Local.set j.a (Or.inl rfl) _ _ _ _).trans (Local.set j.b (Or.inr rfl) _ _ _ _)

theorem joint_pre_local (h : Bodies F) (j : Joint F) (dt : F) :
    Local j.con.a j.con.b h (j.preStep h dt).1 ∧ (j.preStep h dt).2.con = j.con := by
  cases j with
  | rotarySpring j =>
    first
    | exact ⟨rotary_local h j dt, by first | rfl | trivial⟩
    | exact ⟨Local.refl, by first | rfl | trivial⟩
    | (simp only [Joint.preStep, DampedRotarySpring.preStep, Joint.con, Prod.map, id]
       exact ⟨by apply applySpin_local, by first | rfl | trivial⟩)
  | _ j =>
    simp only [Joint.preStep, PinJoint.preStep, SlideJoint.preStep, PivotJoint.preStep, GrooveJoint.preStep, DampedSpring.preStep, DampedRotarySpring.preStep, GearJoint.preStep, RatchetJoint.preStep, RotaryLimitJoint.preStep, SimpleMotor.preStep, Joint.con, Prod.map, id]
    first
    | exact ⟨Local.refl, by first | rfl | trivial⟩
    | exact ⟨applyImpulses_local h j.a j.b _ _ _, by first | rfl | trivial⟩
    | exact ⟨by apply applySpin_local, by first | rfl | trivial⟩
    | (split
       · exact ⟨Local.refl, by first | rfl | trivial⟩
       · dsimp only
         first
         | exact ⟨applyImpulses_local h j.a j.b _ _ _, by first | rfl | trivial⟩
         | exact ⟨by apply applySpin_local, by first | rfl | trivial⟩)

theorem joint_cached_local (h : Bodies F) (j : Joint F) (c : F) :
    Local j.con.a j.con.b h (j.applyCached h c).1 ∧ (j.applyCached h c).2.con = j.con := by
  cases j with
  | rotarySpring j =>
    first
    | exact ⟨rotary_local h j c, by first | rfl | trivial⟩
    | exact ⟨Local.refl, by first | rfl | trivial⟩
    | (simp only [Joint.applyCached, DampedRotarySpring.applyCached, Joint.con, Prod.map, id]
       exact ⟨by apply applySpin_local, by first | rfl | trivial⟩)
  | _ j =>
    simp only [Joint.applyCached, PinJoint.applyCached, SlideJoint.applyCached, PivotJoint.applyCached, GrooveJoint.applyCached, DampedSpring.applyCached, DampedRotarySpring.applyCached, GearJoint.applyCached, RatchetJoint.applyCached, RotaryLimitJoint.applyCached, SimpleMotor.applyCached, Joint.con, Prod.map, id]
    first
    | exact ⟨Local.refl, by first | rfl | trivial⟩
    | exact ⟨applyImpulses_local h j.a j.b _ _ _, by first | rfl | trivial⟩
    | exact ⟨by apply applySpin_local, by first | rfl | trivial⟩
    | (split
       · exact ⟨Local.refl, by first | rfl | trivial⟩
       · dsimp only
         first
         | exact ⟨applyImpulses_local h j.a j.b _ _ _, by first | rfl | trivial⟩
         | exact ⟨by apply applySpin_local, by first | rfl | trivial⟩)

theorem joint_apply_local (h : Bodies F) (j : Joint F) (dt : F) :
    Local j.con.a j.con.b h (j.applyImpulse h dt).1 ∧ (j.applyImpulse h dt).2.con = j.con := by
  cases j with
  | rotarySpring j =>
    first
    | exact ⟨rotary_local h j dt, by first | rfl | trivial⟩
    | exact ⟨Local.refl, by first | rfl | trivial⟩
    | (simp only [Joint.applyImpulse, DampedRotarySpring.applyImpulse, Joint.con, Prod.map, id]
       exact ⟨by apply applySpin_local, by first | rfl | trivial⟩)
  | _ j =>
    simp only [Joint.applyImpulse, PinJoint.applyImpulse, SlideJoint.applyImpulse, PivotJoint.applyImpulse, GrooveJoint.applyImpulse, DampedSpring.applyImpulse, GearJoint.applyImpulse, RatchetJoint.applyImpulse, RotaryLimitJoint.applyImpulse, SimpleMotor.applyImpulse, Joint.con, Prod.map, id]
    first
    | exact ⟨Local.refl, by first | rfl | trivial⟩
    | exact ⟨applyImpulses_local h j.a j.b _ _ _, by first | rfl | trivial⟩
    | exact ⟨by apply applySpin_local, by first | rfl | trivial⟩
    | (split
       · exact ⟨Local.refl, by first | rfl | trivial⟩
       · dsimp only
         first
         | exact ⟨applyImpulses_local h j.a j.b _ _ _, by first | rfl | trivial⟩
         | exact ⟨by apply applySpin_local, by first | rfl | trivial⟩)

theorem arb_cached_local (h : Bodies F) (x : Arb F) (c : F) : Local x.a x.b h (x.applyCached h c) := by
  unfold Arb.applyCached
  split
  · exact Local.refl
  · generalize x.contacts = l
    induction l generalizing h with
    | nil => exact Local.refl
    | cons y l ih => exact (applyImpulses_local ..).trans (ih _)

theorem applyLoop_local (x : Arb F) : ∀ (l : List (Contact F)) (h : Bodies F), Local x.a x.b h (x.applyLoop h l).1
  | [], _ => Local.refl
  | c :: l, h => by
    simp only [Arb.applyLoop]
    exact ((applyBias_local ..).trans (applyImpulses_local ..)).trans (applyLoop_local x l _)

theorem arb_apply_local (h : Bodies F) (x : Arb F) : Local x.a x.b h (x.applyImpulse h).1 :=
  applyLoop_local x _ h

/-! ### Runs of the solver -/

/-- A body keeps everything but velocities and forces. -/
def Rigid (b b' : Body F) : Prop :=
  b' = { b with v := b'.v, w := b'.w, v_bias := b'.v_bias, w_bias := b'.w_bias, f := b'.f, t := b'.t }

theorem Rigid.refl (b : Body F) : Rigid b b := rfl
theorem Rigid.trans {b c d : Body F} (x : Rigid b c) (y : Rigid c d) : Rigid b d := by
  unfold Rigid at *
  rw [y]
  dsimp only
  rw [x]

theorem Local.rigid {a b : Nat} {h h' : Bodies F} (l : Local a b h h') (k : Nat) : Rigid (h k) (h' k) := by
  have := l.keep k
  unfold Rigid
  rw [this]

theorem rigid_velocity (b : Body F) (g : Vec F) (d dt : F) : Rigid b (b.updateVelocity g d dt) := by
  unfold Body.updateVelocity
  split <;> rfl

/-- The action works on body `k`; `ja`, `xa` are the ends of constraints and arbiters. -/
def SolverOp.on (ja xa : Nat → Nat × Nat) (k : Nat) : SolverOp F → Prop
  | .arbPreStep _ _ _ _ => False
  | .integrate b _ _ _ => k = b
  | .arbCached x _ | .arbApply x => k = (xa x).1 ∨ k = (xa x).2
  | .jointPreStep c _ | .jointCached c _ | .jointApply c _ => k = (ja c).1 ∨ k = (ja c).2

/-- The ends of constraints and arbiters. -/
structure Ends (ja xa : Nat → Nat × Nat) (s : Solver F) : Prop where
  joint : ∀ c, (s.joints c).con.a = (ja c).1 ∧ (s.joints c).con.b = (ja c).2
  arb : ∀ x, (s.arbs x).a = (xa x).1 ∧ (s.arbs x).b = (xa x).2

theorem setJoint_ends {ja xa : Nat → Nat × Nat} {s : Solver F} (e : Ends ja xa s) (h : Bodies F) (c : Nat) (j : Joint F)
    (hj : j.con = (s.joints c).con) : Ends ja xa (s.setJoint h c j) := by
  refine ⟨fun k => ?_, e.arb⟩
  simp only [Solver.setJoint]
  split
  · subst_vars; rw [hj]; exact e.joint _
  · exact e.joint _

theorem setArb_ends {ja xa : Nat → Nat × Nat} {s : Solver F} (e : Ends ja xa s) (h : Bodies F) (c : Nat) (x : Arb F)
    (hx : x.a = (s.arbs c).a ∧ x.b = (s.arbs c).b) : Ends ja xa (s.setArb h c x) := by
  refine ⟨e.joint, fun k => ?_⟩
  simp only [Solver.setArb]
  split
  · subst_vars; rw [hx.1, hx.2]; exact e.arb _
  · exact e.arb _

theorem step_on {ja xa : Nat → Nat × Nat} {s : Solver F} (e : Ends ja xa s) (op : SolverOp F) :
    Ends ja xa (s.step op) ∧ (∀ k, ¬ op.on ja xa k → (s.step op).bodies k = s.bodies k) ∧
    ∀ k, Rigid (s.bodies k) ((s.step op).bodies k) := by
  cases op with
  | arbPreStep x dt slop bias => exact ⟨setArb_ends e _ _ _ ⟨rfl, rfl⟩, fun _ _ => rfl, fun _ => rfl⟩
  | integrate b g d dt =>
    refine ⟨⟨e.joint, e.arb⟩, fun k hk => ?_, fun k => ?_⟩
    · have : k ≠ b := hk
      simp only [Solver.step, Bodies.set, if_neg this]
    · simp only [Solver.step, Bodies.set]
      split
      · subst_vars; exact rigid_velocity ..
      · exact .refl _
  | arbCached x c =>
    have l := arb_cached_local s.bodies (s.arbs x) c
    refine ⟨⟨e.joint, e.arb⟩, fun k hk => ?_, fun k => l.rigid k⟩
    simp only [SolverOp.on, not_or] at hk
    exact l.apart k (by rw [(e.arb x).1]; exact hk.1) (by rw [(e.arb x).2]; exact hk.2)
  | arbApply x =>
    have l := arb_apply_local s.bodies (s.arbs x)
    refine ⟨setArb_ends e _ _ _ ⟨rfl, rfl⟩, fun k hk => ?_, fun k => l.rigid k⟩
    simp only [SolverOp.on, not_or] at hk
    exact l.apart k (by rw [(e.arb x).1]; exact hk.1) (by rw [(e.arb x).2]; exact hk.2)
  | jointPreStep c dt =>
    have l := joint_pre_local s.bodies (s.joints c) dt
    refine ⟨setJoint_ends e _ _ _ l.2, fun k hk => ?_, fun k => l.1.rigid k⟩
    simp only [SolverOp.on, not_or] at hk
    exact l.1.apart k (by rw [(e.joint c).1]; exact hk.1) (by rw [(e.joint c).2]; exact hk.2)
  | jointCached c dt =>
    have l := joint_cached_local s.bodies (s.joints c) dt
    refine ⟨setJoint_ends e _ _ _ l.2, fun k hk => ?_, fun k => l.1.rigid k⟩
    simp only [SolverOp.on, not_or] at hk
    exact l.1.apart k (by rw [(e.joint c).1]; exact hk.1) (by rw [(e.joint c).2]; exact hk.2)
  | jointApply c dt =>
    have l := joint_apply_local s.bodies (s.joints c) dt
    refine ⟨setJoint_ends e _ _ _ l.2, fun k hk => ?_, fun k => l.1.rigid k⟩
    simp only [SolverOp.on, not_or] at hk
    exact l.1.apart k (by rw [(e.joint c).1]; exact hk.1) (by rw [(e.joint c).2]; exact hk.2)

theorem run_on {ja xa : Nat → Nat × Nat} : ∀ (ops : List (SolverOp F)) {s : Solver F}, Ends ja xa s →
    Ends ja xa (s.run ops) ∧ (∀ k, (∀ op ∈ ops, ¬ op.on ja xa k) → (s.run ops).bodies k = s.bodies k) ∧
    ∀ k, Rigid (s.bodies k) ((s.run ops).bodies k)
  | [], s, e => ⟨e, fun _ _ => rfl, fun _ => rfl⟩
  | op :: ops, s, e => by
    obtain ⟨e1, b1, r1⟩ := step_on e op
    obtain ⟨e2, b2, r2⟩ := run_on ops e1
    refine ⟨e2, fun k hk => ?_, fun k => (r1 k).trans (r2 k)⟩
    exact (b2 k fun o ho => hk o (List.mem_cons_of_mem _ ho)).trans (b1 k (hk op List.mem_cons_self))

theorem moved_at (dt : F) : ∀ (movers : List Nat), movers.Nodup → ∀ (h : Bodies F) (k : Nat),
    Motion.move h dt movers k = if k ∈ movers then (h k).updatePosition dt else h k
  | [], _, h, k => by simp [Motion.move]
  | d :: l, hn, h, k => by
    obtain ⟨hd, hn⟩ := List.nodup_cons.mp hn
    have : Motion.move h dt (d :: l) = Motion.move (h.set d ((h d).updatePosition dt)) dt l := rfl
    rw [this, moved_at dt l hn]
    by_cases hk : k = d
    · subst hk; simp [hd, Bodies.set]
    · simp [hk, Bodies.set]

theorem driven_at (g : Vec F) (d dt : F) : ∀ (dyn : List Nat), dyn.Nodup → ∀ (s : Solver F) (k : Nat),
    (s.run (dyn.map fun k => SolverOp.integrate k g d dt)).bodies k =
      if k ∈ dyn then (s.bodies k).updateVelocity g d dt else s.bodies k
  | [], _, s, k => by simp [Solver.run]
  | x :: l, hn, s, k => by
    obtain ⟨hx, hn⟩ := List.nodup_cons.mp hn
    have := driven_at g d dt l hn (s.step (.integrate x g d dt)) k
    refine Eq.trans (show _ = _ from this) ?_
    by_cases hk : k = x
    · subst hk; simp [hx, Solver.step, Bodies.set]
    · simp [hk, Solver.step, Bodies.set]

/-- What the solver phase does to bodies that no arbiter and no constraint of its lists is attached to. -/
theorem program_on {ja xa : Nat → Nat × Nat} {s : Solver F} (e : Ends ja xa s) (arbs joints dyn : List Nat)
    (hn : dyn.Nodup) (n : Nat) (dt prev slop cb damping : F) (g : Vec F) :
    let s' := s.run (Solver.stepProgram arbs joints dyn n dt prev slop cb damping g)
    Ends ja xa s' ∧ (∀ k, Rigid (s.bodies k) (s'.bodies k)) ∧
    ∀ k, (∀ x ∈ arbs, k ≠ (xa x).1 ∧ k ≠ (xa x).2) → (∀ c ∈ joints, k ≠ (ja c).1 ∧ k ≠ (ja c).2) →
      s'.bodies k = if k ∈ dyn then (s.bodies k).updateVelocity g (pow damping dt) dt else s.bodies k := by
  intro s'
  obtain ⟨e', -, r'⟩ := run_on (Solver.stepProgram arbs joints dyn n dt prev slop cb damping g) e
  refine ⟨e', r', fun k ha hj => ?_⟩
  obtain ⟨pre, hpre⟩ : ∃ l : List (SolverOp F), l = arbs.map (fun k => .arbPreStep k dt slop (1 - pow cb dt)) ++
    joints.map (fun k => .jointPreStep k dt) := ⟨_, rfl⟩
  obtain ⟨post, hpost⟩ : ∃ l : List (SolverOp F), l =
    arbs.map (fun k => .arbCached k (if prev ≠ 0 then dt / prev else 0)) ++
    (joints.map (fun k => .jointCached k (if prev ≠ 0 then dt / prev else 0)) ++
    (List.replicate n (arbs.map (fun k => SolverOp.arbApply k) ++ joints.map (fun k => SolverOp.jointApply k dt))).flatten) := ⟨_, rfl⟩
  have split : Solver.stepProgram arbs joints dyn n dt prev slop cb damping g =
      pre ++ (dyn.map (fun k => .integrate k g (pow damping dt) dt) ++ post) := by
    rw [hpre, hpost]
    simp only [Solver.stepProgram, List.append_assoc]
  have n1 : ∀ op ∈ pre, ¬ op.on ja xa k := by
    intro op ho
    rw [hpre] at ho
    rcases List.mem_append.mp ho with h | h <;> obtain ⟨c, hc, rfl⟩ := List.mem_map.mp h
    · exact fun h => h
    · simp only [SolverOp.on, not_or]; exact hj c hc
  have n2 : ∀ op ∈ post, ¬ op.on ja xa k := by
    intro op ho
    rw [hpost] at ho
    rcases List.mem_append.mp ho with h | h
    · obtain ⟨c, hc, rfl⟩ := List.mem_map.mp h
      simp only [SolverOp.on, not_or]; exact ha c hc
    · rcases List.mem_append.mp h with h | h
      · obtain ⟨c, hc, rfl⟩ := List.mem_map.mp h
        simp only [SolverOp.on, not_or]; exact hj c hc
      · obtain ⟨l, hl, hop⟩ := List.mem_flatten.mp h
        obtain ⟨-, rfl⟩ := List.mem_replicate.mp hl
        rcases List.mem_append.mp hop with h | h <;> obtain ⟨c, hc, rfl⟩ := List.mem_map.mp h <;>
          simp only [SolverOp.on, not_or]
        · exact ha c hc
        · exact hj c hc
  show (s.run _).bodies k = _
  rw [split]
  simp only [Solver.run, List.foldl_append]
  obtain ⟨e1, b1, -⟩ := run_on pre e
  have b2 := driven_at g (pow damping dt) dt dyn hn (s.run pre) k
  obtain ⟨e2, -, -⟩ := run_on (dyn.map fun k => SolverOp.integrate k g (pow damping dt) dt) e1
  obtain ⟨-, b3, -⟩ := run_on post e2
  have := (b3 k n2).trans b2
  rw [b1 k n1] at this
  exact this

end CP
