import Verif.Proofs.Motion

/-! # Proofs: whole steps without contacts (angular momentum), single bodies -/

namespace CP
open GoFloat Finset

/-- Bias velocities are the same. -/
structure SameBias (h h' : Bodies ℝ) : Prop where
  eq : ∀ k, (h' k).v_bias = (h k).v_bias
  eqw : ∀ k, (h' k).w_bias = (h k).w_bias

theorem applyImpulses_bias (h : Bodies ℝ) (a b : Nat) (r1 r2 j : Vec ℝ) :
    SameBias h (applyImpulses h a b r1 r2 j) := by
  refine ⟨fun k => ?_, fun k => ?_⟩ <;>
  by_cases h1 : k = a <;> by_cases h2 : k = b <;> by_cases h3 : a = b <;>
    simp [applyImpulses, Bodies.set, h1, h2, h3] <;> simp_all

theorem applySpin_bias (h : Bodies ℝ) (a b : Nat) (x y : Body ℝ → ℝ) :
    SameBias h (applySpin h a b x y) := by
  refine ⟨fun k => ?_, fun k => ?_⟩ <;>
  by_cases h1 : k = a <;> by_cases h2 : k = b <;> by_cases h3 : a = b <;>
    simp [applySpin, Bodies.set, h1, h2, h3] <;> simp_all

theorem spin2_bias (h : Bodies ℝ) (a b : Nat) (x y : Bodies ℝ → ℝ) :
    SameBias h ((h.set a { h a with w := x h }).set b
      { (h.set a { h a with w := x h }) b with w := y (h.set a { h a with w := x h }) }) := by
  refine ⟨fun k => ?_, fun k => ?_⟩ <;>
  by_cases h1 : k = a <;> by_cases h2 : k = b <;> by_cases h3 : a = b <;>
    simp [Bodies.set, h1, h2, h3] <;> simp_all

attribute [local irreducible] applySpin

theorem jointApply_bias (h : Bodies ℝ) (j : Joint ℝ) (dt : ℝ) : SameBias h (j.applyImpulse h dt).1 := by
  cases j with
  | pin j => exact applyImpulses_bias ..
  | slide j =>
    simp only [Joint.applyImpulse, SlideJoint.applyImpulse]
    split
    · exact ⟨fun _ => rfl, fun _ => rfl⟩
    · exact applyImpulses_bias ..
  | pivot j => exact applyImpulses_bias ..
  | groove j => exact applyImpulses_bias ..
  | spring j => exact applyImpulses_bias ..
  | rotarySpring j =>
    exact spin2_bias h j.a j.b (fun h => _) (fun h => _)
  | gear j => exact applySpin_bias h j.a j.b _ _
  | ratchet j =>
    simp only [Joint.applyImpulse, RatchetJoint.applyImpulse]
    split
    · exact ⟨fun _ => rfl, fun _ => rfl⟩
    · exact applySpin_bias h j.a j.b _ _
  | rotaryLimit j =>
    simp only [Joint.applyImpulse, RotaryLimitJoint.applyImpulse]
    split
    · exact ⟨fun _ => rfl, fun _ => rfl⟩
    · exact applySpin_bias h j.a j.b _ _
  | motor j => exact applySpin_bias h j.a j.b _ _

theorem jointCached_bias (h : Bodies ℝ) (j : Joint ℝ) (c : ℝ) : SameBias h (j.applyCached h c).1 := by
  cases j with
  | pin j => exact applyImpulses_bias ..
  | slide j => exact applyImpulses_bias ..
  | pivot j => exact applyImpulses_bias ..
  | groove j => exact applyImpulses_bias ..
  | spring j => exact ⟨fun _ => rfl, fun _ => rfl⟩
  | rotarySpring j => exact ⟨fun _ => rfl, fun _ => rfl⟩
  | gear j => exact applySpin_bias h j.a j.b _ _
  | ratchet j => exact applySpin_bias h j.a j.b _ _
  | rotaryLimit j => exact applySpin_bias h j.a j.b _ _
  | motor j => exact applySpin_bias h j.a j.b _ _

theorem jointPre_bias (h : Bodies ℝ) (j : Joint ℝ) (dt : ℝ) : SameBias h (j.preStep h dt).1 := by
  cases j with
  | pin j => exact ⟨fun _ => rfl, fun _ => rfl⟩
  | slide j => exact ⟨fun _ => rfl, fun _ => rfl⟩
  | pivot j => exact ⟨fun _ => rfl, fun _ => rfl⟩
  | groove j => exact ⟨fun _ => rfl, fun _ => rfl⟩
  | spring j => exact applyImpulses_bias ..
  | rotarySpring j => exact applySpin_bias h j.a j.b _ _
  | gear j => exact ⟨fun _ => rfl, fun _ => rfl⟩
  | ratchet j => exact ⟨fun _ => rfl, fun _ => rfl⟩
  | rotaryLimit j => exact ⟨fun _ => rfl, fun _ => rfl⟩
  | motor j => exact ⟨fun _ => rfl, fun _ => rfl⟩

theorem run_bias (ops : List (SolverOp ℝ)) : ∀ (s : Solver ℝ), (∀ op ∈ ops, op.arb? = none) →
    SameBias s.bodies (s.run ops).bodies := by
  induction ops with
  | nil => intro s _; exact ⟨fun _ => rfl, fun _ => rfl⟩
  | cons op ops ih =>
    intro s h
    have e := ih (s.step op) (fun o ho => h o (List.mem_cons_of_mem _ ho))
    suffices hs : SameBias s.bodies (s.step op).bodies from ⟨fun k => (e.eq k).trans (hs.eq k), fun k => (e.eqw k).trans (hs.eqw k)⟩
    have hop := h op List.mem_cons_self
    cases op with
    | arbPreStep k dt slop bias => simp [SolverOp.arb?] at hop
    | arbCached k c => simp [SolverOp.arb?] at hop
    | arbApply k => simp [SolverOp.arb?] at hop
    | integrate x g d dt =>
      constructor <;> intro k <;> simp only [Solver.step, Bodies.set] <;> split
      · subst_vars; simp only [Body.updateVelocity]; split <;> rfl
      · rfl
      · subst_vars; simp only [Body.updateVelocity]; split <;> rfl
      · rfl
    | jointPreStep x dt => exact jointPre_bias _ _ _
    | jointCached x dt => exact jointCached_bias _ _ _
    | jointApply x dt => exact jointApply_bias _ _ _

/-! ### Angular momentum without contacts -/

/-- The body's transform takes its centre of gravity to its position. -/
def Seated (h : Bodies ℝ) : Prop := ∀ k, (h k).localToWorld (h k).cog = (h k).p

theorem Seated.frozen {h h' : Bodies ℝ} (hp : Seated h) (hf : ∀ k, Frozen (h k) (h' k)) : Seated h' := by
  intro k
  have := hp k
  simpa only [Body.localToWorld, (hf k).transform, (hf k).cog, (hf k).p] using this

theorem placed_updatePosition (b : Body ℝ) (dt : ℝ) :
    (b.updatePosition dt).localToWorld (b.updatePosition dt).cog = (b.updatePosition dt).p := by
  simp only [Body.updatePosition, Body.setTransform, Body.localToWorld, Transform.point, Transform.transpose]
  ext <;> simp only [] <;> ring

theorem Seated.move {h : Bodies ℝ} (hp : Seated h) (dt : ℝ) (l : List Nat) (hn : l.Nodup) :
    Seated (Motion.move h dt l) := by
  intro k
  rw [move_apply dt l hn h k]
  split
  · exact placed_updatePosition _ _
  · exact hp k

/-- All joints conserve angular momentum. -/
def AllFree (s : Nat → Joint ℝ) : Prop := ∀ k, (s k).FreeSpin

theorem step_free (s : Solver ℝ) (op : SolverOp ℝ) (hf : AllFree s.joints) : AllFree (s.step op).joints := by
  intro k h
  have hk := fun i => hf i h
  simp only [conserves_aligned] at hk ⊢
  cases op with
  | jointPreStep k' dt =>
    simp only [Solver.step, Solver.setJoint]; split
    · subst_vars; exact (jointPre_aligned _ _ _ _).mpr (hk _)
    · exact hk k
  | jointCached k' dt =>
    simp only [Solver.step, Solver.setJoint]; split
    · subst_vars; rw [jointCached_snd]; exact hk _
    · exact hk k
  | jointApply k' dt =>
    simp only [Solver.step, Solver.setJoint]; split
    · subst_vars; exact (jointApply_aligned _ _ _ _).mpr (hk _)
    · exact hk k
  | _ => exact hk k

theorem run_free (ops : List (SolverOp ℝ)) : ∀ s : Solver ℝ, AllFree s.joints → AllFree (s.run ops).joints := by
  induction ops with
  | nil => intro s h; exact h
  | cons op ops ih => intro s h; exact ih _ (step_free s op h)

theorem pre_central (dt : ℝ) (l : List Nat) : ∀ (s : Solver ℝ) (D : List Nat), Seated s.bodies →
    AllFree s.joints → (∀ k ∈ D, (s.joints k).Central s.bodies) →
    ∀ k, k ∈ D ∨ k ∈ l → ((s.run (l.map fun k => SolverOp.jointPreStep k dt)).joints k).Central
      (s.run (l.map fun k => SolverOp.jointPreStep k dt)).bodies := by
  induction l with
  | nil =>
    intro s D _ _ hD k hk
    rcases hk with hk | hk
    · exact hD k hk
    · cases hk
  | cons x l ih =>
    intro s D hp hf hD k hk
    have hfr := (step_kicks s (.jointPreStep x dt) rfl).frozen
    obtain ⟨-, -, kc⟩ := jointPre_kick s.bodies (s.joints x) dt
    refine ih (s.step (.jointPreStep x dt)) (x :: D) (hp.frozen hfr) (step_free _ _ hf) ?_ k ?_
    · intro i hi
      rw [central_congr hfr]
      simp only [Solver.step, Solver.setJoint]; split
      · subst_vars; exact kc hp ((conserves_aligned _ _).mp (hf _ _))
      · rcases List.mem_cons.mp hi with rfl | h
        · exact absurd rfl ‹_›
        · exact hD i h
    · rcases hk with hk | hk
      · exact Or.inl (List.mem_cons_of_mem _ hk)
      · rcases List.mem_cons.mp hk with rfl | h
        · exact Or.inl List.mem_cons_self
        · exact Or.inr h

theorem ordered_append (a b : List (SolverOp ℝ)) : ∀ D, Ordered D a → (∀ D', (∀ k ∈ D, k ∈ D') → Ordered D' b) →
    Ordered D (a ++ b) := by
  induction a with
  | nil => intro D _ h; exact h D fun _ h => h
  | cons x a ih =>
    intro D ha hb
    cases x with
    | jointPreStep k dt =>
      exact ih _ ha fun D' hd => hb D' fun k hk => hd k (List.mem_cons_of_mem _ hk)
    | jointCached k c => exact ⟨ha.1, ih _ ha.2 hb⟩
    | jointApply k c => exact ⟨ha.1, ih _ ha.2 hb⟩
    | arbPreStep k a b c => exact ih D ha hb
    | arbCached k c => exact ih D ha hb
    | arbApply k => exact ih D ha hb
    | integrate a b c d => exact ih D ha hb

theorem ordered_of (ops : List (SolverOp ℝ)) : ∀ D, (∀ op ∈ ops, ∀ k, op.joint? = some k → k ∈ D) →
    Ordered D ops := by
  induction ops with
  | nil => intro D _; trivial
  | cons x a ih =>
    intro D h
    have ht := fun D' (hd : ∀ k ∈ D, k ∈ D') => ih D' fun op ho k hk => hd k (h op (List.mem_cons_of_mem _ ho) k hk)
    cases x with
    | jointPreStep k dt => exact ht _ fun k hk => List.mem_cons_of_mem _ hk
    | jointCached k c => exact ⟨h _ List.mem_cons_self k rfl, ht D fun _ h => h⟩
    | jointApply k c => exact ⟨h _ List.mem_cons_self k rfl, ht D fun _ h => h⟩
    | arbPreStep k a b c => exact ht D fun _ h => h
    | arbCached k c => exact ht D fun _ h => h
    | arbApply k => exact ht D fun _ h => h
    | integrate a b c d => exact ht D fun _ h => h

theorem ordered_pre (dt : ℝ) (l : List Nat) : ∀ D, Ordered D (l.map fun k => SolverOp.jointPreStep k dt) := by
  induction l with
  | nil => intro D; trivial
  | cons x l ih => intro D; exact ih _

/-- What the angular-momentum law needs of the state. -/
structure Spin (S : Finset Nat) (M : ℝ) (m : Motion ℝ) : Prop where
  group : Group S M m
  calm : ∀ k ∈ S, (m.bodies k).f = ⟨0, 0⟩ ∧ (m.bodies k).t = 0 ∧ (m.bodies k).v_bias = ⟨0, 0⟩
  placed : Seated m.bodies
  free : AllFree m.joints

set_option maxHeartbeats 1000000 in
theorem tick_spin (S : Finset Nat) (M : ℝ) (m : Motion ℝ) (t : Tick ℝ) (hdt : t.dt ≠ 0)
    (hs : Spin S M m) (ht : t.Isolated S) (hna : t.arbs = []) :
    Spin S M (m.tick t) ∧ angularMomentum S (m.tick t).bodies =
      turned S (whole S m.bodies) (angularMomentum S m.bodies) (.step t) := by
  have hg := hs.group
  obtain ⟨gr, hw⟩ := tick_group S M m t hdt hg ht
  obtain ⟨ph⟩ := phases m t hdt ht.dyn
  have mv : ∀ k ∈ S, (startOf m t).bodies k = (m.bodies k).updatePosition t.dt := by
    intro k hk
    simp only [startOf, move_apply _ _ ht.movers, if_pos (ht.moved k hk)]
  have q0 : ∀ k ∈ S, FiniteMass ((startOf m t).bodies k) := fun k hk => by
    rw [mv k hk]; exact finite_congr rfl rfl rfl rfl (hg.finite k hk)
  have p0 : Seated (startOf m t).bodies := hs.placed.move _ _ ht.movers
  have a0 : angularMomentum S (startOf m t).bodies = angularMomentum S m.bodies := by
    refine sum_congr rfl fun k hk => ?_
    obtain ⟨-, -, hb⟩ := hs.calm k hk
    rw [mv k hk]
    simp only [Body.updatePosition, Body.setTransform, hb, Vec.cross, Vec.add, Vec.mult]
    ring
  have hpre : preOps t = t.joints.map fun k => SolverOp.jointPreStep k t.dt := by
    simp only [preOps, hna, List.map_nil, List.nil_append]
  have noarb : ∀ op ∈ preOps t, op.arb? = none := by
    intro op hop
    cases h : op.arb? with
    | none => rfl
    | some k =>
      have := (preOps_ops t op hop).2.2 k h
      rw [hna] at this; cases this
  have noarb' : ∀ op ∈ postOps t m.currDt, op.arb? = none := by
    intro op hop
    cases h : op.arb? with
    | none => rfl
    | some k =>
      have := (postOps_ops t _ op hop).2.2 k h
      rw [hna] at this; cases this
  -- before integrating
  have a1 : angularMomentum S ph.s1.bodies = angularMomentum S (startOf m t).bodies := by
    rw [ph.e1]
    refine C15_angular (startOf m t) S (preOps t) q0 p0 (fun op h => (preOps_ops t op h).1)
      (by rw [hpre]; exact ordered_pre _ _ _) (fun op h k hk => ⟨hg.joint k, hs.free k _⟩)
      (fun op h k hk => ?_)
    rw [noarb op h] at hk; cases hk
  have c1 : ∀ k ∈ t.joints, (ph.s1.joints k).Central ph.s1.bodies := by
    intro k hk
    rw [ph.e1, hpre]
    exact pre_central t.dt t.joints (startOf m t) [] p0 hs.free (by simp) k (Or.inr hk)
  have fr1 : AllFree ph.s1.joints := by rw [ph.e1]; exact run_free _ _ hs.free
  have bi1 : SameBias (startOf m t).bodies ph.s1.bodies := by rw [ph.e1]; exact run_bias _ _ noarb
  have p1 : Seated ph.s1.bodies := p0.frozen fun k => (ph.f1 k).1
  have tor : ∀ k ∈ S, (ph.s1.bodies k).t = 0 := by
    intro k hk
    have hff : ∀ {Q : Kick → Prop} {h h' : Bodies ℝ}, Kicks Q h h' → (h' k).t = (h k).t := by
      intro Q h h' hk
      induction hk with
      | refl => rfl
      | step _ _ hd ih => rw [(hd.f k).2, ih]
    have aux : ∀ (ops : List (SolverOp ℝ)) (s : Solver ℝ), (∀ op ∈ ops, op.integrated? = none) →
        ((s.run ops).bodies k).t = (s.bodies k).t := by
      intro ops
      induction ops with
      | nil => intro s _; rfl
      | cons op ops ih =>
        intro s h
        exact (ih (s.step op) fun o ho => h o (List.mem_cons_of_mem _ ho)).trans
          (hff (step_kicks s op (h op List.mem_cons_self)))
    rw [ph.e1, aux _ _ fun op h => (preOps_ops t op h).1, mv k hk]
    exact (hs.calm k hk).2.1
  -- integrated
  have fld : ∀ k ∈ S, (ph.s1.bodies k).m = (m.bodies k).m ∧ (ph.s1.bodies k).idle = (m.bodies k).idle ∧
      (ph.s1.bodies k).f = ⟨0, 0⟩ ∧ (ph.s1.bodies k).v_bias = ⟨0, 0⟩ ∧
      (ph.s1.bodies k).p = (m.bodies k).p.add ((m.bodies k).v.mult t.dt) ∧
      FiniteMass (ph.s1.bodies k) := by
    intro k hk
    obtain ⟨fr, ff⟩ := ph.f1 k
    have hmv := mv k hk
    obtain ⟨c1, c2, c3⟩ := hs.calm k hk
    refine ⟨fr.m.trans ?_, fr.idle.trans ?_, ff.trans ?_, (bi1.eq k).trans ?_, fr.p.trans ?_,
      finite_congr fr.m fr.m_inv fr.i fr.i_inv (q0 k hk)⟩
    · rw [hmv]; rfl
    · rw [hmv]; rfl
    · rw [hmv]; exact c1
    · rw [hmv]; rfl
    · rw [hmv]
      simp only [Body.updatePosition, Body.setTransform, c3, Vec.add, Vec.mult]
      ext <;> simp
  have k2 : ∀ k ∈ S, ph.s2.bodies k = { ph.s1.bodies k with
      v := ((ph.s1.bodies k).v.mult (t.damping ^ t.dt)).add (t.gravity.mult t.dt)
      w := (ph.s1.bodies k).w * (t.damping ^ t.dt)
      f := ⟨0, 0⟩
      t := 0 } := by
    intro k hk
    obtain ⟨e1, e2, e3, -⟩ := fld k hk
    have ty : (ph.s1.bodies k).type ≠ .kinematic := by
      rw [type_congr e1 e2, hg.dynamic k hk]; decide
    rw [ph.int k, if_pos (ht.driven k hk), Body.updateVelocity, if_neg ty, e3, tor k hk]
    simp only [Vec.mult, Vec.add, zero_mul, add_zero]
    rfl
  have a2 : angularMomentum S ph.s2.bodies = angularMomentum S ph.s1.bodies * t.damping ^ t.dt +
      ((whole S m.bodies).moment.add ((whole S m.bodies).momentum.mult t.dt)).cross t.gravity * t.dt := by
    simp only [angularMomentum, whole, Vec.add, Vec.mult, Vec.cross]
    simp only [add_mul, sub_mul, sum_mul, ← sum_add_distrib, ← sum_sub_distrib]
    refine sum_congr rfl fun k hk => ?_
    obtain ⟨e1, e2, e3, e4, e5, -⟩ := fld k hk
    rw [k2 k hk]
    simp only [Vec.add, Vec.mult, e1, e5]
    ring
  have fr12 : ∀ k, ph.s2.joints k = ph.s1.joints k := by
    intro k
    rw [ph.e2, (integrate_apply _ _ _ _ ht.dyn ph.s1).2.1]
  have froz : ∀ k, Frozen (ph.s1.bodies k) (ph.s2.bodies k) := by
    intro k
    rw [ph.int k]
    split
    · simp only [Body.updateVelocity]
      split
      · exact Frozen.refl _
      · exact ⟨rfl, rfl, rfl, rfl, rfl, rfl, rfl, rfl, rfl, rfl⟩
    · exact Frozen.refl _
  have p2 : Seated ph.s2.bodies := p1.frozen froz
  have fr2 : AllFree ph.s2.joints := fun k => by rw [fr12 k]; exact fr1 k
  have a3 : angularMomentum S ph.s3.bodies = angularMomentum S ph.s2.bodies := by
    rw [ph.e3]
    refine angular_run S (postOps t m.currDt) t.joints ph.s2 (fun k hk => ?_) p2
      (fun op h => (postOps_ops t _ op h).1)
      (ordered_of _ _ fun op h k hk => (postOps_ops t _ op h).2.1 k hk) (fun k hk => ?_)
      (fun op h k hk => ⟨?_, (conserves_aligned _ _).mp (fr2 k _)⟩) (fun op h k hk => ?_)
    · exact finite_congr (froz k).m (froz k).m_inv (froz k).i (froz k).i_inv (fld k hk).2.2.2.2.2
    · rw [central_congr froz, fr12 k]; exact c1 k hk
    · rw [ph.con2 k]; exact hg.joint k
    · rw [noarb' op h] at hk; cases hk
  have bi3 : SameBias ph.s2.bodies ph.s3.bodies := by rw [ph.e3]; exact run_bias _ _ noarb'
  have tor3 : ∀ k ∈ S, (ph.s3.bodies k).t = 0 := by
    intro k hk
    have hff : ∀ {Q : Kick → Prop} {h h' : Bodies ℝ}, Kicks Q h h' → (h' k).t = (h k).t := by
      intro Q h h' hk
      induction hk with
      | refl => rfl
      | step _ _ hd ih => rw [(hd.f k).2, ih]
    have aux : ∀ (ops : List (SolverOp ℝ)) (s : Solver ℝ), (∀ op ∈ ops, op.integrated? = none) →
        ((s.run ops).bodies k).t = (s.bodies k).t := by
      intro ops
      induction ops with
      | nil => intro s _; rfl
      | cons op ops ih =>
        intro s h
        exact (ih (s.step op) fun o ho => h o (List.mem_cons_of_mem _ ho)).trans
          (hff (step_kicks s op (h op List.mem_cons_self)))
    rw [ph.e3, aux _ _ fun op h => (postOps_ops t _ op h).1, k2 k hk]
  refine ⟨⟨gr, fun k hk => ?_, ?_, ?_⟩, ?_⟩
  · rw [ph.tick]
    refine ⟨(ph.f3 k).2.trans (by rw [k2 k hk]), tor3 k hk, (bi3.eq k).trans ?_⟩
    rw [k2 k hk]; exact (fld k hk).2.2.2.1
  · rw [ph.tick]; exact p2.frozen fun k => (ph.f3 k).1
  · rw [ph.tick]
    show AllFree ph.s3.joints
    rw [ph.e3]; exact run_free _ _ fr2
  · rw [ph.tick]
    show angularMomentum S ph.s3.bodies = _
    rw [a3, a2, a1, a0]
    simp only [turned, if_neg hdt]

theorem act_spin (S : Finset Nat) (M : ℝ) (m : Motion ℝ) (a : Motion.Act ℝ)
    (hs : Spin S M m) (ha : a.Isolated S) (hp : a.Spins) :
    Spin S M (m.act a) ∧ angularMomentum S (m.act a).bodies =
      turned S (whole S m.bodies) (angularMomentum S m.bodies) a := by
  obtain ⟨gr, -⟩ := act_group S M m a hs.group ha
  cases a with
  | force k f pt => exact hp.elim
  | step t =>
    by_cases hdt : t.dt = 0
    · simp only [Motion.act, Motion.tick, hdt, if_true, turned]
      exact ⟨hs, trivial⟩
    · exact tick_spin S M m t hdt hs (ha hdt) hp
  | joint k j =>
    refine ⟨⟨gr, hs.calm, hs.placed, fun i => ?_⟩, rfl⟩
    simp only [Motion.act]
    split
    · exact hp
    · exact hs.free i
  | impulse k j pt =>
    have hset : ∀ i, (m.act (.impulse k j pt)).bodies i =
        if i = k then (m.bodies k).applyImpulseAtWorldPoint j pt else m.bodies i := fun i => by
      simp only [Motion.act, Bodies.set]
    obtain ⟨y, hy⟩ : ∃ y, y = (m.bodies k).applyImpulseAtWorldPoint j pt := ⟨_, rfl⟩
    have hk : y.m = (m.bodies k).m ∧ y.i = (m.bodies k).i ∧ y.p = (m.bodies k).p ∧
        y.f = (m.bodies k).f ∧ y.t = (m.bodies k).t ∧ y.v_bias = (m.bodies k).v_bias ∧
        y.v = (m.bodies k).v.add (j.mult (m.bodies k).m_inv) ∧ y.transform = (m.bodies k).transform ∧
        y.cog = (m.bodies k).cog ∧
        y.w = (m.bodies k).w + (m.bodies k).i_inv * (pt.sub ((m.bodies k).localToWorld (m.bodies k).cog)).cross j := by
      refine ⟨?_, ?_, ?_, ?_, ?_, ?_, ?_, ?_, ?_, ?_⟩ <;>
        (rw [hy]; simp only [Body.applyImpulseAtWorldPoint, Body.applyImpulse, Body.activate]; split <;> rfl)
    rw [← hy] at hset
    obtain ⟨e1, e2, e3, e4, e5, e6, e7, e8, e9, e10⟩ := hk
    rw [hs.placed k] at e10
    refine ⟨⟨gr, fun i hi => ?_, fun i => ?_, hs.free⟩, ?_⟩
    · rw [hset i]; split
      · subst_vars; rw [e4, e5, e6]; exact hs.calm _ hi
      · exact hs.calm i hi
    · rw [hset i]; split
      · subst_vars
        simp only [Body.localToWorld, e8, e9, e3]
        exact hs.placed _
      · exact hs.placed i
    · by_cases hkS : k ∈ S
      · obtain ⟨f1, f2⟩ := hs.group.finite k hkS
        simp only [turned, if_pos hkS, angularMomentum]
        rw [← add_sum_erase S _ hkS, ← add_sum_erase S (fun i => (m.bodies i).m *
            (m.bodies i).p.cross (m.bodies i).v + (m.bodies i).i * (m.bodies i).w) hkS,
          sum_congr rfl (fun i hi => by rw [hset i, if_neg (ne_of_mem_erase hi)]), hset k, if_pos rfl,
          e1, e2, e3, e7, e10]
        simp only [Vec.add, Vec.mult, Vec.cross, Vec.sub]
        linear_combination ((m.bodies k).p.x * j.y - (m.bodies k).p.y * j.x) * f1 +
          ((pt.x - (m.bodies k).p.x) * j.y - (pt.y - (m.bodies k).p.y) * j.x) * f2
      · simp only [turned, if_neg hkS]
        refine sum_congr rfl fun i hi => ?_
        rw [hset i, if_neg (fun (e : i = k) => hkS (e ▸ hi))]

theorem run_spin (S : Finset Nat) (M : ℝ) (acts : List (Motion.Act ℝ)) : ∀ (m : Motion ℝ),
    Spin S M m → (∀ a ∈ acts, a.Isolated S ∧ a.Spins) →
    (whole S (m.run acts).bodies, angularMomentum S (m.run acts).bodies) =
      acts.foldl (Whole.actL S M) (whole S m.bodies, angularMomentum S m.bodies) := by
  induction acts with
  | nil => intro m hg _; rfl
  | cons a acts ih =>
    intro m hg ha
    obtain ⟨h0, h0'⟩ := ha a List.mem_cons_self
    obtain ⟨-, h2⟩ := act_group S M m a hg.group h0
    obtain ⟨h3, h4⟩ := act_spin S M m a hg h0 h0'
    have := ih (m.act a) h3 (fun b hb => ha b (List.mem_cons_of_mem _ hb))
    rw [List.foldl_cons]
    rw [h2, h4] at this
    exact this

/-! ### One body -/

theorem tick_alone (m : Motion ℝ) (t : Tick ℝ) (k : Nat) (hdt : t.dt ≠ 0)
    (hj : ∀ i, k ≠ (m.joints i).con.a ∧ k ≠ (m.joints i).con.b)
    (hn : t.movers.Nodup) (hn' : t.dyn.Nodup) (hm : k ∈ t.movers) (hd : k ∈ t.dyn)
    (ha : ∀ i ∈ t.arbs, k ≠ (t.contact i).a ∧ k ≠ (t.contact i).b) :
    (m.tick t).bodies k = ((m.bodies k).updatePosition t.dt).updateVelocity t.gravity (t.damping ^ t.dt) t.dt := by
  obtain ⟨ph⟩ := phases m t hdt hn'
  have h1 : ph.s1.bodies k = (startOf m t).bodies k := by
    rw [ph.e1]
    exact run_apart k _ _ (fun op h => (preOps_ops t op h).1) (fun op h i hi => hj i)
      (fun op h i hi => ha i ((preOps_ops t op h).2.2 i hi))
  have h3 : ph.s3.bodies k = ph.s2.bodies k := by
    rw [ph.e3]
    exact run_apart k _ _ (fun op h => (postOps_ops t _ op h).1)
      (fun op h i hi => by rw [ph.con2 i]; exact hj i)
      (fun op h i hi => by
        rw [(ph.arb2 i).1, (ph.arb2 i).2]; exact ha i ((postOps_ops t _ op h).2.2 i hi))
  rw [ph.tick]
  show ph.s3.bodies k = _
  rw [h3, ph.int k, if_pos hd, h1]
  simp only [startOf, move_apply _ _ hn, if_pos hm]

theorem run_alone (k : Nat) (acts : List (Motion.Act ℝ)) : ∀ (m : Motion ℝ),
    (∀ i, k ≠ (m.joints i).con.a ∧ k ≠ (m.joints i).con.b) → (∀ a ∈ acts, a.Spares k) →
    (m.run acts).bodies k = acts.foldl (Body.solo k) (m.bodies k) := by
  induction acts with
  | nil => intro m _ _; rfl
  | cons a acts ih =>
    intro m hj ha
    have h0 := ha a List.mem_cons_self
    have ht : ∀ b ∈ acts, b.Spares k := fun b hb => ha b (List.mem_cons_of_mem _ hb)
    have key : (m.act a).bodies k = (m.bodies k).solo k a ∧
        ∀ i, k ≠ ((m.act a).joints i).con.a ∧ k ≠ ((m.act a).joints i).con.b := by
      cases a with
      | force i f pt =>
        refine ⟨?_, hj⟩
        by_cases hik : i = k
        · subst hik; simp [Motion.act, Bodies.set, Body.solo]
        · simp [Motion.act, Bodies.set, Body.solo, hik, Ne.symm hik]
      | impulse i f pt =>
        refine ⟨?_, hj⟩
        by_cases hik : i = k
        · subst hik; simp [Motion.act, Bodies.set, Body.solo]
        · simp [Motion.act, Bodies.set, Body.solo, hik, Ne.symm hik]
      | joint i j =>
        refine ⟨rfl, fun x => ?_⟩
        simp only [Motion.act]
        split
        · exact h0
        · exact hj x
      | step t =>
        by_cases hdt : t.dt = 0
        · simp only [Motion.act, Motion.tick, Body.solo, hdt, if_true]
          exact ⟨trivial, hj⟩
        · obtain ⟨h1, h2, h3, h4, h5⟩ := h0 hdt
          refine ⟨?_, fun i => ?_⟩
          · simp only [Motion.act, Body.solo, if_neg hdt]
            exact tick_alone m t k hdt hj h1 h2 h3 h4 h5
          · obtain ⟨ph⟩ := phases m t hdt h2
            simp only [Motion.act, ph.tick, ph.con3]
            exact hj i
    have := ih (m.act a) key.2 ht
    rw [List.foldl_cons, ← key.1]
    exact this

end CP
