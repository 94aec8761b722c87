import Verif.Proofs.Energy3

/-! # A whole step does no work: the phases -/

namespace CP
open GoFloat Finset

theorem pre_arbs (dt sl bc : ℝ) (l : List Nat) (hn : l.Nodup) : ∀ s : Solver ℝ,
    (s.run (l.map fun k => .arbPreStep k dt sl bc)).bodies = s.bodies ∧ (s.run (l.map fun k => .arbPreStep k dt sl bc)).joints = s.joints ∧
    ∀ k, (s.run (l.map fun k => .arbPreStep k dt sl bc)).arbs k = if k ∈ l then (s.arbs k).preStep s.bodies dt sl bc else s.arbs k := by
  induction l with
  | nil => exact fun s => ⟨rfl, rfl, fun k => by simp [Solver.run]⟩
  | cons x l ih =>
    intro s
    obtain ⟨hx, hn⟩ := List.nodup_cons.1 hn
    obtain ⟨h1, h2, h3⟩ := ih hn (s.step (.arbPreStep x dt sl bc))
    refine ⟨h1, h2, fun k => (h3 k).trans ?_⟩
    simp only [Solver.step, Solver.setArb]
    by_cases hk : k = x
    · subst hk; simp [hx]
    · simp [hk]

theorem pre_joints (dt : ℝ) (l : List Nat) (hn : l.Nodup) : ∀ s : Solver ℝ, (∀ k ∈ l, ((s.joints k).preStep s.bodies dt).1 = s.bodies) →
    (s.run (l.map fun k => .jointPreStep k dt)).bodies = s.bodies ∧ (s.run (l.map fun k => .jointPreStep k dt)).arbs = s.arbs ∧
    ∀ k, (s.run (l.map fun k => .jointPreStep k dt)).joints k = if k ∈ l then ((s.joints k).preStep s.bodies dt).2 else s.joints k := by
  induction l with
  | nil => exact fun s _ => ⟨rfl, rfl, fun k => by simp [Solver.run]⟩
  | cons x l ih =>
    intro s hb
    obtain ⟨hx, hn⟩ := List.nodup_cons.1 hn
    have hb0 := hb x List.mem_cons_self
    have e : s.step (.jointPreStep x dt) = { s with joints := fun i => if i = x then ((s.joints x).preStep s.bodies dt).2 else s.joints i } := by
      simp only [Solver.step, Solver.setJoint, hb0]
    have hbs : (s.step (.jointPreStep x dt)).bodies = s.bodies := by rw [e]
    obtain ⟨h1, h2, h3⟩ := ih hn (s.step (.jointPreStep x dt)) (by
      intro k hk
      have : k ≠ x := fun e => hx (e ▸ hk)
      rw [e]
      simp only [if_neg this]
      exact hb k (List.mem_cons_of_mem _ hk))
    have hr : s.run ((x :: l).map fun k => .jointPreStep k dt) = (s.step (.jointPreStep x dt)).run (l.map fun k => .jointPreStep k dt) := rfl
    rw [hr]
    refine ⟨h1.trans hbs, h2.trans (by rw [e]), fun k => (h3 k).trans ?_⟩
    rw [e]
    by_cases hk : k = x
    · subst hk; simp [hx]
    · simp [hk]

theorem Joint.hinders_pre {j : Joint ℝ} (hj : j.Hinders) (h : Bodies ℝ) (dt : ℝ) : (j.preStep h dt).1 = h := by
  cases j <;> first | rfl | exact hj.elim

theorem fabs_eq_zero {x : ℝ} (h : fabs x = 0) : x = 0 := fabs_zero h

theorem normalize_dot_le (v : Vec ℝ) : v.normalize.dot v.normalize ≤ 1 := by
  have h := v.length_nonneg
  have e := v.length_sq
  have hl : (lit (1 / 10 ^ 15) : ℝ) = 1 / 10 ^ 15 := by simp [lit]
  have hp : (0 : ℝ) < v.length + 1 / 10 ^ 15 := by positivity
  have : v.normalize.dot v.normalize = v.length ^ 2 / (v.length + 1 / 10 ^ 15) ^ 2 := by
    rw [e]
    simp only [Vec.normalize, Vec.dot, Vec.mult, hl]
    field_simp
  rw [this, div_le_one (by positivity)]
  exact pow_le_pow_left₀ h (by linarith [show (0 : ℝ) < 1 / 10 ^ 15 by positivity]) 2

/-- A prepared joint without errors. -/
theorem Joint.Still.tame {S : Finset Nat} {h : Bodies ℝ} {dt : ℝ} {j : Joint ℝ} (hj : j.Still S h dt) (hdt : 0 ≤ dt) :
    (j.preStep h dt).2.Tame h dt ∧ (j.preStep h dt).2.getImpulse = 0 := by
  obtain ⟨-, -, hh, he, hi, hm⟩ := hj
  cases j with
  | pin j =>
    have hz : j.jnAcc = 0 := fabs_zero hi
    have hb : ((Joint.pin j).preStep h dt).2.biasSize = |((j.preStep h dt).2).bias| := rfl
    rw [hb, abs_eq_zero] at he
    refine ⟨⟨?_, rfl, he, ?_⟩, hi⟩
    · simp only [PinJoint.preStep]
      obtain ⟨δ, hδ⟩ : ∃ δ, δ = (h j.b).p.add ((anchorOffset (h j.b) j.anchorB).sub ((h j.a).p.add (anchorOffset (h j.a) j.anchorA))) := ⟨_, rfl⟩
      rw [← hδ]
      have e := δ.length_sq
      split
      · next hne =>
        have : (δ.mult (1 / δ.length)).dot (δ.mult (1 / δ.length)) = δ.dot δ / δ.length ^ 2 := by
          simp only [Vec.dot, Vec.mult]; field_simp
        rw [this, e, div_self]
        rw [← e]; exact pow_ne_zero 2 hne
      · next hne =>
        rw [not_ne_iff] at hne
        rw [length_zero hne]
        simp [Vec.mult, Vec.dot]
    · show |j.jnAcc| ≤ j.maxForce * dt
      rw [hz, abs_zero]
      exact mul_nonneg hm hdt
  | slide j =>
    have hz : j.jnAcc = 0 := fabs_zero hi
    have hb : ((Joint.slide j).preStep h dt).2.biasSize = |((j.preStep h dt).2).bias| := rfl
    rw [hb, abs_eq_zero] at he
    have hn : ((j.preStep h dt).2).n.dot ((j.preStep h dt).2).n ≤ 1 ∧ ((j.preStep h dt).2).jnAcc = 0 := by
      simp only [SlideJoint.preStep]
      split
      · exact ⟨normalize_dot_le _, hz⟩
      · split
        · refine ⟨?_, hz⟩
          have := normalize_dot_le (((h j.b).p.add (anchorOffset (h j.b) j.anchorB)).sub ((h j.a).p.add (anchorOffset (h j.a) j.anchorA)))
          simp only [Vec.dot, Vec.neg] at this ⊢
          linarith
        · simp [Vec.dot]
    refine ⟨⟨hn.1, rfl, he, ?_, hn.2.le⟩, ?_⟩
    · have := mul_nonneg hm hdt
      simp only [Joint.con] at this
      refine le_of_le_of_eq ?_ hn.2.symm
      show -j.maxForce * dt ≤ 0
      linarith
    · show fabs ((j.preStep h dt).2).jnAcc = 0
      rw [hn.2]; exact fabs_of_zero
  | pivot j =>
    have hb : ((Joint.pivot j).preStep h dt).2.biasSize = ((j.preStep h dt).2).bias.length := rfl
    rw [hb] at he
    exact ⟨⟨rfl, length_zero he⟩, hi⟩
  | gear j =>
    have hz : j.jAcc = 0 := fabs_zero hi
    have hb : ((Joint.gear j).preStep h dt).2.biasSize = |((j.preStep h dt).2).bias| := rfl
    rw [hb, abs_eq_zero] at he
    refine ⟨⟨rfl, he, ?_, hh⟩, hi⟩
    show |j.jAcc| ≤ j.maxForce * dt
    rw [hz, abs_zero]
    exact mul_nonneg hm hdt
  | ratchet j =>
    have hz : j.jAcc = 0 := fabs_zero hi
    have hb : ((Joint.ratchet j).preStep h dt).2.biasSize = |((j.preStep h dt).2).bias| := rfl
    rw [hb, abs_eq_zero] at he
    refine ⟨he, ?_⟩
    show fabs ((j.preStep h dt).2).jAcc = 0
    have : ((j.preStep h dt).2).jAcc = 0 := by
      simp only [RatchetJoint.preStep, hz, ite_self]
    rw [this]; exact fabs_of_zero
  | rotaryLimit j =>
    have hz : j.jAcc = 0 := fabs_zero hi
    have hb : ((Joint.rotaryLimit j).preStep h dt).2.biasSize = |((j.preStep h dt).2).bias| := rfl
    rw [hb, abs_eq_zero] at he
    refine ⟨he, ?_⟩
    show fabs ((j.preStep h dt).2).jAcc = 0
    have : ((j.preStep h dt).2).jAcc = 0 := by
      simp only [RotaryLimitJoint.preStep, hz, ite_self]
    rw [this]; exact fabs_of_zero
  | motor j =>
    have hz : j.jAcc = 0 := fabs_zero hi
    refine ⟨⟨rfl, hh, ?_⟩, hi⟩
    show |j.jAcc| ≤ j.maxForce * dt
    rw [hz, abs_zero]
    exact mul_nonneg hm hdt
  | groove j => exact hh.elim
  | spring j => exact hh.elim
  | rotarySpring j => exact hh.elim

/-- Prepared arbiters stay without friction and bounce. -/
theorem Arb.Smooth.tame {S : Finset Nat} {h : Bodies ℝ} {arb : Arb ℝ} (hs : arb.Smooth S h) (hf : arb.Fresh) (dt sl bc : ℝ) :
    (arb.preStep h dt sl bc).Smooth S h ∧ (arb.preStep h dt sl bc).Fresh ∧ ∀ c ∈ (arb.preStep h dt sl bc).contacts, c.Tame h (arb.preStep h dt sl bc) := by
  refine ⟨⟨hs.joins, hs.unit, hs.inelastic, hs.frictionless, hs.surface⟩, ?_, ?_⟩
  · intro c hc
    obtain ⟨d, hd, rfl⟩ := List.mem_map.1 hc
    exact hf d hd
  · intro c hc
    obtain ⟨d, hd, rfl⟩ := List.mem_map.1 hc
    exact ⟨by simp only [hs.inelastic, mul_zero], (hf d hd).1.ge, (hf d hd).2, rfl, rfl⟩

/-- What holds of the prepared solver while impulses are applied. -/
structure Working (S : Finset Nat) (A J : List Nat) (h0 : Bodies ℝ) (dt : ℝ) (s : Solver ℝ) : Prop where
  frozen : ∀ x, Frozen (h0 x) (s.bodies x)
  undriven : AllUndriven S s.bodies
  arbs : ∀ k ∈ A, (s.arbs k).Smooth S h0 ∧ ∀ c ∈ (s.arbs k).contacts, c.Tame h0 (s.arbs k)
  joints : ∀ k ∈ J, Joins S h0 (s.joints k).con.a (s.joints k).con.b ∧ (s.joints k).Tame h0 dt ∧ 0 ≤ (s.joints k).con.maxForce * dt

/-- Applying an impulse. -/
def IsApply (A J : List Nat) (dt : ℝ) (op : SolverOp ℝ) : Prop := (∃ k ∈ A, op = .arbApply k) ∨ ∃ k ∈ J, op = .jointApply k dt

theorem Working.step {S : Finset Nat} {A J : List Nat} {h0 : Bodies ℝ} {dt : ℝ} {s : Solver ℝ} (W : Working S A J h0 dt s) {op : SolverOp ℝ} (ho : IsApply A J dt op)
    (hp : ∀ k, op = .jointApply k dt → (s.joints k).isPivot → ((s.step op).joints k).getImpulse + 1 / 10 ^ 15 ≤ (s.joints k).con.maxForce * dt) :
    Working S A J h0 dt (s.step op) ∧ energy S (s.step op).bodies ≤ energy S s.bodies := by
  rcases ho with ⟨k, hk, rfl⟩ | ⟨k, hk, rfl⟩
  · obtain ⟨hs, hT⟩ := W.arbs k hk
    obtain ⟨u, e, t⟩ := loop_energy hs (s.arbs k).contacts s.bodies hT W.frozen W.undriven
    refine ⟨⟨fun x => (W.frozen x).trans (step_frozen s _ x), u, fun i hi => ?_, W.joints⟩, e⟩
    simp only [Solver.step, Solver.setArb]
    by_cases h : i = k
    · subst h
      simp only [if_true, Arb.applyImpulse]
      exact ⟨⟨hs.joins, hs.unit, hs.inelastic, hs.frictionless, hs.surface⟩, fun c hc => ⟨(t c hc).bounce, (t c hc).jn, (t c hc).jt, (t c hc).nMass, (t c hc).tMass⟩⟩
    · simp only [if_neg h]
      exact W.arbs i hi
  · obtain ⟨hj, hT, hM⟩ := W.joints k hk
    obtain ⟨u, e, t⟩ := joint_energy hj hT hM W.frozen W.undriven (by
      intro hpk
      have := hp k rfl hpk
      simpa only [Solver.step, Solver.setJoint, if_true] using this)
    refine ⟨⟨fun x => (W.frozen x).trans (step_frozen s _ x), u, W.arbs, fun i hi => ?_⟩, e⟩
    simp only [Solver.step, Solver.setJoint]
    by_cases h : i = k
    · subst h
      simp only [if_true]
      rw [jointApply_con]
      exact ⟨hj, t, hM⟩
    · simp only [if_neg h]
      exact W.joints i hi

theorem jointApply_pivot (h : Bodies ℝ) (j : Joint ℝ) (dt : ℝ) : (j.applyImpulse h dt).2.isPivot ↔ j.isPivot := by
  cases j with
  | slide j => simp only [Joint.applyImpulse, SlideJoint.applyImpulse]; split <;> rfl
  | ratchet j => simp only [Joint.applyImpulse, RatchetJoint.applyImpulse]; split <;> rfl
  | rotaryLimit j => simp only [Joint.applyImpulse, RotaryLimitJoint.applyImpulse]; split <;> rfl
  | _ => rfl

theorem jointPre_pivot (h : Bodies ℝ) (j : Joint ℝ) (dt : ℝ) : (j.preStep h dt).2.isPivot ↔ j.isPivot := by cases j <;> rfl
theorem jointCached_pivot (h : Bodies ℝ) (j : Joint ℝ) (c : ℝ) : (j.applyCached h c).2.isPivot ↔ j.isPivot := by cases j <;> rfl

theorem step_pivot (s : Solver ℝ) (op : SolverOp ℝ) (k : Nat) : ((s.step op).joints k).isPivot ↔ (s.joints k).isPivot := by
  cases op with
  | jointPreStep i dt =>
    simp only [Solver.step, Solver.setJoint]
    by_cases h : k = i
    · rw [if_pos h, jointPre_pivot, h]
    · rw [if_neg h]
  | jointCached i c =>
    simp only [Solver.step, Solver.setJoint]
    by_cases h : k = i
    · rw [if_pos h, jointCached_pivot, h]
    · rw [if_neg h]
  | jointApply i dt =>
    simp only [Solver.step, Solver.setJoint]
    by_cases h : k = i
    · rw [if_pos h, jointApply_pivot, h]
    · rw [if_neg h]
  | _ => rfl

theorem run_pivot (ops : List (SolverOp ℝ)) (k : Nat) : ∀ s : Solver ℝ, ((s.run ops).joints k).isPivot ↔ (s.joints k).isPivot := by
  induction ops with
  | nil => exact fun _ => Iff.rfl
  | cons op ops ih => exact fun s => (ih (s.step op)).trans (step_pivot s op k)

theorem Working.run {S : Finset Nat} {A J : List Nat} {h0 : Bodies ℝ} {dt : ℝ} (ops : List (SolverOp ℝ)) : ∀ {s : Solver ℝ}, Working S A J h0 dt s →
    (∀ op ∈ ops, IsApply A J dt op) →
    (∀ pre post k, ops = pre ++ .jointApply k dt :: post → (s.joints k).isPivot →
      ((s.run (pre ++ [.jointApply k dt])).joints k).getImpulse + 1 / 10 ^ 15 ≤ (s.joints k).con.maxForce * dt) →
    Working S A J h0 dt (s.run ops) ∧ energy S (s.run ops).bodies ≤ energy S s.bodies := by
  induction ops with
  | nil => exact fun W _ _ => ⟨W, le_rfl⟩
  | cons op ops ih =>
    intro s W ho hp
    obtain ⟨W1, e1⟩ := W.step (ho op List.mem_cons_self) (fun k e hk => by
      subst e
      exact hp [] ops k rfl hk)
    obtain ⟨W2, e2⟩ := ih W1 (fun o h => ho o (List.mem_cons_of_mem _ h)) (by
      intro pre post k e hk
      have := hp (op :: pre) post k (by rw [e]; rfl) ((step_pivot s op k).1 hk)
      rw [(step_con s op).1 k]
      exact this)
    exact ⟨W2, e2.trans e1⟩

end CP
