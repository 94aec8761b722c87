import Verif.Proofs.Push4

/-! # Pushing apart does not touch velocities -/

namespace CP
open GoFloat

/-- A body without its pushing velocities. -/
noncomputable def Body.mute (b : Body ℝ) : Body ℝ := { b with v_bias := ⟨0, 0⟩, w_bias := 0 }
/-- All bodies without their pushing velocities. -/
noncomputable def hush (h : Bodies ℝ) : Bodies ℝ := fun x => (h x).mute
/-- A contact that does not push. -/
noncomputable def Contact.mute (c : Contact ℝ) : Contact ℝ := { c with bias := 0, jBias := 0 }
/-- An arbiter whose contacts do not push. -/
noncomputable def Arb.mute (arb : Arb ℝ) : Arb ℝ := { arb with contacts := arb.contacts.map Contact.mute }

theorem hush_set (h : Bodies ℝ) (k : Nat) (b : Body ℝ) : hush (h.set k b) = (hush h).set k b.mute := by
  funext x
  simp only [hush, Bodies.set]
  split <;> rfl

theorem hush_impulses (h : Bodies ℝ) (a b : Nat) (r1 r2 j : Vec ℝ) : hush (applyImpulses h a b r1 r2 j) = applyImpulses (hush h) a b r1 r2 j := by
  have e : ∀ (h : Bodies ℝ), applyImpulses h a b r1 r2 j =
      ((h.set b { h b with v := ⟨(h b).v.x + j.x * (h b).m_inv, (h b).v.y + j.y * (h b).m_inv⟩, w := (h b).w + (h b).i_inv * (r2.x * j.y - r2.y * j.x) }).set a
        (let A := (h.set b { h b with v := ⟨(h b).v.x + j.x * (h b).m_inv, (h b).v.y + j.y * (h b).m_inv⟩, w := (h b).w + (h b).i_inv * (r2.x * j.y - r2.y * j.x) }) a
         { A with v := ⟨A.v.x + (-j.x) * A.m_inv, A.v.y + (-j.y) * A.m_inv⟩, w := A.w + A.i_inv * (r1.x * (-j.y) - r1.y * (-j.x)) })) := fun _ => rfl
  rw [e, e, hush_set, hush_set]
  congr 1
  have : ∀ (g g' : Bodies ℝ), hush g = g' → ∀ x, (g x).mute = g' x := by intro g g' h x; rw [← h]; rfl
  have k := this _ _ (hush_set h b { h b with v := ⟨(h b).v.x + j.x * (h b).m_inv, (h b).v.y + j.y * (h b).m_inv⟩, w := (h b).w + (h b).i_inv * (r2.x * j.y - r2.y * j.x) }) a
  generalize (h.set b { h b with v := ⟨(h b).v.x + j.x * (h b).m_inv, (h b).v.y + j.y * (h b).m_inv⟩, w := (h b).w + (h b).i_inv * (r2.x * j.y - r2.y * j.x) }) a = A at k ⊢
  have k' : (hush h).set b { hush h b with v := ⟨(hush h b).v.x + j.x * (hush h b).m_inv, (hush h b).v.y + j.y * (hush h b).m_inv⟩, w := (hush h b).w + (hush h b).i_inv * (r2.x * j.y - r2.y * j.x) } a = A.mute := k.symm
  simp only [k']
  rfl

theorem hush_spin (h : Bodies ℝ) (a b : Nat) (da db : Body ℝ → ℝ) (ha : ∀ x, da x.mute = da x) (hb : ∀ x, db x.mute = db x) :
    hush (applySpin h a b da db) = applySpin (hush h) a b da db := by
  simp only [applySpin]
  rw [hush_set]
  have k : ((hush h).set a { hush h a with w := (hush h a).w - da (hush h a) }) = hush (h.set a { h a with w := (h a).w - da (h a) }) := by
    rw [hush_set]
    congr 1
    have : da (hush h a) = da (h a) := ha _
    rw [this]
    rfl
  rw [k]
  congr 1
  generalize h.set a { h a with w := (h a).w - da (h a) } = g
  have : db (hush g b) = db (g b) := hb _
  rw [this]
  rfl

theorem hush_pre (h : Bodies ℝ) (j : Joint ℝ) (dt : ℝ) : j.preStep (hush h) dt = (hush (j.preStep h dt).1, (j.preStep h dt).2) := by
  cases j with
  | spring j => exact Prod.ext (hush_impulses ..).symm rfl
  | rotarySpring j =>
    refine Prod.ext ?_ rfl
    simp only [Joint.preStep, Joint.applyCached, Joint.applyImpulse, DampedRotarySpring.preStep, GearJoint.applyCached, RatchetJoint.applyCached,
      RotaryLimitJoint.applyCached, SimpleMotor.applyCached, GearJoint.applyImpulse, SimpleMotor.applyImpulse, Prod.map, id]
    rw [hush_spin _ _ _ _ _ (fun _ => rfl) (fun _ => rfl)]
    rfl
  | _ => rfl

theorem hush_cached (h : Bodies ℝ) (j : Joint ℝ) (c : ℝ) : j.applyCached (hush h) c = (hush (j.applyCached h c).1, (j.applyCached h c).2) := by
  cases j with
  | pin j | slide j | pivot j | groove j => exact Prod.ext (hush_impulses ..).symm rfl
  | spring j | rotarySpring j => rfl
  | gear j | ratchet j | rotaryLimit j | motor j =>
    refine Prod.ext ?_ rfl
    simp only [Joint.preStep, Joint.applyCached, Joint.applyImpulse, DampedRotarySpring.preStep, GearJoint.applyCached, RatchetJoint.applyCached,
      RotaryLimitJoint.applyCached, SimpleMotor.applyCached, GearJoint.applyImpulse, SimpleMotor.applyImpulse, Prod.map, id]
    rw [hush_spin _ _ _ _ _ (fun _ => rfl) (fun _ => rfl)]

theorem hush_apply (h : Bodies ℝ) (j : Joint ℝ) (dt : ℝ) : j.applyImpulse (hush h) dt = (hush (j.applyImpulse h dt).1, (j.applyImpulse h dt).2) := by
  cases j with
  | pin j | pivot j | groove j | spring j => exact Prod.ext (hush_impulses ..).symm rfl
  | slide j =>
    simp only [Joint.applyImpulse, SlideJoint.applyImpulse]
    split
    · rfl
    · exact Prod.ext (hush_impulses ..).symm rfl
  | rotarySpring j =>
    have e : ∀ (h : Bodies ℝ) (x : ℝ), (h.set j.a { h j.a with w := (h j.a).w + x * (h j.a).i_inv }).set j.b
        { (h.set j.a { h j.a with w := (h j.a).w + x * (h j.a).i_inv }) j.b with
          w := ((h.set j.a { h j.a with w := (h j.a).w + x * (h j.a).i_inv }) j.b).w - x * ((h.set j.a { h j.a with w := (h j.a).w + x * (h j.a).i_inv }) j.b).i_inv } =
        applySpin h j.a j.b (fun A => -(x * A.i_inv)) (fun B => -(x * B.i_inv)) := by
      intro h x
      simp only [applySpin, sub_neg_eq_add, ← sub_eq_add_neg]
    refine Prod.ext ?_ rfl
    simp only [Joint.applyImpulse, DampedRotarySpring.applyImpulse, Prod.map, id]
    rw [e, e, hush_spin _ _ _ _ _ (fun _ => rfl) (fun _ => rfl)]
    rfl
  | gear j | motor j =>
    refine Prod.ext ?_ rfl
    simp only [Joint.preStep, Joint.applyCached, Joint.applyImpulse, DampedRotarySpring.preStep, GearJoint.applyCached, RatchetJoint.applyCached,
      RotaryLimitJoint.applyCached, SimpleMotor.applyCached, GearJoint.applyImpulse, SimpleMotor.applyImpulse, Prod.map, id]
    rw [hush_spin _ _ _ _ _ (fun _ => rfl) (fun _ => rfl)]
    rfl
  | ratchet j =>
    simp only [Joint.applyImpulse, RatchetJoint.applyImpulse]
    split
    · rfl
    · refine Prod.ext ?_ rfl
      simp only [Joint.preStep, Joint.applyCached, Joint.applyImpulse, DampedRotarySpring.preStep, GearJoint.applyCached, RatchetJoint.applyCached,
        RotaryLimitJoint.applyCached, SimpleMotor.applyCached, GearJoint.applyImpulse, SimpleMotor.applyImpulse, Prod.map, id]
      rw [hush_spin _ _ _ _ _ (fun _ => rfl) (fun _ => rfl)]
      rfl
  | rotaryLimit j =>
    simp only [Joint.applyImpulse, RotaryLimitJoint.applyImpulse]
    split
    · rfl
    · refine Prod.ext ?_ rfl
      simp only [Joint.preStep, Joint.applyCached, Joint.applyImpulse, DampedRotarySpring.preStep, GearJoint.applyCached, RatchetJoint.applyCached,
        RotaryLimitJoint.applyCached, SimpleMotor.applyCached, GearJoint.applyImpulse, SimpleMotor.applyImpulse, Prod.map, id]
      rw [hush_spin _ _ _ _ _ (fun _ => rfl) (fun _ => rfl)]
      rfl

theorem hush_bias (h : Bodies ℝ) (a b : Nat) (r1 r2 j : Vec ℝ) : hush (applyBiasImpulses h a b r1 r2 j) = hush h := by
  funext x
  simp only [hush, applyBiasImpulses, Bodies.set]
  split
  · subst_vars; split
    · subst_vars; rfl
    · rfl
  · split
    · subst_vars; rfl
    · rfl

/-- A call for a contact works on velocities as if nothing pushed. -/
theorem hush_contact (arb : Arb ℝ) (h : Bodies ℝ) (c : Contact ℝ) :
    hush (arb.applyContact h c).1 = hush (arb.mute.applyContact (hush h) c.mute).1 ∧ (arb.applyContact h c).2.mute = (arb.mute.applyContact (hush h) c.mute).2.mute := by
  constructor
  · have e : ∀ (arb : Arb ℝ) (h : Bodies ℝ) (c : Contact ℝ), hush (arb.applyContact h c).1 = applyImpulses (hush h) arb.a arb.b c.r1 c.r2
        (arb.n.rotate ⟨(arb.applyContact h c).2.jnAcc - c.jnAcc, (arb.applyContact h c).2.jtAcc - c.jtAcc⟩) := by
      intro arb h c
      have : (arb.applyContact h c).1 = applyImpulses (applyBiasImpulses h arb.a arb.b c.r1 c.r2 (arb.n.mult ((arb.applyContact h c).2.jBias - c.jBias))) arb.a arb.b c.r1 c.r2
        (arb.n.rotate ⟨(arb.applyContact h c).2.jnAcc - c.jnAcc, (arb.applyContact h c).2.jtAcc - c.jtAcc⟩) := rfl
      rw [this, hush_impulses, hush_bias]
    rw [e, e]
    rfl
  · rfl

theorem hush_loop (arb : Arb ℝ) : ∀ (cs : List (Contact ℝ)) (h h' : Bodies ℝ) (cs' : List (Contact ℝ)) (arb' : Arb ℝ), arb.mute = arb'.mute → hush h = hush h' → cs.map Contact.mute = cs'.map Contact.mute →
    hush (arb.applyLoop h cs).1 = hush (arb'.applyLoop h' cs').1 ∧ (arb.applyLoop h cs).2.map Contact.mute = (arb'.applyLoop h' cs').2.map Contact.mute
  | [], h, h', cs', arb', _, hh, hc => by
    cases cs' with
    | nil => exact ⟨hh, rfl⟩
    | cons c cs' => simp at hc
  | c :: cs, h, h', cs', arb', ha, hh, hc => by
    cases cs' with
    | nil => simp at hc
    | cons c' cs' =>
      simp only [List.map_cons, List.cons.injEq] at hc
      obtain ⟨e1, e2⟩ := hush_contact arb h c
      obtain ⟨f1, f2⟩ := hush_contact arb' h' c'
      rw [ha, hh, hc.1] at e1 e2
      rw [← e1] at f1
      rw [← e2] at f2
      obtain ⟨g1, g2⟩ := hush_loop arb cs (arb.applyContact h c).1 (arb'.applyContact h' c').1 cs' arb' ha f1.symm hc.2
      refine ⟨g1, ?_⟩
      simp only [Arb.applyLoop, List.map_cons, List.cons.injEq]
      exact ⟨f2.symm, g2⟩

/-- Two solver states that differ only in what pushes. -/
structure Alike (s s' : Solver ℝ) : Prop where
  bodies : hush s.bodies = hush s'.bodies
  joints : s.joints = s'.joints
  arbs : ∀ i, (s.arbs i).mute = (s'.arbs i).mute

/-- Two actions that differ at most in how they push. -/
inductive AlikeOp : SolverOp ℝ → SolverOp ℝ → Prop
  | same (op) : AlikeOp op op
  | pre (k dt sl bc sl' bc') : AlikeOp (.arbPreStep k dt sl bc) (.arbPreStep k dt sl' bc')

theorem mute_pre (arb arb' : Arb ℝ) (h h' : Bodies ℝ) (dt sl bc sl' bc' : ℝ) (ha : arb.mute = arb'.mute) (hh : hush h = hush h') :
    (arb.preStep h dt sl bc).mute = (arb'.preStep h' dt sl' bc').mute := by
  have e : ∀ (arb : Arb ℝ) (h : Bodies ℝ) (sl bc : ℝ), (arb.preStep h dt sl bc).mute = (arb.mute.preStep (hush h) dt 0 0).mute := by
    intro arb h sl bc
    simp only [Arb.mute, Arb.preStep, List.map_map]
    rfl
  rw [e arb h, e arb' h', ha, hh]

theorem mute_cached (arb : Arb ℝ) (h : Bodies ℝ) (co : ℝ) : hush (arb.applyCached h co) = arb.mute.applyCached (hush h) co := by
  unfold Arb.applyCached
  have e : arb.mute.first = arb.first := rfl
  rw [e]
  split
  · rfl
  · have : ∀ (cs : List (Contact ℝ)) (h : Bodies ℝ), hush (cs.foldl (fun h c =>
        let j := arb.n.rotate ⟨c.jnAcc, c.jtAcc⟩
        applyImpulses h arb.a arb.b c.r1 c.r2 (j.mult co)) h) = (cs.map Contact.mute).foldl (fun h c =>
        let j := arb.n.rotate ⟨c.jnAcc, c.jtAcc⟩
        applyImpulses h arb.a arb.b c.r1 c.r2 (j.mult co)) (hush h) := by
      intro cs
      induction cs with
      | nil => exact fun _ => rfl
      | cons c cs ih =>
        intro h
        simp only [List.foldl_cons, List.map_cons]
        rw [ih, hush_impulses]
        rfl
    exact this _ _

theorem Alike.step {s s' : Solver ℝ} (A : Alike s s') {op op' : SolverOp ℝ} (ho : AlikeOp op op') : Alike (s.step op) (s'.step op') := by
  obtain ⟨hb, hj, ha⟩ := A
  cases ho with
  | pre k dt sl bc sl' bc' =>
    refine ⟨hb, hj, fun i => ?_⟩
    simp only [Solver.step, Solver.setArb]
    split
    · exact mute_pre _ _ _ _ _ _ _ _ _ (ha k) hb
    · exact ha i
  | same =>
    cases op with
    | arbPreStep k dt sl bc =>
      refine ⟨hb, hj, fun i => ?_⟩
      simp only [Solver.step, Solver.setArb]
      split
      · exact mute_pre _ _ _ _ _ _ _ _ _ (ha k) hb
      · exact ha i
    | integrate k g d dt =>
      refine ⟨?_, hj, ha⟩
      simp only [Solver.step]
      rw [hush_set, hush_set, hb]
      congr 1
      have e : ∀ b : Body ℝ, (b.updateVelocity g d dt).mute = b.mute.updateVelocity g d dt := by
        intro b
        unfold Body.updateVelocity
        have : b.mute.type = b.type := rfl
        rw [this]
        split <;> rfl
      have k' : (s.bodies k).mute = (s'.bodies k).mute := congrFun hb k
      rw [e, e, k']
    | arbCached k co =>
      refine ⟨?_, hj, ha⟩
      simp only [Solver.step]
      rw [mute_cached, mute_cached, ha, hb]
    | arbApply k =>
      have := hush_loop (s.arbs k) (s.arbs k).contacts s.bodies s'.bodies (s'.arbs k).contacts (s'.arbs k) (ha k) hb (congrArg Arb.contacts (ha k))
      refine ⟨this.1, hj, fun i => ?_⟩
      simp only [Solver.step, Solver.setArb]
      split
      · have q := ha k
        simp only [Arb.mute, Arb.mk.injEq] at q
        simp only [Arb.mute, Arb.applyImpulse, Arb.mk.injEq]
        exact ⟨q.1, q.2.1, q.2.2.1, q.2.2.2.1, q.2.2.2.2.1, this.2, q.2.2.2.2.2.2⟩
      · exact ha i
    | jointPreStep k dt =>
      have e1 := hush_pre s.bodies (s.joints k) dt
      have e2 := hush_pre s'.bodies (s'.joints k) dt
      rw [hb, hj, e2] at e1
      obtain ⟨q1, q2⟩ := Prod.mk.inj e1
      exact ⟨by simp only [Solver.step, Solver.setJoint]; rw [hj]; exact q1.symm, by simp only [Solver.step, Solver.setJoint]; rw [hj, q2], ha⟩
    | jointCached k dt =>
      have e1 := hush_cached s.bodies (s.joints k) dt
      have e2 := hush_cached s'.bodies (s'.joints k) dt
      rw [hb, hj, e2] at e1
      obtain ⟨q1, q2⟩ := Prod.mk.inj e1
      exact ⟨by simp only [Solver.step, Solver.setJoint]; rw [hj]; exact q1.symm, by simp only [Solver.step, Solver.setJoint]; rw [hj, q2], ha⟩
    | jointApply k dt =>
      have e1 := hush_apply s.bodies (s.joints k) dt
      have e2 := hush_apply s'.bodies (s'.joints k) dt
      rw [hb, hj, e2] at e1
      obtain ⟨q1, q2⟩ := Prod.mk.inj e1
      exact ⟨by simp only [Solver.step, Solver.setJoint]; rw [hj]; exact q1.symm, by simp only [Solver.step, Solver.setJoint]; rw [hj, q2], ha⟩

theorem Alike.run {ops ops' : List (SolverOp ℝ)} (h : List.Forall₂ AlikeOp ops ops') : ∀ {s s' : Solver ℝ}, Alike s s' → Alike (s.run ops) (s'.run ops') := by
  induction h with
  | nil => exact fun A => A
  | cons h1 _ ih => exact fun A => ih (A.step h1)

theorem alike_refl (l : List (SolverOp ℝ)) : List.Forall₂ AlikeOp l l := by
  induction l with
  | nil => exact .nil
  | cons a l ih => exact .cons (.same a) ih

theorem alike_program (arbs joints dyn : List Nat) (it : Nat) (dt prev sl cb sl' cb' damping : ℝ) (g : Vec ℝ) :
    List.Forall₂ AlikeOp (Solver.stepProgram arbs joints dyn it dt prev sl cb damping g) (Solver.stepProgram arbs joints dyn it dt prev sl' cb' damping g) := by
  simp only [Solver.stepProgram, List.append_assoc]
  refine List.rel_append ?_ (alike_refl _)
  rw [List.forall₂_map_left_iff, List.forall₂_map_right_iff]
  exact List.forall₂_same.2 fun k _ => .pre ..

end CP
