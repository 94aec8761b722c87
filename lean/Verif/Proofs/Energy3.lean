import Verif.Proofs.Energy2

/-! # A whole step does no work -/

namespace CP
open GoFloat Finset

theorem kScalar_frozen {h0 h : Bodies ℝ} (hf : ∀ x, Frozen (h0 x) (h x)) (a b : Nat) (r1 r2 n : Vec ℝ) : kScalar h a b r1 r2 n = kScalar h0 a b r1 r2 n := by
  simp only [kScalar, kScalarBody, (hf _).m_inv, (hf _).i_inv]

/-- A prepared contact without friction and bounce. -/
structure Contact.Tame (h0 : Bodies ℝ) (arb : Arb ℝ) (c : Contact ℝ) : Prop where
  bounce : c.bounce = 0
  jn : 0 ≤ c.jnAcc
  jt : c.jtAcc = 0
  nMass : c.nMass = 1 / kScalar h0 arb.a arb.b c.r1 c.r2 arb.n
  tMass : c.tMass = 1 / kScalar h0 arb.a arb.b c.r1 c.r2 arb.n.perp

theorem loop_energy {S : Finset Nat} {h0 : Bodies ℝ} {arb : Arb ℝ} (hs : arb.Smooth S h0) : ∀ (cs : List (Contact ℝ)) (h : Bodies ℝ), (∀ c ∈ cs, c.Tame h0 arb) →
    (∀ x, Frozen (h0 x) (h x)) → AllUndriven S h →
    AllUndriven S (arb.applyLoop h cs).1 ∧ energy S (arb.applyLoop h cs).1 ≤ energy S h ∧ ∀ c ∈ (arb.applyLoop h cs).2, c.Tame h0 arb
  | [], h, _, _, hu => ⟨hu, le_rfl, fun _ h => absurd h (List.not_mem_nil)⟩
  | c :: cs, h, hc, hf, hu => by
    have hc0 := hc c List.mem_cons_self
    have hjt : (arb.applyContact h c).2.jtAcc = 0 := by
      simp only [Arb.applyContact, hs.frictionless, zero_mul]
      exact clamp_nothing _
    have hT : (arb.applyContact h c).2.Tame h0 arb := ⟨hc0.bounce, le_max_right _ _, hjt, hc0.nMass, hc0.tMass⟩
    obtain ⟨u1, e1⟩ := contact_energy (c := c) hs.joins.memA hs.joins.memB hs.joins.ne hu hs.unit hc0.bounce hs.surface hc0.jn
      (by rw [hc0.nMass, kScalar_frozen hf]) (by rw [hc0.tMass, kScalar_frozen hf]) (.inl (hjt.trans hc0.jt.symm))
    obtain ⟨u2, e2, t2⟩ := loop_energy hs cs (arb.applyContact h c).1 (fun d hd => hc d (List.mem_cons_of_mem _ hd))
      (fun x => (hf x).trans (applyContact_frozen arb h c x)) u1
    simp only [Arb.applyLoop]
    refine ⟨u2, e2.trans e1, fun d hd => ?_⟩
    rcases List.mem_cons.1 hd with rfl | hd
    · exact hT
    · exact t2 d hd

/-- The prepared joint with limits that hold, in the bodies `h0` (up to their velocities). -/
def Joint.Tame (h0 : Bodies ℝ) (dt : ℝ) : Joint ℝ → Prop
  | .pin j => j.n.dot j.n ≤ 1 ∧ j.nMass = 1 / kScalar h0 j.a j.b j.r1 j.r2 j.n ∧ j.bias = 0 ∧ |j.jnAcc| ≤ j.maxForce * dt
  | .slide j => j.n.dot j.n ≤ 1 ∧ j.nMass = 1 / kScalar h0 j.a j.b j.r1 j.r2 j.n ∧ j.bias = 0 ∧ -j.maxForce * dt ≤ j.jnAcc ∧ j.jnAcc ≤ 0
  | .pivot j => j.k = kTensor h0 j.a j.b j.r1 j.r2 ∧ j.bias = ⟨0, 0⟩
  | .gear j => j.iSum = 1 / ((h0 j.a).i_inv * j.ratio_inv + j.ratio * (h0 j.b).i_inv) ∧ j.bias = 0 ∧ |j.jAcc| ≤ j.maxForce * dt ∧ j.ratio * j.ratio_inv = 1
  | .ratchet j => j.bias = 0
  | .rotaryLimit j => j.bias = 0
  | .motor j => j.iSum = 1 / ((h0 j.a).i_inv + (h0 j.b).i_inv) ∧ j.rate = 0 ∧ |j.jAcc| ≤ j.maxForce * dt
  | _ => False

theorem spin_energy {S : Finset Nat} {h : Bodies ℝ} {a b : Nat} (ha : a ∈ S) (hb : b ∈ S) (hab : a ≠ b) (hu : AllUndriven S h) (da db : Body ℝ → ℝ) (ta tb : ℝ)
    (ea : ∀ x, da x = ta * x.i_inv) (eb : ∀ x, db x = tb * x.i_inv)
    (hw : 2 * (tb * (h b).w - ta * (h a).w) + ta ^ 2 * (h a).i_inv + tb ^ 2 * (h b).i_inv ≤ 0) :
    AllUndriven S (applySpin h a b da db) ∧ energy S (applySpin h a b da db) ≤ energy S h := by
  obtain ⟨u, e⟩ := (applySpin_does h a b da db ta tb ea eb).energy S ha hb hab hu
  refine ⟨u, ?_⟩
  rw [e]
  simp only [Kick.work, Vec.dot, Vec.sub]
  nlinarith

theorem joint_energy {S : Finset Nat} {h0 h : Bodies ℝ} {dt : ℝ} {j : Joint ℝ} (hj : Joins S h0 j.con.a j.con.b) (hT : j.Tame h0 dt) (hM : 0 ≤ j.con.maxForce * dt)
    (hf : ∀ x, Frozen (h0 x) (h x)) (hu : AllUndriven S h)
    (hp : j.isPivot → (j.applyImpulse h dt).2.getImpulse + 1 / 10 ^ 15 ≤ j.con.maxForce * dt) :
    AllUndriven S (j.applyImpulse h dt).1 ∧ energy S (j.applyImpulse h dt).1 ≤ energy S h ∧ (j.applyImpulse h dt).2.Tame h0 dt := by
  cases j with
  | pin j =>
    obtain ⟨h1, h2, h3, h4⟩ := hT
    obtain ⟨l1, l2⟩ := abs_le.1 h4
    simp only [Joint.applyImpulse, PinJoint.applyImpulse, Prod.map]
    obtain ⟨θ, t0, t1, et⟩ := clamp_share (d := (j.bias - normalRelVel h j.a j.b j.r1 j.r2 j.n) * j.nMass) l1 l2
    obtain ⟨u, e⟩ := line_energy (a := j.a) (b := j.b) j.r1 j.r2 j.n hj.memA hj.memB hj.ne hu h1 _ θ t0 t1 (et.trans (by rw [h3, h2, kScalar_frozen hf, normalRelVel]; ring))
    have hw := clamp_within (x := j.jnAcc + (j.bias - normalRelVel h j.a j.b j.r1 j.r2 j.n) * j.nMass) (l1.trans l2)
    exact ⟨u, e, h1, h2, h3, abs_le.2 hw⟩
  | slide j =>
    obtain ⟨h1, h2, h3, l1, l2⟩ := hT
    simp only [Joint.applyImpulse, SlideJoint.applyImpulse, Prod.map]
    split
    · exact ⟨hu, le_rfl, h1, h2, h3, l1, l2⟩
    · obtain ⟨θ, t0, t1, et⟩ := clamp_share (d := (j.bias - (relVel h j.a j.b j.r1 j.r2).dot j.n) * j.nMass) l1 l2
      obtain ⟨u, e⟩ := line_energy (a := j.a) (b := j.b) j.r1 j.r2 j.n hj.memA hj.memB hj.ne hu h1 _ θ t0 t1 (et.trans (by rw [h3, h2, kScalar_frozen hf]; ring))
      have hw := clamp_within (x := j.jnAcc + (j.bias - (relVel h j.a j.b j.r1 j.r2).dot j.n) * j.nMass) (l1.trans l2)
      exact ⟨u, e, h1, h2, h3, hw⟩
  | pivot j =>
    obtain ⟨h1, h2⟩ := hT
    have hp := hp trivial
    simp only [Joint.applyImpulse, Joint.getImpulse, PivotJoint.applyImpulse, PivotJoint.getImpulse, Prod.map, Joint.con] at hp ⊢
    rw [clampLen_inside _ _ hp]
    have e : ∀ d : Vec ℝ, (j.jAcc.add d).sub j.jAcc = d := by intro d; ext <;> simp [Vec.add, Vec.sub]
    rw [e, h2]
    obtain ⟨d, hd⟩ : ∃ d, d = j.k.transform ((⟨0, 0⟩ : Vec ℝ).sub (relVel h j.a j.b j.r1 j.r2)) := ⟨_, rfl⟩
    rw [← hd]
    have hs' : Solvable h j.a j.b := ⟨by rw [(hf _).m_inv, (hf _).m_inv]; exact hj.movable, hu.i_nonneg hj.memA, hu.i_nonneg hj.memB⟩
    have hkt : j.k = kTensor h j.a j.b j.r1 j.r2 := by
      rw [h1]; simp only [kTensor, (hf _).m_inv, (hf _).i_inv]
    have spec := kTensor_spec h j.a j.b hs' j.r1 j.r2 ((⟨0, 0⟩ : Vec ℝ).sub (relVel h j.a j.b j.r1 j.r2))
    rw [← hkt, ← hd] at spec
    obtain ⟨u, ee⟩ := applyImpulses_energy S h j.a j.b j.r1 j.r2 d hj.memA hj.memB hj.ne hu
    refine ⟨u, ?_, h1, rfl⟩
    rw [id, ee]
    have sx := congrArg Vec.x spec
    have sy := congrArg Vec.y spec
    have ma := hu.m_nonneg hj.memA
    have mb := hu.m_nonneg hj.memB
    have ia := hu.i_nonneg hj.memA
    have ib := hu.i_nonneg hj.memB
    obtain ⟨V, hV⟩ : ∃ V, V = relVel h j.a j.b j.r1 j.r2 := ⟨_, rfl⟩
    rw [← hV] at sx sy ⊢
    simp only [Joint.con] at ma mb ia ib
    have q1 := mul_nonneg ia (sq_nonneg (j.r1.cross d))
    have q2 := mul_nonneg ib (sq_nonneg (j.r2.cross d))
    have q3 : 0 ≤ ((h j.a).m_inv + (h j.b).m_inv) * (d.x ^ 2 + d.y ^ 2) := mul_nonneg (by linarith) (by positivity)
    have ew : 2 * d.dot V + (d.dot d * ((h j.a).m_inv + (h j.b).m_inv) + j.r1.cross d ^ 2 * (h j.a).i_inv + j.r2.cross d ^ 2 * (h j.b).i_inv) =
        -((h j.a).i_inv * j.r1.cross d ^ 2 + (h j.b).i_inv * j.r2.cross d ^ 2 + ((h j.a).m_inv + (h j.b).m_inv) * (d.x ^ 2 + d.y ^ 2)) := by
      simp only [Vec.dot, Vec.sub, Vec.add, Vec.mult, Vec.perp, Vec.cross] at sx sy ⊢
      linear_combination 2 * d.x * sx + 2 * d.y * sy
    rw [ew]
    linarith
  | gear j =>
    obtain ⟨h1, h2, h3, h4⟩ := hT
    obtain ⟨l1, l2⟩ := abs_le.1 h3
    simp only [Joint.applyImpulse, GearJoint.applyImpulse, Prod.map]
    obtain ⟨θ, t0, t1, et⟩ := clamp_share (d := (j.bias - ((h j.b).w * j.ratio - (h j.a).w)) * j.iSum) l1 l2
    have hw := clamp_within (x := j.jAcc + (j.bias - ((h j.b).w * j.ratio - (h j.a).w)) * j.iSum) (l1.trans l2)
    obtain ⟨d, hd⟩ : ∃ d, d = clamp (j.jAcc + (j.bias - ((h j.b).w * j.ratio - (h j.a).w)) * j.iSum) (-(j.maxForce * dt)) (j.maxForce * dt) - j.jAcc := ⟨_, rfl⟩
    rw [← hd] at et ⊢
    have ia := hu.i_nonneg hj.memA
    have ib := hu.i_nonneg hj.memB
    simp only [Joint.con] at ia ib
    rw [h1, h2] at et
    have fa := (hf j.a).i_inv
    have fb := (hf j.b).i_inv
    rw [← fa, ← fb] at et
    obtain ⟨u, e⟩ := spin_energy hj.memA hj.memB hj.ne hu (fun A => d * A.i_inv * j.ratio_inv) (fun B => d * B.i_inv) (d * j.ratio_inv) d
      (fun x => mul_right_comm _ _ _) (fun x => rfl) (by
        simp only [Joint.con]
        have w := work_le (v := ((h j.b).w * j.ratio - (h j.a).w) * j.ratio_inv) (k := (h j.a).i_inv * j.ratio_inv ^ 2 + (h j.b).i_inv) (by positivity) t0 t1
        have hr : j.ratio_inv ≠ 0 := fun e => by rw [e] at h4; simp at h4
        have ek : (h j.a).i_inv * j.ratio_inv ^ 2 + (h j.b).i_inv = j.ratio_inv * ((h j.a).i_inv * j.ratio_inv + j.ratio * (h j.b).i_inv) := by
          linear_combination -(h j.b).i_inv * h4
        have ed : θ * (-(((h j.b).w * j.ratio - (h j.a).w) * j.ratio_inv) * (1 / ((h j.a).i_inv * j.ratio_inv ^ 2 + (h j.b).i_inv))) = d := by
          rw [et, ek, one_div, one_div, mul_inv]
          field_simp
          ring
        rw [ed] at w
        have e1 : ((h j.b).w * j.ratio - (h j.a).w) * j.ratio_inv = (h j.b).w - (h j.a).w * j.ratio_inv := by linear_combination (h j.b).w * h4
        rw [e1] at w
        nlinarith)
    exact ⟨u, e, h1, h2, abs_le.2 hw, h4⟩
  | ratchet j =>
    have hb : j.bias = 0 := hT
    simp only [Joint.applyImpulse, RatchetJoint.applyImpulse, if_pos hb, Prod.map]
    exact ⟨hu, le_rfl, hT⟩
  | rotaryLimit j =>
    have hb : j.bias = 0 := hT
    simp only [Joint.applyImpulse, RotaryLimitJoint.applyImpulse, if_pos hb, Prod.map]
    exact ⟨hu, le_rfl, hT⟩
  | motor j =>
    obtain ⟨h1, h2, h3⟩ := hT
    obtain ⟨l1, l2⟩ := abs_le.1 h3
    simp only [Joint.applyImpulse, SimpleMotor.applyImpulse, Prod.map]
    obtain ⟨θ, t0, t1, et⟩ := clamp_share (d := -((h j.b).w - (h j.a).w + j.rate) * j.iSum) l1 l2
    have hw := clamp_within (x := j.jAcc + -((h j.b).w - (h j.a).w + j.rate) * j.iSum) (l1.trans l2)
    obtain ⟨d, hd⟩ : ∃ d, d = clamp (j.jAcc + -((h j.b).w - (h j.a).w + j.rate) * j.iSum) (-(j.maxForce * dt)) (j.maxForce * dt) - j.jAcc := ⟨_, rfl⟩
    rw [← hd] at et ⊢
    have ia := hu.i_nonneg hj.memA
    have ib := hu.i_nonneg hj.memB
    simp only [Joint.con] at ia ib
    rw [h1, h2] at et
    rw [← (hf j.a).i_inv, ← (hf j.b).i_inv, add_zero] at et
    obtain ⟨u, e⟩ := spin_energy hj.memA hj.memB hj.ne hu (fun A => d * A.i_inv) (fun B => d * B.i_inv) d d (fun x => rfl) (fun x => rfl) (by
        simp only [Joint.con]
        have w := work_le (v := (h j.b).w - (h j.a).w) (k := (h j.a).i_inv + (h j.b).i_inv) (by positivity) t0 t1
        rw [← et] at w
        nlinarith)
    exact ⟨u, e, h1, h2, abs_le.2 hw⟩
  | groove j => exact hT.elim
  | spring j => exact hT.elim
  | rotarySpring j => exact hT.elim

end CP
