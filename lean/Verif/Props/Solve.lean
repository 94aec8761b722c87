import Verif.Spec.Solver
import Verif.Props.Limits

/-! # C19, C43: the impulses solve their constraint, and are reported truthfully -/

namespace CP
open GoFloat

/-- The inverse masses of `a` and `b` at the time of `PreStep` (`h0`) and of `ApplyImpulse` (`h`) agree
(the solver never changes them, `C15`/`Frozen`). -/
structure SameInertia (h0 h : Bodies ℝ) (a b : Nat) : Prop where
  ma : (h a).m_inv = (h0 a).m_inv
  mb : (h b).m_inv = (h0 b).m_inv
  ia : (h a).i_inv = (h0 a).i_inv
  ib : (h b).i_inv = (h0 b).i_inv

theorem relVel_apply (h : Bodies ℝ) (a b : Nat) (hab : a ≠ b) (r1 r2 j : Vec ℝ) :
    relVel (applyImpulses h a b r1 r2 j) a b r1 r2 =
      (relVel h a b r1 r2).add
        (((j.mult ((h a).m_inv + (h b).m_inv)).add (r1.perp.mult ((h a).i_inv * r1.cross j))).add
          (r2.perp.mult ((h b).i_inv * r2.cross j))) := by
  have hba : b ≠ a := hab.symm
  ext <;> simp [relVel, applyImpulses, Bodies.set, hab, hba, Vec.add, Vec.sub, Vec.mult, Vec.perp, Vec.cross] <;> ring

theorem normalVel_apply (h : Bodies ℝ) (a b : Nat) (hab : a ≠ b) (r1 r2 n : Vec ℝ) (s : ℝ) (hn : n.dot n = 1) :
    (relVel (applyImpulses h a b r1 r2 (n.mult s)) a b r1 r2).dot n =
      (relVel h a b r1 r2).dot n + s * kScalar h a b r1 r2 n := by
  rw [relVel_apply h a b hab]
  simp only [kScalar, kScalarBody, Vec.add, Vec.mult, Vec.perp, Vec.cross, Vec.dot] at hn ⊢
  linear_combination (s * ((h a).m_inv + (h b).m_inv)) * hn

theorem kScalar_same {h0 h : Bodies ℝ} {a b : Nat} (e : SameInertia h0 h a b) (r1 r2 n : Vec ℝ) :
    kScalar h a b r1 r2 n = kScalar h0 a b r1 r2 n := by
  simp only [kScalar, kScalarBody, e.ma, e.mb, e.ia, e.ib]

/-- Non-negative inverse masses, and at least one of the two bodies has finite mass (what the library's
asserts `Unsolvable collision or constraint` check). -/
structure Solvable (h : Bodies ℝ) (a b : Nat) : Prop where
  m : 0 < (h a).m_inv + (h b).m_inv
  ia : 0 ≤ (h a).i_inv
  ib : 0 ≤ (h b).i_inv

theorem Solvable.kScalar_pos {h : Bodies ℝ} {a b : Nat} (s : Solvable h a b) (r1 r2 n : Vec ℝ) :
    0 < kScalar h a b r1 r2 n := by
  have h1 := mul_nonneg s.ia (mul_self_nonneg (r1.cross n))
  have h2 := mul_nonneg s.ib (mul_self_nonneg (r2.cross n))
  have := s.m
  simp only [kScalar, kScalarBody]
  nlinarith

/-- A clamp whose result lies strictly inside the limits did not bind. -/
theorem clamp_inside (f m : ℝ) (h : |clamp f (-m) m| < m) : clamp f (-m) m = f := by
  rw [abs_lt] at h
  unfold clamp at h ⊢
  split at h <;> rename_i hf
  · rw [if_pos hf]
    rcases min_choice f m with e | e
    · exact e
    · rw [e] at h; exact absurd h.2 (lt_irrefl _)
  · rcases min_choice (-m) m with e | e <;> rw [e] at h
    · exact absurd h.1 (lt_irrefl _)
    · exact absurd h.2 (lt_irrefl _)

/-- Division by a non-zero effective mass. -/
theorem solve_div (x k : ℝ) (hk : k ≠ 0) : x * (1 / k) * k = x := by field_simp

/-- **C19**, pin joint: if the anchors are apart and the impulse limit does not bind, one `ApplyImpulse`
makes the relative velocity of the anchors along the joint equal to the bias velocity. -/
theorem C19_pin (dt : ℝ) (j : PinJoint ℝ) (h0 h : Bodies ℝ) (hab : j.a ≠ j.b) (hi : SameInertia h0 h j.a j.b)
    (acc : ℝ) (jp : PinJoint ℝ) (hjp : jp = { (j.preStep h0 dt).2 with jnAcc := acc })
    (hd : (h0 j.a).p.add (anchorOffset (h0 j.a) j.anchorA) ≠ (h0 j.b).p.add (anchorOffset (h0 j.b) j.anchorB))
    (hs : Solvable h0 j.a j.b)
    (hlim : (jp.applyImpulse h dt).2.getImpulse < j.maxForce * dt) :
    (relVel (jp.applyImpulse h dt).1 j.a j.b jp.r1 jp.r2).dot jp.n = jp.bias := by
  have hk := (hs.kScalar_pos (j.preStep h0 dt).2.r1 (j.preStep h0 dt).2.r2 (j.preStep h0 dt).2.n).ne'
  set delta := (h0 j.b).p.add ((anchorOffset (h0 j.b) j.anchorB).sub ((h0 j.a).p.add (anchorOffset (h0 j.a) j.anchorA))) with hdelta
  have hlen : delta.length ≠ 0 := by
    intro hz
    apply hd
    have h2 := delta.length_sq
    rw [hz] at h2
    simp only [Vec.dot] at h2
    have hx : delta.x = 0 := by nlinarith [sq_nonneg delta.x, sq_nonneg delta.y]
    have hy : delta.y = 0 := by nlinarith [sq_nonneg delta.x, sq_nonneg delta.y]
    simp only [hdelta, Vec.add, Vec.sub] at hx hy
    ext <;> simp only [Vec.add] <;> linarith
  have hn : (j.preStep h0 dt).2.n = delta.mult (1 / delta.length) := by
    simp only [PinJoint.preStep]
    rw [if_pos hlen]
  have hn1 : (j.preStep h0 dt).2.n.dot (j.preStep h0 dt).2.n = 1 := by
    rw [hn]
    have h2 := delta.length_sq
    simp only [Vec.dot, Vec.mult] at h2 ⊢
    field_simp
    linarith
  have hr1 : jp.r1 = (j.preStep h0 dt).2.r1 := by rw [hjp]
  have hr2 : jp.r2 = (j.preStep h0 dt).2.r2 := by rw [hjp]
  have hjn : jp.n = (j.preStep h0 dt).2.n := by rw [hjp]
  rw [← hjn] at hn1 hk
  rw [← hr1, ← hr2] at hk
  have hnm : jp.nMass = 1 / kScalar h0 j.a j.b jp.r1 jp.r2 jp.n := by rw [hr1, hr2, hjn, hjp]; rfl
  have ha : jp.a = j.a := by rw [hjp]; rfl
  have hb : jp.b = j.b := by rw [hjp]; rfl
  have hmf : jp.maxForce = j.maxForce := by rw [hjp]; rfl
  clear hjp
  simp only [PinJoint.applyImpulse, PinJoint.getImpulse, fabs_real] at hlim ⊢
  rw [hmf] at hlim ⊢
  rw [clamp_inside _ _ hlim, ha, hb, normalVel_apply h j.a j.b hab _ _ _ _ hn1, hnm, kScalar_same hi]
  simp only [normalRelVel]
  rw [add_sub_cancel_left, solve_div _ _ hk]
  ring

/-- **C19**, damped spring: one `ApplyImpulse` moves the relative velocity of the anchors along the
spring from `vrn` to `vrn + (target - vrn)*vCoef`, the new target, whatever the bodies. -/
theorem C19_spring (dt : ℝ) (j : DampedSpring ℝ) (h0 h : Bodies ℝ) (hab : j.a ≠ j.b) (hi : SameInertia h0 h j.a j.b)
    (jp : DampedSpring ℝ) (hjp : jp = (j.preStep h0 dt).2)
    (hd : ((h0 j.b).p.add (anchorOffset (h0 j.b) j.anchorB)) ≠ ((h0 j.a).p.add (anchorOffset (h0 j.a) j.anchorA)))
    (hs : Solvable h0 j.a j.b) (t : ℝ) :
    let js := { jp with targetVrn := t }
    let v := (relVel h j.a j.b jp.r1 jp.r2).dot jp.n
    let v' := (relVel (js.applyImpulse h dt).1 j.a j.b jp.r1 jp.r2).dot jp.n
    v' = v + (t - v) * jp.vCoef ∧ v' = (js.applyImpulse h dt).2.targetVrn := by
  subst hjp
  have hk := (hs.kScalar_pos (j.preStep h0 dt).2.r1 (j.preStep h0 dt).2.r2 (j.preStep h0 dt).2.n).ne'
  set delta := ((h0 j.b).p.add (anchorOffset (h0 j.b) j.anchorB)).sub ((h0 j.a).p.add (anchorOffset (h0 j.a) j.anchorA)) with hdelta
  have hlen : delta.length ≠ 0 := by
    intro hz
    apply hd
    have h2 := delta.length_sq
    rw [hz] at h2
    simp only [Vec.dot] at h2
    have hx : delta.x = 0 := by nlinarith [sq_nonneg delta.x, sq_nonneg delta.y]
    have hy : delta.y = 0 := by nlinarith [sq_nonneg delta.x, sq_nonneg delta.y]
    simp only [hdelta, Vec.add, Vec.sub] at hx hy
    ext <;> simp only [Vec.add] <;> linarith
  have hn : (j.preStep h0 dt).2.n = delta.mult (1 / delta.length) := by
    simp only [DampedSpring.preStep]
    rw [if_pos hlen]
  have hn1 : (j.preStep h0 dt).2.n.dot (j.preStep h0 dt).2.n = 1 := by
    rw [hn]
    have h2 := delta.length_sq
    simp only [Vec.dot, Vec.mult] at h2 ⊢
    field_simp
    linarith
  have hnm : (j.preStep h0 dt).2.nMass = 1 / kScalar h0 j.a j.b (j.preStep h0 dt).2.r1 (j.preStep h0 dt).2.r2 (j.preStep h0 dt).2.n := rfl
  have ha : (j.preStep h0 dt).2.a = j.a := rfl
  have hb : (j.preStep h0 dt).2.b = j.b := rfl
  generalize (j.preStep h0 dt).2 = jp at *
  intro js v v'
  have e : v' = v + (t - v) * jp.vCoef := by
    simp only [v', js, DampedSpring.applyImpulse]
    rw [ha, hb, normalVel_apply h j.a j.b hab _ _ _ _ hn1, hnm, kScalar_same hi, solve_div _ _ hk]
    simp only [v, normalRelVel]
  refine ⟨e, e.trans ?_⟩
  simp only [js, DampedSpring.applyImpulse, normalRelVel, v, ha, hb]

/-- **C19**: the spring's coefficient is a proper damping factor. -/
theorem C19_spring_coef (dt : ℝ) (j : DampedSpring ℝ) (h : Bodies ℝ) (hdt : 0 ≤ dt) (hd : 0 ≤ j.damping)
    (hs : Solvable h j.a j.b) : 0 ≤ (j.preStep h dt).2.vCoef ∧ (j.preStep h dt).2.vCoef < 1 := by
  have hk := (hs.kScalar_pos (j.preStep h dt).2.r1 (j.preStep h dt).2.r2 (j.preStep h dt).2.n).le
  have e : (j.preStep h dt).2.vCoef = 1 - Real.exp (-j.damping * dt *
    kScalar h j.a j.b (j.preStep h dt).2.r1 (j.preStep h dt).2.r2 (j.preStep h dt).2.n) := rfl
  rw [e]
  constructor
  · have : Real.exp (-j.damping * dt * kScalar h j.a j.b (j.preStep h dt).2.r1 (j.preStep h dt).2.r2 (j.preStep h dt).2.n) ≤ 1 := by
      rw [Real.exp_le_one_iff]
      have := mul_nonneg (mul_nonneg hd hdt) hk
      linarith
    linarith
  · linarith [Real.exp_pos (-j.damping * dt *
      kScalar h j.a j.b (j.preStep h dt).2.r1 (j.preStep h dt).2.r2 (j.preStep h dt).2.n)]


theorem kTensor_spec (h : Bodies ℝ) (a b : Nat) (s : Solvable h a b) (r1 r2 v : Vec ℝ) :
    let J := (kTensor h a b r1 r2).transform v
    ((J.mult ((h a).m_inv + (h b).m_inv)).add (r1.perp.mult ((h a).i_inv * r1.cross J))).add
          (r2.perp.mult ((h b).i_inv * r2.cross J)) = v := by
  intro J
  have h1 := s.m
  have h2 := s.ia
  have h3 := s.ib
  simp only [J, kTensor, Mat2.transform]
  generalize (h a).m_inv + (h b).m_inv = m at *
  generalize (h a).i_inv = ia at *
  generalize (h b).i_inv = ib at *
  have hd : (m + r1.y * r1.y * ia + r2.y * r2.y * ib) * (m + r1.x * r1.x * ia + r2.x * r2.x * ib) -
      (0 + -r1.x * r1.y * ia + -r2.x * r2.y * ib) * (0 + -r1.x * r1.y * ia + -r2.x * r2.y * ib) ≠ 0 := by
    have e : (m + r1.y * r1.y * ia + r2.y * r2.y * ib) * (m + r1.x * r1.x * ia + r2.x * r2.x * ib) -
      (0 + -r1.x * r1.y * ia + -r2.x * r2.y * ib) * (0 + -r1.x * r1.y * ia + -r2.x * r2.y * ib) =
      m * m + m * (ia * (r1.x * r1.x + r1.y * r1.y) + ib * (r2.x * r2.x + r2.y * r2.y)) + ia * ib * (r1.x * r2.y - r1.y * r2.x) ^ 2 := by ring
    rw [e]
    have p1 : 0 ≤ ia * (r1.x * r1.x + r1.y * r1.y) := mul_nonneg h2 (add_nonneg (mul_self_nonneg _) (mul_self_nonneg _))
    have p2 : 0 ≤ ib * (r2.x * r2.x + r2.y * r2.y) := mul_nonneg h3 (add_nonneg (mul_self_nonneg _) (mul_self_nonneg _))
    have p3 : 0 ≤ ia * ib * (r1.x * r2.y - r1.y * r2.x) ^ 2 := mul_nonneg (mul_nonneg h2 h3) (sq_nonneg _)
    have p4 := mul_pos h1 h1
    have p5 := mul_nonneg h1.le (add_nonneg p1 p2)
    exact ne_of_gt (by linarith)
  generalize hD : (m + r1.y * r1.y * ia + r2.y * r2.y * ib) * (m + r1.x * r1.x * ia + r2.x * r2.x * ib) -
      (0 + -r1.x * r1.y * ia + -r2.x * r2.y * ib) * (0 + -r1.x * r1.y * ia + -r2.x * r2.y * ib) = D at *
  have hDe : D * (1 / D) = 1 := by field_simp
  generalize 1 / D = e at *
  rw [← hD] at hDe
  clear hD
  ext <;> simp only [Vec.add, Vec.mult, Vec.perp, Vec.cross]
  · linear_combination v.x * hDe
  · linear_combination v.y * hDe

/-- **C19**, pivot joint: if the impulse limit does not bind, one `ApplyImpulse` makes the relative
velocity of the two anchors equal to the bias velocity. -/
theorem C19_pivot (dt : ℝ) (j : PivotJoint ℝ) (h0 h : Bodies ℝ) (hab : j.a ≠ j.b) (hi : SameInertia h0 h j.a j.b)
    (hs : Solvable h0 j.a j.b) (acc : Vec ℝ)
    (jp : PivotJoint ℝ) (hjp : jp = { (j.preStep h0 dt).2 with jAcc := acc })
    (hf : 0 ≤ j.maxForce * dt)
    (hlim : (acc.add (jp.k.transform (jp.bias.sub (relVel h j.a j.b jp.r1 jp.r2)))).length ≤ j.maxForce * dt) :
    relVel (jp.applyImpulse h dt).1 j.a j.b jp.r1 jp.r2 = jp.bias := by
  have hkt : jp.k = kTensor h0 j.a j.b jp.r1 jp.r2 := by subst hjp; rfl
  have hacc : jp.jAcc = acc := by subst hjp; rfl
  have ha : jp.a = j.a := by subst hjp; rfl
  have hb : jp.b = j.b := by subst hjp; rfl
  have hmf : jp.maxForce = j.maxForce := by subst hjp; rfl
  clear hjp
  have hkt' : kTensor h0 j.a j.b jp.r1 jp.r2 = kTensor h j.a j.b jp.r1 jp.r2 := by
    simp only [kTensor, hi.ma, hi.mb, hi.ia, hi.ib]
  have hs' : Solvable h j.a j.b := ⟨by rw [hi.ma, hi.mb]; exact hs.m, by rw [hi.ia]; exact hs.ia, by rw [hi.ib]; exact hs.ib⟩
  simp only [PivotJoint.applyImpulse, hmf, hacc, ha, hb]
  rw [(C41_clampLen _ _ hf).2.1 hlim]
  have e : ∀ d : Vec ℝ, (acc.add d).sub acc = d := by intro d; ext <;> simp [Vec.add, Vec.sub]
  rw [e, relVel_apply h j.a j.b hab, hkt, hkt', kTensor_spec h j.a j.b hs']
  ext <;> simp [Vec.add, Vec.sub]

theorem spin_apply (h : Bodies ℝ) (a b : Nat) (hab : a ≠ b) (da db : Body ℝ → ℝ) :
    ((applySpin h a b da db) b).w = (h b).w + db (h b) ∧ ((applySpin h a b da db) a).w = (h a).w - da (h a) := by
  have hba : b ≠ a := hab.symm
  simp [applySpin, Bodies.set, hab, hba]

/-- **C19**, gear joint: unclamped, `b.w*ratio - a.w` becomes the bias velocity. -/
theorem C19_gear (dt : ℝ) (j : GearJoint ℝ) (h0 h : Bodies ℝ) (hab : j.a ≠ j.b) (hi : SameInertia h0 h j.a j.b)
    (hr : j.ratio ≠ 0) (hri : j.ratio_inv = 1 / j.ratio) (acc : ℝ)
    (hk : (h0 j.a).i_inv * j.ratio_inv + j.ratio * (h0 j.b).i_inv ≠ 0)
    (jp : GearJoint ℝ) (hjp : jp = { (j.preStep h0 dt).2 with jAcc := acc })
    (hlim : (jp.applyImpulse h dt).2.getImpulse < j.maxForce * dt) :
    ((jp.applyImpulse h dt).1 j.b).w * j.ratio - ((jp.applyImpulse h dt).1 j.a).w = jp.bias := by
  have his : jp.iSum = 1 / ((h0 j.a).i_inv * j.ratio_inv + j.ratio * (h0 j.b).i_inv) := by subst hjp; rfl
  have ha : jp.a = j.a := by subst hjp; rfl
  have hb : jp.b = j.b := by subst hjp; rfl
  have hmf : jp.maxForce = j.maxForce := by subst hjp; rfl
  have e1 : jp.ratio = j.ratio := by subst hjp; rfl
  have e2 : jp.ratio_inv = j.ratio_inv := by subst hjp; rfl
  clear hjp
  simp only [GearJoint.applyImpulse, GearJoint.getImpulse, fabs_real, hmf] at hlim ⊢
  rw [clamp_inside _ _ hlim, ha, hb, (spin_apply h j.a j.b hab _ _).1, (spin_apply h j.a j.b hab _ _).2]
  rw [hi.ia, hi.ib, add_sub_cancel_left, his, e1, e2]
  have := solve_div (jp.bias - ((h j.b).w * j.ratio - (h j.a).w)) _ hk
  linear_combination this

/-- **C19**, motor: unclamped, the relative spin becomes minus the rate. -/
theorem C19_motor (dt : ℝ) (j : SimpleMotor ℝ) (h0 h : Bodies ℝ) (hab : j.a ≠ j.b) (hi : SameInertia h0 h j.a j.b)
    (hk : (h0 j.a).i_inv + (h0 j.b).i_inv ≠ 0) (acc : ℝ)
    (jp : SimpleMotor ℝ) (hjp : jp = { (j.preStep h0 dt).2 with jAcc := acc })
    (hlim : (jp.applyImpulse h dt).2.getImpulse < j.maxForce * dt) :
    ((jp.applyImpulse h dt).1 j.b).w - ((jp.applyImpulse h dt).1 j.a).w = -j.rate := by
  have his : jp.iSum = 1 / ((h0 j.a).i_inv + (h0 j.b).i_inv) := by subst hjp; rfl
  have ha : jp.a = j.a := by subst hjp; rfl
  have hb : jp.b = j.b := by subst hjp; rfl
  have hmf : jp.maxForce = j.maxForce := by subst hjp; rfl
  have e1 : jp.rate = j.rate := by subst hjp; rfl
  clear hjp
  simp only [SimpleMotor.applyImpulse, SimpleMotor.getImpulse, fabs_real, hmf] at hlim ⊢
  rw [clamp_inside _ _ hlim, ha, hb, (spin_apply h j.a j.b hab _ _).1, (spin_apply h j.a j.b hab _ _).2]
  rw [hi.ia, hi.ib, add_sub_cancel_left, his, e1]
  have := solve_div (-((h j.b).w - (h j.a).w + j.rate)) _ hk
  linear_combination this

/-- **C19**, rotary limit: outside its range and unclamped, the relative spin becomes minus the bias
(the speed with which the error is to be corrected). -/
theorem C19_rotaryLimit (dt : ℝ) (j : RotaryLimitJoint ℝ) (h0 h : Bodies ℝ) (hab : j.a ≠ j.b) (hi : SameInertia h0 h j.a j.b)
    (hk : (h0 j.a).i_inv + (h0 j.b).i_inv ≠ 0) (acc : ℝ)
    (jp : RotaryLimitJoint ℝ) (hjp : jp = { (j.preStep h0 dt).2 with jAcc := acc }) (hb0 : jp.bias ≠ 0)
    (hlim : 0 < (jp.applyImpulse h dt).2.getImpulse ∧ (jp.applyImpulse h dt).2.getImpulse < j.maxForce * dt) :
    ((jp.applyImpulse h dt).1 j.b).w - ((jp.applyImpulse h dt).1 j.a).w = -jp.bias := by
  have his : jp.iSum = 1 / ((h0 j.a).i_inv + (h0 j.b).i_inv) := by subst hjp; rfl
  have ha : jp.a = j.a := by subst hjp; rfl
  have hb : jp.b = j.b := by subst hjp; rfl
  have hmf : jp.maxForce = j.maxForce := by subst hjp; rfl
  clear hjp
  simp only [RotaryLimitJoint.applyImpulse, RotaryLimitJoint.getImpulse, fabs_real, hmf, if_neg hb0] at hlim ⊢
  have hcl : (if jp.bias < 0 then clamp (jp.jAcc + -(jp.bias + ((h jp.b).w - (h jp.a).w)) * jp.iSum) 0 (j.maxForce * dt)
      else clamp (jp.jAcc + -(jp.bias + ((h jp.b).w - (h jp.a).w)) * jp.iSum) (-(j.maxForce * dt)) 0) =
      jp.jAcc + -(jp.bias + ((h jp.b).w - (h jp.a).w)) * jp.iSum := by
    have hpos : 0 < j.maxForce * dt := hlim.1.trans hlim.2
    generalize jp.jAcc + -(jp.bias + ((h jp.b).w - (h jp.a).w)) * jp.iSum = x at *
    by_cases hneg : jp.bias < 0
    · simp only [if_pos hneg] at hlim ⊢
      rw [clamp_eq_real _ _ _ hpos.le] at hlim ⊢
      obtain ⟨l1, l2⟩ := hlim
      rw [abs_of_nonneg (le_max_left _ _)] at l1 l2
      rcases lt_max_iff.mp l1 with l1 | l1
      · exact absurd l1 (lt_irrefl _)
      · have := max_lt_iff.mp l2
        rw [max_eq_right l1.le]
        rcases min_lt_iff.mp this.2 with q | q
        · exact min_eq_left q.le
        · exact absurd q (lt_irrefl _)
    · simp only [if_neg hneg] at hlim ⊢
      rw [clamp_eq_real _ _ _ (by linarith)] at hlim ⊢
      obtain ⟨l1, l2⟩ := hlim
      have hle : max (-(j.maxForce * dt)) (min x 0) ≤ 0 := max_le (by linarith) (min_le_right _ _)
      rw [abs_of_nonpos hle] at l1 l2
      have l3 : max (-(j.maxForce * dt)) (min x 0) < 0 := by linarith
      have l4 : -(j.maxForce * dt) < max (-(j.maxForce * dt)) (min x 0) := by linarith
      rcases lt_max_iff.mp l4 with q | q
      · exact absurd q (lt_irrefl _)
      · rw [max_eq_right q.le] at l3 ⊢
        rcases min_lt_iff.mp l3 with q | q
        · exact min_eq_left q.le
        · exact absurd q (lt_irrefl _)
  rw [hcl, ha, hb, (spin_apply h j.a j.b hab _ _).1, (spin_apply h j.a j.b hab _ _).2]
  rw [hi.ia, hi.ib, add_sub_cancel_left, his]
  have := solve_div (-(jp.bias + ((h j.b).w - (h j.a).w))) _ hk
  linear_combination this

/-- **C19**, rotary spring damping: the relative spin moves from `wrn` to `wrn + (target-wrn)*wCoef`. -/
theorem C19_rotarySpring (dt : ℝ) (j : DampedRotarySpring ℝ) (h0 h : Bodies ℝ) (hab : j.a ≠ j.b)
    (hi : SameInertia h0 h j.a j.b) (hk : (h0 j.a).i_inv + (h0 j.b).i_inv ≠ 0) (t acc : ℝ)
    (jp : DampedRotarySpring ℝ) (hjp : jp = { (j.preStep h0 dt).2 with targetWrn := t, jAcc := acc }) :
    let v := (h j.a).w - (h j.b).w
    let v' := ((jp.applyImpulse h dt).1 j.a).w - ((jp.applyImpulse h dt).1 j.b).w
    v' = v + (t - v) * jp.wCoef ∧ v' = (jp.applyImpulse h dt).2.targetWrn := by
  have his : jp.iSum = 1 / ((h0 j.a).i_inv + (h0 j.b).i_inv) := by subst hjp; rfl
  have ha : jp.a = j.a := by subst hjp; rfl
  have hb : jp.b = j.b := by subst hjp; rfl
  have ht : jp.targetWrn = t := by subst hjp; rfl
  clear hjp
  intro v v'
  have e : v' = v + (t - v) * jp.wCoef := by
    simp only [v', v, DampedRotarySpring.applyImpulse, Bodies.set, ha, hb, if_neg hab, if_neg hab.symm, if_true, ht, his, hi.ia, hi.ib]
    have := solve_div ((t - ((h j.a).w - (h j.b).w)) * jp.wCoef) _ hk
    linear_combination this
  refine ⟨e, e.trans ?_⟩
  simp only [DampedRotarySpring.applyImpulse, v, ha, hb, ht]

/-- **C19**, contacts: a frictionless contact whose normal impulse is not clamped makes the normal
relative velocity minus the bounce target; if it is clamped, the bodies separate at least that fast. -/
theorem C19_contact (h0 h : Bodies ℝ) (arb : Arb ℝ) (dt slop bias : ℝ) (hab : arb.a ≠ arb.b)
    (hi : SameInertia h0 h arb.a arb.b) (hs : Solvable h0 arb.a arb.b) (hn : arb.n.dot arb.n = 1)
    (hsv : arb.surface_vr.dot arb.n = 0) (hu : arb.u = 0)
    (c : Contact ℝ) (hc : c ∈ (arb.preStep h0 dt slop bias).contacts) (jn jb : ℝ) :
    let c0 := { c with jnAcc := jn, jtAcc := 0, jBias := jb }
    let r := arb.applyContact h c0
    let v' := (relVel r.1 arb.a arb.b c.r1 c.r2).dot arb.n
    (0 < r.2.jnAcc → v' = -c.bounce) ∧ -c.bounce ≤ v' := by
  intro c0 r v'
  have hk := hs.kScalar_pos c.r1 c.r2 arb.n
  have hnm : c.nMass = 1 / kScalar h0 arb.a arb.b c.r1 c.r2 arb.n := by
    simp only [Arb.preStep, List.mem_map] at hc
    obtain ⟨d, -, rfl⟩ := hc
    rfl
  have bv : ∀ (h : Bodies ℝ) (r1 r2 j : Vec ℝ),
      relVel (applyBiasImpulses h arb.a arb.b r1 r2 j) arb.a arb.b r1 r2 = relVel h arb.a arb.b r1 r2 := by
    intro h r1 r2 j
    have hba := hab.symm
    ext <;> simp [relVel, applyBiasImpulses, Bodies.set, hab, hba]
  have bk : ∀ (j : Vec ℝ), SameInertia h0 (applyBiasImpulses h arb.a arb.b c.r1 c.r2 j) arb.a arb.b := by
    intro j
    have hba := hab.symm
    constructor <;> simp [applyBiasImpulses, Bodies.set, hab, hba, hi.ma, hi.mb, hi.ia, hi.ib]
  set v := (relVel h arb.a arb.b c.r1 c.r2).dot arb.n with hv
  have hvr : ((relVel h arb.a arb.b c.r1 c.r2).add arb.surface_vr).dot arb.n = v := by
    simp only [Vec.dot, Vec.add, hv] at hsv ⊢; linarith
  have hjt : ∀ x y : ℝ, clamp x (-(arb.u * y)) (arb.u * y) = 0 := by
    intro x y; rw [hu, zero_mul, neg_zero]; unfold clamp; split
    · rename_i h; exact min_eq_right h.le
    · exact min_self _
  have hrot : ∀ s : ℝ, arb.n.rotate ⟨s, 0⟩ = arb.n.mult s := by
    intro s; ext <;> simp [Vec.rotate, Vec.mult]
  have hj2 : r.2.jnAcc = max (jn + -(c.bounce + v) * c.nMass) 0 := by
    simp only [r, c0, Arb.applyContact, hvr]
  have hv' : v' = v + (r.2.jnAcc - jn) * kScalar h0 arb.a arb.b c.r1 c.r2 arb.n := by
    rw [hj2]
    simp only [v', r, c0, Arb.applyContact, hjt, sub_zero, hrot, hvr]
    rw [normalVel_apply _ _ _ hab _ _ _ _ hn, bv, kScalar_same (bk _)]
  have hsol := solve_div (-(c.bounce + v)) _ hk.ne'
  rw [← hnm] at hsol
  constructor
  · intro hp
    rw [hj2] at hp hv'
    rcases lt_max_iff.mp hp with hp | hp
    · rw [max_eq_left hp.le] at hv'
      rw [hv']; linear_combination hsol
    · exact absurd hp (lt_irrefl _)
  · have : jn + -(c.bounce + v) * c.nMass ≤ r.2.jnAcc := by rw [hj2]; exact le_max_left _ _
    have := mul_le_mul_of_nonneg_right this hk.le
    rw [hv']
    nlinarith

/-! ### C43 -/

theorem gained_apply (h : Bodies ℝ) (a b : Nat) (hab : a ≠ b) (hm : (h b).m * (h b).m_inv = 1) (hi : (h b).i * (h b).i_inv = 1)
    (r1 r2 j : Vec ℝ) :
    gained h (applyImpulses h a b r1 r2 j) b = j ∧ spinGained h (applyImpulses h a b r1 r2 j) b = r2.cross j := by
  have hba := hab.symm
  refine ⟨?_, ?_⟩
  · ext <;> simp only [gained, applyImpulses, Bodies.set, if_neg hba, if_true, Vec.sub, Vec.mult]
    · linear_combination j.x * hm
    · linear_combination j.y * hm
  · simp only [spinGained, applyImpulses, Bodies.set, if_neg hba, if_true, Vec.cross]
    linear_combination (r2.x * j.y - r2.y * j.x) * hi

theorem gained_spin (h : Bodies ℝ) (a b : Nat) (hab : a ≠ b) (hi : (h b).i * (h b).i_inv = 1) (da : Body ℝ → ℝ) (s : ℝ) :
    gained h (applySpin h a b da (fun B => s * B.i_inv)) b = ⟨0, 0⟩ ∧
    spinGained h (applySpin h a b da (fun B => s * B.i_inv)) b = s := by
  have hba := hab.symm
  refine ⟨?_, ?_⟩
  · ext <;> simp [gained, applySpin, Bodies.set, hba, Vec.sub, Vec.mult]
  · simp only [spinGained, applySpin, Bodies.set, if_neg hba, if_true]
    linear_combination s * hi

theorem gained_self (h : Bodies ℝ) (b : Nat) : gained h h b = ⟨0, 0⟩ ∧ spinGained h h b = 0 := by
  constructor
  · ext <;> simp [gained, Vec.sub, Vec.mult]
  · simp [spinGained]

/-- Not a rotary spring. -/
def Joint.Truthful : Joint ℝ → Prop
  | .rotarySpring _ => False
  | _ => True

/-- `b` has finite mass and moment. -/
def Movable (h : Bodies ℝ) (b : Nat) : Prop := (h b).m * (h b).m_inv = 1 ∧ (h b).i * (h b).i_inv = 1

theorem apply_stored (dt : ℝ) (j : Joint ℝ) (h : Bodies ℝ) (hab : j.con.a ≠ j.con.b) (hm : Movable h j.con.b) (ht : j.Truthful) :
    (j.call dt (.apply h)).stored =
      (j.stored.1.add (gained (j.callHeap dt (.apply h)).1 (j.callHeap dt (.apply h)).2 j.con.b),
       j.stored.2 + spinGained (j.callHeap dt (.apply h)).1 (j.callHeap dt (.apply h)).2 j.con.b) := by
  cases j with
  | pin j =>
    simp only [Joint.call, Joint.callHeap, Joint.applyImpulse, Joint.stored, Prod.map, id, Joint.con, PinJoint.applyImpulse] at *
    rw [(gained_apply h j.a j.b hab hm.1 hm.2 _ _ _).1, (gained_apply h j.a j.b hab hm.1 hm.2 _ _ _).2]
    ext <;> simp only [Vec.add, Vec.mult, Vec.cross] <;> ring
  | slide j =>
    simp only [Joint.call, Joint.callHeap, Joint.applyImpulse, Joint.stored, Prod.map, id, Joint.con, SlideJoint.applyImpulse] at *
    split
    · rw [(gained_self h j.b).1, (gained_self h j.b).2]
      ext <;> simp [Vec.add]
    · rw [(gained_apply h j.a j.b hab hm.1 hm.2 _ _ _).1, (gained_apply h j.a j.b hab hm.1 hm.2 _ _ _).2]
      ext <;> simp only [Vec.add, Vec.mult, Vec.cross] <;> ring
  | pivot j =>
    simp only [Joint.call, Joint.callHeap, Joint.applyImpulse, Joint.stored, Prod.map, id, Joint.con, PivotJoint.applyImpulse] at *
    rw [(gained_apply h j.a j.b hab hm.1 hm.2 _ _ _).1, (gained_apply h j.a j.b hab hm.1 hm.2 _ _ _).2]
    ext <;> simp only [Vec.add, Vec.sub, Vec.cross] <;> ring
  | groove j =>
    simp only [Joint.call, Joint.callHeap, Joint.applyImpulse, Joint.stored, Prod.map, id, Joint.con, GrooveJoint.applyImpulse] at *
    rw [(gained_apply h j.a j.b hab hm.1 hm.2 _ _ _).1, (gained_apply h j.a j.b hab hm.1 hm.2 _ _ _).2]
    ext <;> simp only [Vec.add, Vec.sub, Vec.cross] <;> ring
  | spring j =>
    simp only [Joint.call, Joint.callHeap, Joint.applyImpulse, Joint.stored, Prod.map, id, Joint.con, DampedSpring.applyImpulse] at *
    rw [(gained_apply h j.a j.b hab hm.1 hm.2 _ _ _).1, (gained_apply h j.a j.b hab hm.1 hm.2 _ _ _).2]
    ext <;> simp only [Vec.add, Vec.mult, Vec.cross] <;> ring
  | rotarySpring j => exact ht.elim
  | gear j =>
    simp only [Joint.call, Joint.callHeap, Joint.applyImpulse, Joint.stored, Prod.map, id, Joint.con, GearJoint.applyImpulse] at *
    rw [(gained_spin h j.a j.b hab hm.2 _ _).1, (gained_spin h j.a j.b hab hm.2 _ _).2]
    ext <;> simp [Vec.add]
  | ratchet j =>
    simp only [Joint.call, Joint.callHeap, Joint.applyImpulse, Joint.stored, Prod.map, id, Joint.con, RatchetJoint.applyImpulse] at *
    split
    · rw [(gained_self h j.b).1, (gained_self h j.b).2]
      ext <;> simp [Vec.add]
    · rw [(gained_spin h j.a j.b hab hm.2 _ _).1, (gained_spin h j.a j.b hab hm.2 _ _).2]
      ext <;> simp [Vec.add]
  | rotaryLimit j =>
    simp only [Joint.call, Joint.callHeap, Joint.applyImpulse, Joint.stored, Prod.map, id, Joint.con, RotaryLimitJoint.applyImpulse] at *
    split
    · rw [(gained_self h j.b).1, (gained_self h j.b).2]
      ext <;> simp [Vec.add]
    · rw [(gained_spin h j.a j.b hab hm.2 _ _).1, (gained_spin h j.a j.b hab hm.2 _ _).2]
      ext <;> simp [Vec.add]
  | motor j =>
    simp only [Joint.call, Joint.callHeap, Joint.applyImpulse, Joint.stored, Prod.map, id, Joint.con, SimpleMotor.applyImpulse] at *
    rw [(gained_spin h j.a j.b hab hm.2 _ _).1, (gained_spin h j.a j.b hab hm.2 _ _).2]
    ext <;> simp [Vec.add]

theorem call_truthful (dt : ℝ) (j : Joint ℝ) (c : JointCall ℝ) (ht : j.Truthful) : (j.call dt c).Truthful := by
  cases j <;> cases c <;> first | exact ht.elim | trivial

theorem apply_net (dt : ℝ) : ∀ (hs : List (Bodies ℝ)) (j : Joint ℝ), j.con.a ≠ j.con.b → j.Truthful →
    (∀ h ∈ hs, Movable h j.con.b) →
    ((hs.map JointCall.apply).foldl (Joint.call dt) j).stored =
      (j.stored.1.add (j.netImpulse dt (hs.map .apply)).1, j.stored.2 + (j.netImpulse dt (hs.map .apply)).2)
  | [], j, _, _, _ => by
    ext <;> simp [Joint.netImpulse, Vec.add]
  | h :: hs, j, hab, ht, hm => by
    have k := (call_keeps dt j (.apply h)).1
    have ih := apply_net dt hs (j.call dt (.apply h)) (by rw [k]; exact hab) (call_truthful dt j _ ht)
      (fun x hx => by rw [k]; exact hm x (List.mem_cons_of_mem _ hx))
    simp only [List.map_cons, List.foldl_cons, Joint.netImpulse]
    rw [ih, apply_stored dt j h hab (hm h List.mem_cons_self) ht]
    ext <;> simp only [Vec.add] <;> ring

/-- **C43**: over a step of unchanged length (warm start coefficient 1) the impulse a joint stores is exactly
the impulse it gave to its body `b` during that step — linear part and moment about `b`'s centre —
whatever happens to the bodies between its calls and for any number of iterations. (For every joint except
the damped rotary spring, see `C43_rotarySpring_wrong`.) -/
theorem C43_joint (dt : ℝ) (j : Joint ℝ) (h0 hc : Bodies ℝ) (hs : List (Bodies ℝ)) (hab : j.con.a ≠ j.con.b) (ht : j.Truthful)
    (hm : ∀ h ∈ h0 :: hc :: hs, Movable h j.con.b) :
    ((stepCalls h0 hc hs).foldl (Joint.call dt) j).stored = j.netImpulse dt (stepCalls h0 hc hs) := by
  have m0 := hm h0 List.mem_cons_self
  have mc := hm hc (List.mem_cons_of_mem _ List.mem_cons_self)
  have k1 := (call_keeps dt j (.preStep h0)).1
  have k2 := (call_keeps dt (j.call dt (.preStep h0)) (.cached hc 1)).1
  have key : ((j.call dt (.preStep h0)).call dt (.cached hc 1)).stored =
      ((gained (j.callHeap dt (.preStep h0)).1 (j.callHeap dt (.preStep h0)).2 j.con.b).add
        (gained ((j.call dt (.preStep h0)).callHeap dt (.cached hc 1)).1 ((j.call dt (.preStep h0)).callHeap dt (.cached hc 1)).2
          (j.call dt (.preStep h0)).con.b),
       spinGained (j.callHeap dt (.preStep h0)).1 (j.callHeap dt (.preStep h0)).2 j.con.b +
        spinGained ((j.call dt (.preStep h0)).callHeap dt (.cached hc 1)).1 ((j.call dt (.preStep h0)).callHeap dt (.cached hc 1)).2
          (j.call dt (.preStep h0)).con.b) := by
    rw [k1]
    cases j with
    | pin j =>
      simp only [Joint.call, Joint.callHeap, Joint.preStep, Joint.applyCached, Joint.stored, Prod.map, id, Joint.con, PinJoint.preStep, PinJoint.applyCached] at *
      rw [(gained_self h0 j.b).1, (gained_self h0 j.b).2, (gained_apply hc j.a j.b hab mc.1 mc.2 _ _ _).1, (gained_apply hc j.a j.b hab mc.1 mc.2 _ _ _).2]
      ext <;> simp [Vec.add, Vec.mult, Vec.cross]
    | slide j =>
      simp only [Joint.call, Joint.callHeap, Joint.preStep, Joint.applyCached, Joint.stored, Prod.map, id, Joint.con, SlideJoint.preStep, SlideJoint.applyCached] at *
      rw [(gained_self h0 j.b).1, (gained_self h0 j.b).2, (gained_apply hc j.a j.b hab mc.1 mc.2 _ _ _).1, (gained_apply hc j.a j.b hab mc.1 mc.2 _ _ _).2]
      ext <;> simp [Vec.add, Vec.mult, Vec.cross]
    | pivot j =>
      simp only [Joint.call, Joint.callHeap, Joint.preStep, Joint.applyCached, Joint.stored, Prod.map, id, Joint.con, PivotJoint.preStep, PivotJoint.applyCached] at *
      rw [(gained_self h0 j.b).1, (gained_self h0 j.b).2, (gained_apply hc j.a j.b hab mc.1 mc.2 _ _ _).1, (gained_apply hc j.a j.b hab mc.1 mc.2 _ _ _).2]
      ext <;> simp [Vec.add, Vec.mult, Vec.cross]
    | groove j =>
      simp only [Joint.call, Joint.callHeap, Joint.preStep, Joint.applyCached, Joint.stored, Prod.map, id, Joint.con, GrooveJoint.preStep, GrooveJoint.applyCached] at *
      rw [(gained_self h0 j.b).1, (gained_self h0 j.b).2, (gained_apply hc j.a j.b hab mc.1 mc.2 _ _ _).1, (gained_apply hc j.a j.b hab mc.1 mc.2 _ _ _).2]
      ext <;> simp [Vec.add, Vec.mult, Vec.cross]
    | spring j =>
      simp only [Joint.call, Joint.callHeap, Joint.preStep, Joint.applyCached, Joint.stored, Prod.map, id, Joint.con, DampedSpring.preStep, DampedSpring.applyCached] at *
      rw [(gained_self hc j.b).1, (gained_self hc j.b).2, (gained_apply h0 j.a j.b hab m0.1 m0.2 _ _ _).1, (gained_apply h0 j.a j.b hab m0.1 m0.2 _ _ _).2]
      ext <;> simp [Vec.add, Vec.mult, Vec.cross]
    | rotarySpring j => exact ht.elim
    | gear j =>
      simp only [Joint.call, Joint.callHeap, Joint.preStep, Joint.applyCached, Joint.stored, Prod.map, id, Joint.con, GearJoint.preStep, GearJoint.applyCached] at *
      rw [(gained_self h0 j.b).1, (gained_self h0 j.b).2, (gained_spin hc j.a j.b hab mc.2 _ _).1, (gained_spin hc j.a j.b hab mc.2 _ _).2]
      ext <;> simp [Vec.add]
    | ratchet j =>
      simp only [Joint.call, Joint.callHeap, Joint.preStep, Joint.applyCached, Joint.stored, Prod.map, id, Joint.con, RatchetJoint.preStep, RatchetJoint.applyCached] at *
      rw [(gained_self h0 j.b).1, (gained_self h0 j.b).2, (gained_spin hc j.a j.b hab mc.2 _ _).1, (gained_spin hc j.a j.b hab mc.2 _ _).2]
      ext <;> simp [Vec.add]
    | rotaryLimit j =>
      simp only [Joint.call, Joint.callHeap, Joint.preStep, Joint.applyCached, Joint.stored, Prod.map, id, Joint.con, RotaryLimitJoint.preStep, RotaryLimitJoint.applyCached] at *
      rw [(gained_self h0 j.b).1, (gained_self h0 j.b).2, (gained_spin hc j.a j.b hab mc.2 _ _).1, (gained_spin hc j.a j.b hab mc.2 _ _).2]
      ext <;> simp [Vec.add]
    | motor j =>
      simp only [Joint.call, Joint.callHeap, Joint.preStep, Joint.applyCached, Joint.stored, Prod.map, id, Joint.con, SimpleMotor.preStep, SimpleMotor.applyCached] at *
      rw [(gained_self h0 j.b).1, (gained_self h0 j.b).2, (gained_spin hc j.a j.b hab mc.2 _ _).1, (gained_spin hc j.a j.b hab mc.2 _ _).2]
      ext <;> simp [Vec.add]
  have net := apply_net dt hs ((j.call dt (.preStep h0)).call dt (.cached hc 1)) (by rw [k2, k1]; exact hab)
    (call_truthful dt _ _ (call_truthful dt _ _ ht))
    (fun x hx => by rw [k2, k1]; exact hm x (List.mem_cons_of_mem _ (List.mem_cons_of_mem _ hx)))
  simp only [stepCalls, List.foldl_cons, Joint.netImpulse]
  rw [net, key]
  ext <;> simp only [Vec.add] <;> ring

/-- **C43**: `GetImpulse` is the size of the stored impulse (for pin and slide joints and springs
relative to the length of the joint's direction, which is 1 up to the rounding guard of `Normalize`). -/
theorem C43_getImpulse (j : Joint ℝ) :
    match j with
    | .pin p => j.stored.1.length = p.n.length * j.getImpulse
    | .slide p => j.stored.1.length = p.n.length * j.getImpulse
    | .spring p => j.stored.1.length = p.n.length * |j.getImpulse|
    | .pivot _ => j.stored.1.length = j.getImpulse
    | .groove _ => j.stored.1.length = j.getImpulse
    | .rotarySpring _ => j.stored.2 = j.getImpulse
    | _ => |j.stored.2| = j.getImpulse := by
  cases j <;> simp [Joint.stored, Joint.getImpulse, Vec.length_mult, PinJoint.getImpulse, SlideJoint.getImpulse, PivotJoint.getImpulse,
    GrooveJoint.getImpulse, DampedSpring.getImpulse, DampedRotarySpring.getImpulse, GearJoint.getImpulse, RatchetJoint.getImpulse,
    RotaryLimitJoint.getImpulse, SimpleMotor.getImpulse]

/-- **C43** fails for the damped rotary spring: `ApplyImpulse` adds to the stored impulse what it
subtracts from `b`'s spin, so `GetImpulse` is not the impulse applied. -/
theorem C43_rotarySpring_wrong : ∃ (j : DampedRotarySpring ℝ) (h : Bodies ℝ), j.a ≠ j.b ∧ Movable h j.b ∧
    ((stepCalls h h [h]).foldl (Joint.call 1) (.rotarySpring j)).stored.2 ≠
      ((Joint.rotarySpring j).netImpulse 1 (stepCalls h h [h])).2 := by
  let b : Body ℝ := { Body.new (1 : ℝ) 1 with m := 1, m_inv := 1, i := 1, i_inv := 1, w := 0 }
  refine ⟨⟨⟨0, 1, 1, 1, 1⟩, 0, 0, 1, fun _ => 0, 0, 0, 0, 0⟩, fun k => if k = 0 then { b with w := 1 } else b, by simp, ?_, ?_⟩
  · simp [Movable, b]
  · have he : Real.exp (-2) < 1 := by rw [Real.exp_lt_one_iff]; norm_num
    simp only [stepCalls, List.map_cons, List.map_nil, List.foldl_cons, List.foldl_nil, Joint.call, Joint.callHeap, Joint.netImpulse, Joint.preStep,
      Joint.applyCached, Joint.applyImpulse, Prod.map, id, DampedRotarySpring.preStep, DampedRotarySpring.applyCached,
      DampedRotarySpring.applyImpulse, Joint.stored, Joint.con, spinGained, applySpin, Bodies.set]
    norm_num [b, exp_real]
    intro hc
    linarith

/-- **C43**, contacts: `Arbiter.TotalImpulse` (with the sign it reports) is exactly what the contacts gave to body `b`
in the step: the warm start with coefficient 1 plus all iterations, whatever happens to the bodies in
between. The arbiter must not be in its first step with leftover impulses (then no warm start is
applied). -/
theorem C43_contact (arb : Arb ℝ) (hc : Bodies ℝ) (hs : List (Bodies ℝ)) (hab : arb.a ≠ arb.b)
    (hm : ∀ h ∈ hc :: hs, Movable h arb.b)
    (hf : arb.first = true → ∀ c ∈ arb.contacts, c.jnAcc = 0 ∧ c.jtAcc = 0) (swapped : Bool) :
    let last := hs.foldl (fun x h => (x.applyImpulse h).2) arb
    let total := (gained hc (arb.applyCached hc 1) arb.b).add (arb.netImpulse hs)
    last.totalImpulse swapped = if swapped then total else total.neg := by
  intro last total
  -- the sum of the stored impulses of a list of contacts
  let S : Vec ℝ → List (Contact ℝ) → Vec ℝ := fun n cs => cs.foldl (fun s c => s.add (n.rotate ⟨c.jnAcc, c.jtAcc⟩)) ⟨0, 0⟩
  have S_cons : ∀ n c cs, S n (c :: cs) = (n.rotate ⟨c.jnAcc, c.jtAcc⟩).add (S n cs) := by
    intro n c cs
    have gen : ∀ (cs : List (Contact ℝ)) (v : Vec ℝ), cs.foldl (fun s c => s.add (n.rotate ⟨c.jnAcc, c.jtAcc⟩)) v = v.add (S n cs) := by
      intro cs
      induction cs with
      | nil => intro v; ext <;> simp [S, Vec.add]
      | cons d cs ih =>
        intro v
        simp only [S, List.foldl_cons]
        rw [ih, ih]
        ext <;> simp only [Vec.add] <;> ring
    show (c :: cs).foldl _ _ = _
    rw [List.foldl_cons, gen]
    ext <;> simp [Vec.add]
  have keep : ∀ (h : Bodies ℝ) (r1 r2 j : Vec ℝ), Movable h arb.b → Movable (applyImpulses h arb.a arb.b r1 r2 j) arb.b := by
    intro h r1 r2 j hm
    have hba := hab.symm
    simpa [Movable, applyImpulses, Bodies.set, hba] using hm
  have keepb : ∀ (h : Bodies ℝ) (r1 r2 j : Vec ℝ), Movable h arb.b → Movable (applyBiasImpulses h arb.a arb.b r1 r2 j) arb.b := by
    intro h r1 r2 j hm
    have hba := hab.symm
    simpa [Movable, applyBiasImpulses, Bodies.set, hba] using hm
  have tri : ∀ (h h' h'' : Bodies ℝ), (h' arb.b).m = (h arb.b).m → gained h h'' arb.b = (gained h h' arb.b).add (gained h' h'' arb.b) := by
    intro h h' h'' e
    ext <;> simp only [gained, Vec.add, Vec.mult, Vec.sub, e] <;> ring
  have gb : ∀ (h : Bodies ℝ) (r1 r2 j : Vec ℝ), gained h (applyBiasImpulses h arb.a arb.b r1 r2 j) arb.b = ⟨0, 0⟩ ∧
      ((applyBiasImpulses h arb.a arb.b r1 r2 j) arb.b).m = (h arb.b).m := by
    intro h r1 r2 j
    have hba := hab.symm
    refine ⟨?_, by simp [applyBiasImpulses, Bodies.set, hba]⟩
    ext <;> simp [gained, applyBiasImpulses, Bodies.set, hba, Vec.sub, Vec.mult]
  have gm : ∀ (h : Bodies ℝ) (r1 r2 j : Vec ℝ), ((applyImpulses h arb.a arb.b r1 r2 j) arb.b).m = (h arb.b).m := by
    intro h r1 r2 j
    have hba := hab.symm
    simp [applyImpulses, Bodies.set, hba]
  -- one iteration
  have loop : ∀ (cs : List (Contact ℝ)) (x : Arb ℝ) (h : Bodies ℝ), x.a = arb.a → x.b = arb.b → Movable h arb.b →
      S x.n (x.applyLoop h cs).2 = (S x.n cs).add (gained h (x.applyLoop h cs).1 arb.b) := by
    intro cs
    induction cs with
    | nil =>
      intro x h _ _ _
      simp only [Arb.applyLoop]
      rw [(gained_self h arb.b).1]; ext <;> simp [Vec.add]
    | cons c cs ih =>
      intro x h ea eb hmv
      simp only [Arb.applyLoop]
      rw [S_cons, S_cons]
      set r := x.applyContact h c with hr
      have hr1 : Movable r.1 arb.b ∧ (r.1 arb.b).m = (h arb.b).m ∧
          x.n.rotate ⟨r.2.jnAcc, r.2.jtAcc⟩ = (x.n.rotate ⟨c.jnAcc, c.jtAcc⟩).add (gained h r.1 arb.b) := by
        simp only [hr, Arb.applyContact, ea, eb]
        refine ⟨keep _ _ _ _ (keepb _ _ _ _ hmv), by rw [gm, (gb _ _ _ _).2], ?_⟩
        rw [tri h (applyBiasImpulses h arb.a arb.b c.r1 c.r2 _) _ (gb _ _ _ _).2, (gb _ _ _ _).1,
          (gained_apply _ arb.a arb.b hab (keepb _ _ _ _ hmv).1 (keepb _ _ _ _ hmv).2 _ _ _).1]
        ext <;> simp only [Vec.add, Vec.rotate] <;> ring
      rw [ih x r.1 ea eb hr1.1, hr1.2.2, tri h r.1 (x.applyLoop r.1 cs).1 hr1.2.1]
      ext <;> simp only [Vec.add] <;> ring
  -- all iterations
  have iter : ∀ (hs : List (Bodies ℝ)) (x : Arb ℝ), x.a = arb.a → x.b = arb.b → (∀ h ∈ hs, Movable h arb.b) →
      S (hs.foldl (fun x h => (x.applyImpulse h).2) x).n (hs.foldl (fun x h => (x.applyImpulse h).2) x).contacts =
        (S x.n x.contacts).add (x.netImpulse hs) := by
    intro hs
    induction hs with
    | nil => intro x _ _ _; simp only [List.foldl_nil, Arb.netImpulse]; ext <;> simp [Vec.add]
    | cons h hs ih =>
      intro x ea eb hmv
      rw [List.foldl_cons, ih (x.applyImpulse h).2 ea eb (fun y hy => hmv y (List.mem_cons_of_mem _ hy))]
      have l := loop x.contacts x h ea eb (hmv h List.mem_cons_self)
      have e1 : S (x.applyImpulse h).2.n (x.applyImpulse h).2.contacts =
        (S x.n x.contacts).add (gained h (x.applyImpulse h).1 arb.b) := l
      rw [e1]
      simp only [Arb.netImpulse, eb]
      ext <;> simp only [Vec.add] <;> ring
  -- warm start
  have warm : gained hc (arb.applyCached hc 1) arb.b = S arb.n arb.contacts := by
    by_cases hfirst : arb.first = true
    · have hz := hf hfirst
      rw [Arb.applyCached, if_pos hfirst, (gained_self hc arb.b).1]
      have : ∀ cs : List (Contact ℝ), (∀ c ∈ cs, c.jnAcc = 0 ∧ c.jtAcc = 0) → S arb.n cs = ⟨0, 0⟩ := by
        intro cs
        induction cs with
        | nil => intro _; rfl
        | cons c cs ih =>
          intro hcs
          rw [S_cons, ih (fun d hd => hcs d (List.mem_cons_of_mem _ hd)), (hcs c List.mem_cons_self).1, (hcs c List.mem_cons_self).2]
          ext <;> simp [Vec.add, Vec.rotate]
      exact (this _ hz).symm
    · rw [Arb.applyCached, if_neg hfirst]
      have : ∀ (cs : List (Contact ℝ)) (h : Bodies ℝ), Movable h arb.b →
          gained h (cs.foldl (fun h c => applyImpulses h arb.a arb.b c.r1 c.r2 ((arb.n.rotate ⟨c.jnAcc, c.jtAcc⟩).mult 1)) h) arb.b = S arb.n cs := by
        intro cs
        induction cs with
        | nil => intro h _; exact (gained_self h arb.b).1
        | cons c cs ih =>
          intro h hmv
          rw [List.foldl_cons, S_cons, tri h _ _ (gm h c.r1 c.r2 _), ih _ (keep _ _ _ _ hmv), (gained_apply h arb.a arb.b hab hmv.1 hmv.2 _ _ _).1]
          ext <;> simp [Vec.add, Vec.mult]
      exact this arb.contacts hc (hm hc List.mem_cons_self)
  have fin := iter hs arb rfl rfl (fun h hh => hm h (List.mem_cons_of_mem _ hh))
  have tot : total = S last.n last.contacts := by simp only [total, last, fin, warm]
  rw [tot]
  simp only [Arb.totalImpulse, S]

/-! ### Non-vacuity -/

/-- Two unit bodies 2 apart, the second moving away; an unlimited pin joint stops them. -/
example : ∃ (j : PinJoint ℝ) (h : Bodies ℝ), j.a ≠ j.b ∧ SameInertia h h j.a j.b ∧ Solvable h j.a j.b ∧
    ((h j.a).p.add (anchorOffset (h j.a) j.anchorA) ≠ (h j.b).p.add (anchorOffset (h j.b) j.anchorB)) ∧
    ((j.preStep h 1).2.applyImpulse h 1).2.getImpulse = 3 / 2 ∧ 3 / 2 < j.maxForce * 1 := by
  let b : Body ℝ := { Body.new (1 : ℝ) 1 with m := 1, m_inv := 1, i := 1, i_inv := 1, w := 0, v := ⟨0, 0⟩, p := ⟨0, 0⟩, cog := ⟨0, 0⟩, transform := ⟨1, 0, 0, 1, 0, 0⟩ }
  have hsq : Real.sqrt 4 = 2 := by
    rw [show (4 : ℝ) = 2 * 2 by norm_num]; exact Real.sqrt_mul_self (by norm_num)
  refine ⟨⟨⟨0, 1, 10, 1, 10⟩, ⟨0, 0⟩, ⟨0, 0⟩, 2, ⟨0, 0⟩, ⟨0, 0⟩, ⟨0, 0⟩, 0, 0, 0⟩,
    fun k => if k = 0 then b else { b with p := ⟨2, 0⟩, v := ⟨3, 0⟩ }, by simp, ?_, ?_, ?_, ?_, by norm_num⟩
  · constructor <;> simp
  · constructor <;> norm_num [b]
  · intro hc
    have := congrArg Vec.x hc
    norm_num [b, Vec.add, anchorOffset, Transform.vect, Vec.sub] at this
  · have hbc : biasCoef (1 : ℝ) 1 = 0 := by simp [biasCoef]
    norm_num [PinJoint.preStep, PinJoint.applyImpulse, PinJoint.getImpulse, b, anchorOffset, Transform.vect, Vec.sub, Vec.add, Vec.length, Vec.dot, hsq,
      kScalar, kScalarBody, Vec.cross, Vec.mult, normalRelVel, relVel, Vec.perp, hbc, clamp]

end CP
