import Verif.Props.Body
import Verif.Proofs.Motion
import Verif.Spec.Rest

/-! # Proofs: resting joints and light contacts do nothing -/

namespace CP
open GoFloat

theorem set_self (h : Bodies ℝ) (k : Nat) : h.set k (h k) = h := by
  funext i; simp only [Bodies.set]; split <;> simp [*]

theorem applyImpulses_zero (h : Bodies ℝ) (a b : Nat) (r1 r2 j : Vec ℝ) (hx : j.x = 0) (hy : j.y = 0) :
    applyImpulses h a b r1 r2 j = h := by
  simp only [applyImpulses, hx, hy, neg_zero, zero_mul, mul_zero, add_zero, sub_zero]
  rw [show h.set b _ = h from set_self h b]
  exact set_self h a

theorem applyBiasImpulses_zero (h : Bodies ℝ) (a b : Nat) (r1 r2 j : Vec ℝ) (hx : j.x = 0) (hy : j.y = 0) :
    applyBiasImpulses h a b r1 r2 j = h := by
  simp only [applyBiasImpulses, hx, hy, neg_zero, zero_mul, mul_zero, add_zero, sub_zero]
  rw [show h.set b _ = h from set_self h b]
  exact set_self h a

theorem applySpin_zero (h : Bodies ℝ) (a b : Nat) (da db : Body ℝ → ℝ) (ha : ∀ x, da x = 0) (hb : ∀ x, db x = 0) :
    applySpin h a b da db = h := by
  simp only [applySpin, ha, hb, sub_zero, add_zero, set_self]

theorem clamp_zero {m : ℝ} (hm : 0 ≤ m) : clamp (0 : ℝ) (-m) m = 0 := by
  rw [clamp_eq_real _ _ _ (by linarith), min_eq_left hm, max_eq_right (by linarith)]

theorem clampLen_zero (l : ℝ) : (⟨0, 0⟩ : Vec ℝ).clampLen l = ⟨0, 0⟩ := by
  simp only [Vec.clampLen, Vec.dot, mul_zero, add_zero]
  rw [if_neg (not_lt.2 (mul_self_nonneg l))]

/-- The two bodies of a joint move together. -/
structure Even (h : Bodies ℝ) (a b : Nat) : Prop where
  v : (h a).v = (h b).v
  wa : (h a).w = 0
  wb : (h b).w = 0

theorem Even.relVel {h : Bodies ℝ} {a b : Nat} (e : Even h a b) (r1 r2 : Vec ℝ) : relVel h a b r1 r2 = ⟨0, 0⟩ := by
  simp only [CP.relVel, e.v, e.wa, e.wb, Vec.mult, Vec.add, Vec.sub, mul_zero, zero_add, sub_self]

theorem Even.normal {h : Bodies ℝ} {a b : Nat} (e : Even h a b) (r1 r2 n : Vec ℝ) : normalRelVel h a b r1 r2 n = 0 := by
  simp [normalRelVel, e.relVel, Vec.dot]

/-- A prepared joint that does nothing. -/
def Joint.Idle (j : Joint ℝ) : Prop :=
  ∀ h dt, 0 < dt → Even h j.con.a j.con.b → j.applyImpulse h dt = (h, j)

theorem cached_idle (h : Bodies ℝ) (j : Joint ℝ) (c : ℝ) (hj : j.getImpulse = 0) : j.applyCached h c = (h, j) := by
  have hfab : ∀ x : ℝ, fabs x = 0 → x = 0 := by
    intro x hx; unfold fabs at hx; split at hx <;> linarith
  have hlen : ∀ v : Vec ℝ, v.length = 0 → v = ⟨0, 0⟩ := by
    intro v hv
    simp only [Vec.length, sqrt_real, Vec.dot] at hv
    rw [Real.sqrt_eq_zero (by nlinarith [mul_self_nonneg v.x, mul_self_nonneg v.y])] at hv
    have hx : v.x = 0 := mul_self_eq_zero.1 (by nlinarith [mul_self_nonneg v.x, mul_self_nonneg v.y])
    have hy : v.y = 0 := mul_self_eq_zero.1 (by nlinarith [mul_self_nonneg v.x, mul_self_nonneg v.y])
    cases v; simp_all
  cases j with
  | pin j =>
    have := hfab _ hj
    simp only [Joint.applyCached, PinJoint.applyCached, this, Prod.map, id]
    rw [applyImpulses_zero _ _ _ _ _ _ (by simp [Vec.mult]) (by simp [Vec.mult])]
  | slide j =>
    have := hfab _ hj
    simp only [Joint.applyCached, SlideJoint.applyCached, this, Prod.map, id]
    rw [applyImpulses_zero _ _ _ _ _ _ (by simp [Vec.mult]) (by simp [Vec.mult])]
  | pivot j =>
    have := hlen _ hj
    simp only [Joint.applyCached, PivotJoint.applyCached, this, Prod.map, id]
    rw [applyImpulses_zero _ _ _ _ _ _ (by simp [Vec.mult]) (by simp [Vec.mult])]
  | groove j =>
    have := hlen _ hj
    simp only [Joint.applyCached, GrooveJoint.applyCached, this, Prod.map, id]
    rw [applyImpulses_zero _ _ _ _ _ _ (by simp [Vec.mult]) (by simp [Vec.mult])]
  | spring j => rfl
  | rotarySpring j => rfl
  | gear j =>
    have := hfab _ hj
    simp only [Joint.applyCached, GearJoint.applyCached, this, Prod.map, id]
    rw [applySpin_zero _ _ _ _ _ (by simp) (by simp)]
  | ratchet j =>
    have := hfab _ hj
    simp only [Joint.applyCached, RatchetJoint.applyCached, this, Prod.map, id]
    rw [applySpin_zero _ _ _ _ _ (by simp) (by simp)]
  | rotaryLimit j =>
    have := hfab _ hj
    simp only [Joint.applyCached, RotaryLimitJoint.applyCached, this, Prod.map, id]
    rw [applySpin_zero _ _ _ _ _ (by simp) (by simp)]
  | motor j =>
    have := hfab _ hj
    simp only [Joint.applyCached, SimpleMotor.applyCached, this, Prod.map, id]
    rw [applySpin_zero _ _ _ _ _ (by simp) (by simp)]

theorem grip_eq {h : Bodies ℝ} {k : Nat} (w : (h k).Wf) (q : Vec ℝ) : grip h k q = (h k).p.add (anchorOffset (h k) q) := by
  rw [grip, w.localToWorld, anchorOffset, w]
  simp only [Body.place, Body.setTransform, Transform.transpose, Transform.vect, Vec.add, Vec.sub, cos_real, sin_real]
  ext <;> simp <;> ring

theorem sub_length (a b : Vec ℝ) : (b.sub a).length = a.distance b := by
  simp only [Vec.distance, Vec.length, Vec.dot, Vec.sub]; congr 1; ring

theorem ffloor_le (x : ℝ) : ffloor x ≤ x := by
  simp only [ffloor]
  split
  · rename_i hx
    have : (ofInt (trunc x) : ℝ) < x + 1 := by
      show ((if 0 ≤ x then ⌊x⌋ else ⌈x⌉ : Int) : ℝ) < x + 1
      split
      · linarith [Int.floor_le x]
      · exact Int.ceil_lt_add_one x
    linarith
  · rename_i hx; exact not_lt.1 hx

theorem fabs_zero {x : ℝ} (hx : fabs x = 0) : x = 0 := by
  unfold fabs at hx; split at hx <;> linarith

theorem length_zero {v : Vec ℝ} (hv : v.length = 0) : v = ⟨0, 0⟩ := by
  simp only [Vec.length, sqrt_real, Vec.dot] at hv
  rw [Real.sqrt_eq_zero (by nlinarith [mul_self_nonneg v.x, mul_self_nonneg v.y])] at hv
  have hx : v.x = 0 := mul_self_eq_zero.1 (by nlinarith [mul_self_nonneg v.x, mul_self_nonneg v.y])
  have hy : v.y = 0 := mul_self_eq_zero.1 (by nlinarith [mul_self_nonneg v.x, mul_self_nonneg v.y])
  cases v; simp_all

theorem fabs_of_zero : fabs (0 : ℝ) = 0 := by simp [fabs]

/-- What preparing a resting joint does. -/
structure Prepared (h : Bodies ℝ) (j : Joint ℝ) (r : Bodies ℝ × Joint ℝ) : Prop where
  bodies : r.1 = h
  rests : r.2.Rests h
  idle : r.2.Idle
  con : r.2.con = j.con

theorem pin_prepared {h : Bodies ℝ} {j : PinJoint ℝ} (wa : (h j.a).Wf) (wb : (h j.b).Wf) (hr : (Joint.pin j).Rests h) (dt : ℝ) :
    Prepared h (.pin j) ((Joint.pin j).preStep h dt) := by
  obtain ⟨s, i, mf, mb⟩ := hr
  have ja : j.jnAcc = 0 := fabs_zero i
  have hd : ((h j.b).p.add ((anchorOffset (h j.b) j.anchorB).sub ((h j.a).p.add (anchorOffset (h j.a) j.anchorA)))).length = j.dist := by
    have s' : (grip h j.a j.anchorA).distance (grip h j.b j.anchorB) = j.dist := s
    rw [← s', ← sub_length, grip_eq wa, grip_eq wb]
    simp only [Vec.length, Vec.dot, Vec.add, Vec.sub]; congr 1; ring
  refine ⟨rfl, ⟨s, i, mf, mb⟩, ?_, rfl⟩
  intro g dt' hdt' ev
  have eb : clamp (-biasCoef j.errorBias dt * (j.dist - j.dist) / dt) (-j.maxBias) j.maxBias = 0 := by
    rw [sub_self, mul_zero, zero_div]; exact clamp_zero mb
  simp only [Joint.preStep, PinJoint.preStep, Joint.applyImpulse, PinJoint.applyImpulse, Prod.map, id, hd, ja, eb]
  have ev' : Even g j.a j.b := ev
  rw [ev'.normal]
  simp only [sub_zero, zero_mul, zero_add]
  have mf' : 0 ≤ j.maxForce * dt' := mul_nonneg mf hdt'.le
  rw [clamp_zero mf']
  rw [applyImpulses_zero _ _ _ _ _ _ (by simp [Vec.mult]) (by simp [Vec.mult])]

theorem slide_prepared {h : Bodies ℝ} {j : SlideJoint ℝ} (wa : (h j.a).Wf) (wb : (h j.b).Wf) (hr : (Joint.slide j).Rests h) (dt : ℝ) :
    Prepared h (.slide j) ((Joint.slide j).preStep h dt) := by
  obtain ⟨⟨s1, s2⟩, i, mf, mb⟩ := hr
  have hd : (((h j.b).p.add (anchorOffset (h j.b) j.anchorB)).sub ((h j.a).p.add (anchorOffset (h j.a) j.anchorA))).length =
      (grip h j.a j.anchorA).distance (grip h j.b j.anchorB) := by
    rw [← sub_length, grip_eq wa, grip_eq wb]
  have e : ((Joint.slide j).preStep h dt) = (h, .slide { j with
      r1 := anchorOffset (h j.a) j.anchorA, r2 := anchorOffset (h j.b) j.anchorB, n := ⟨0, 0⟩, jnAcc := 0
      nMass := 1 / kScalar h j.a j.b (anchorOffset (h j.a) j.anchorA) (anchorOffset (h j.b) j.anchorB) ⟨0, 0⟩
      bias := clamp (-biasCoef j.errorBias dt * 0 / dt) (-j.maxBias) j.maxBias }) := by
    simp only [Joint.preStep, SlideJoint.preStep, hd, if_neg (not_lt.2 s1), if_neg (not_lt.2 s2), Prod.map, id]
  rw [e]
  refine ⟨rfl, ⟨⟨s1, s2⟩, fabs_of_zero, mf, mb⟩, ?_, rfl⟩
  intro g dt' hdt' ev
  simp [Joint.applyImpulse, SlideJoint.applyImpulse]

theorem pivot_prepared {h : Bodies ℝ} {j : PivotJoint ℝ} (wa : (h j.a).Wf) (wb : (h j.b).Wf) (hr : (Joint.pivot j).Rests h) (dt : ℝ) :
    Prepared h (.pivot j) ((Joint.pivot j).preStep h dt) := by
  obtain ⟨s, i, mf, mb⟩ := hr
  have ja : j.jAcc = ⟨0, 0⟩ := length_zero i
  have s' : grip h j.a j.anchorA = grip h j.b j.anchorB := s
  rw [grip_eq wa, grip_eq wb] at s'
  refine ⟨rfl, ⟨s, i, mf, mb⟩, ?_, rfl⟩
  intro g dt' hdt' ev
  simp only [Joint.preStep, PivotJoint.preStep, Joint.applyImpulse, PivotJoint.applyImpulse, Prod.map, id, s', ja]
  have ev' : Even g j.a j.b := ev
  rw [ev'.relVel]
  simp only [Vec.sub, Vec.add, Vec.mult, sub_self, zero_mul, mul_zero, add_zero, clampLen_zero, Mat2.transform]
  rw [applyImpulses_zero _ _ _ _ _ _ rfl rfl]

theorem spring_prepared {h : Bodies ℝ} {j : DampedSpring ℝ} (wa : (h j.a).Wf) (wb : (h j.b).Wf) (hr : (Joint.spring j).Rests h) (dt : ℝ) :
    Prepared h (.spring j) ((Joint.spring j).preStep h dt) := by
  obtain ⟨s, i, mf, mb⟩ := hr
  have hd : (((h j.b).p.add (anchorOffset (h j.b) j.anchorB)).sub ((h j.a).p.add (anchorOffset (h j.a) j.anchorA))).length =
      (grip h j.a j.anchorA).distance (grip h j.b j.anchorB) := by
    rw [← sub_length, grip_eq wa, grip_eq wb]
  have s' : j.force ((grip h j.a j.anchorA).distance (grip h j.b j.anchorB)) = 0 := s
  refine ⟨?_, ⟨s, ?_, mf, mb⟩, ?_, rfl⟩
  · simp only [Joint.preStep, DampedSpring.preStep, hd, s', Prod.map, id, zero_mul]
    rw [applyImpulses_zero _ _ _ _ _ _ (by simp [Vec.mult]) (by simp [Vec.mult])]
  · simp only [Joint.preStep, DampedSpring.preStep, hd, s', Prod.map, id, zero_mul, Joint.getImpulse, DampedSpring.getImpulse]
  · intro g dt' hdt' ev
    simp only [Joint.preStep, DampedSpring.preStep, Joint.applyImpulse, DampedSpring.applyImpulse, Prod.map, id, hd, s', zero_mul]
    have ev' : Even g j.a j.b := ev
    rw [ev'.normal]
    simp only [sub_zero, zero_mul, zero_add]
    rw [applyImpulses_zero _ _ _ _ _ _ (by simp [Vec.mult]) (by simp [Vec.mult])]

theorem rotarySpring_prepared {h : Bodies ℝ} {j : DampedRotarySpring ℝ} (hr : (Joint.rotarySpring j).Rests h) (dt : ℝ) :
    Prepared h (.rotarySpring j) ((Joint.rotarySpring j).preStep h dt) := by
  obtain ⟨s, i, mf, mb⟩ := hr
  have s' : j.torque ((h j.a).a - (h j.b).a) = 0 := s
  refine ⟨?_, ⟨s, ?_, mf, mb⟩, ?_, rfl⟩
  · simp only [Joint.preStep, DampedRotarySpring.preStep, s', Prod.map, id, zero_mul]
    exact applySpin_zero _ _ _ _ _ (by simp) (by simp)
  · simp only [Joint.preStep, DampedRotarySpring.preStep, s', Prod.map, id, zero_mul, Joint.getImpulse, DampedRotarySpring.getImpulse]
  · intro g dt' hdt' ev
    have e1 : (g j.a).w = 0 := ev.wa
    have e2 : (g j.b).w = 0 := ev.wb
    simp only [Joint.preStep, DampedRotarySpring.preStep, Joint.applyImpulse, DampedRotarySpring.applyImpulse, Prod.map, id, s', zero_mul, e1, e2,
      sub_self, add_zero, sub_zero, zero_add]
    rw [show g.set j.a { g j.a with w := 0 } = g from by rw [← e1]; exact set_self g j.a]
    rw [e2, show g.set j.b { g j.b with w := 0 } = g from by rw [← e2]; exact set_self g j.b]

theorem gear_prepared {h : Bodies ℝ} {j : GearJoint ℝ} (hr : (Joint.gear j).Rests h) (dt : ℝ) :
    Prepared h (.gear j) ((Joint.gear j).preStep h dt) := by
  obtain ⟨s, i, mf, mb⟩ := hr
  have ja : j.jAcc = 0 := fabs_zero i
  have s' : (h j.b).a * j.ratio = (h j.a).a + j.phase := s
  refine ⟨rfl, ⟨s, i, mf, mb⟩, ?_, rfl⟩
  intro g dt' hdt' ev
  have e1 : (g j.a).w = 0 := ev.wa
  have e2 : (g j.b).w = 0 := ev.wb
  have eb : clamp (-biasCoef j.errorBias dt * ((h j.b).a * j.ratio - (h j.a).a - j.phase) / dt) (-j.maxBias) j.maxBias = 0 := by
    rw [s', add_sub_cancel_left, sub_self, mul_zero, zero_div]; exact clamp_zero mb
  simp only [Joint.preStep, GearJoint.preStep, Joint.applyImpulse, GearJoint.applyImpulse, Prod.map, id, eb, ja, e1, e2, zero_mul, sub_zero,
    add_zero]
  have mf' : 0 ≤ j.maxForce * dt' := mul_nonneg mf hdt'.le
  rw [clamp_zero mf', applySpin_zero _ _ _ _ _ (by simp) (by simp)]

theorem motor_prepared {h : Bodies ℝ} {j : SimpleMotor ℝ} (hr : (Joint.motor j).Rests h) (dt : ℝ) :
    Prepared h (.motor j) ((Joint.motor j).preStep h dt) := by
  obtain ⟨s, i, mf, mb⟩ := hr
  have ja : j.jAcc = 0 := fabs_zero i
  have s' : j.rate = 0 := s
  refine ⟨rfl, ⟨s, i, mf, mb⟩, ?_, rfl⟩
  intro g dt' hdt' ev
  have e1 : (g j.a).w = 0 := ev.wa
  have e2 : (g j.b).w = 0 := ev.wb
  simp only [Joint.preStep, SimpleMotor.preStep, Joint.applyImpulse, SimpleMotor.applyImpulse, Prod.map, id, ja, e1, e2, s', zero_mul, sub_zero,
    add_zero, neg_zero]
  have mf' : 0 ≤ j.maxForce * dt' := mul_nonneg mf hdt'.le
  rw [clamp_zero mf', applySpin_zero _ _ _ _ _ (by simp) (by simp)]

theorem rotaryLimit_prepared {h : Bodies ℝ} {j : RotaryLimitJoint ℝ} (hr : (Joint.rotaryLimit j).Rests h) (dt : ℝ) :
    Prepared h (.rotaryLimit j) ((Joint.rotaryLimit j).preStep h dt) := by
  obtain ⟨⟨s1, s2⟩, i, mf, mb⟩ := hr
  have eb : clamp (-biasCoef j.errorBias dt * 0 / dt) (-j.maxBias) j.maxBias = 0 := by
    rw [mul_zero, zero_div]; exact clamp_zero mb
  have e : ((Joint.rotaryLimit j).preStep h dt) = (h, .rotaryLimit { j with
      iSum := 1 / ((h j.a).i_inv + (h j.b).i_inv), bias := 0, jAcc := 0 }) := by
    simp only [Joint.preStep, RotaryLimitJoint.preStep, if_neg (not_lt.2 s1), if_neg (not_lt.2 s2), eb, Prod.map, id, if_true]
  rw [e]
  refine ⟨rfl, ⟨⟨s1, s2⟩, fabs_of_zero, mf, mb⟩, ?_, rfl⟩
  intro g dt' hdt' ev
  simp [Joint.applyImpulse, RotaryLimitJoint.applyImpulse]

theorem ratchet_prepared {h : Bodies ℝ} {j : RatchetJoint ℝ} (hr : (Joint.ratchet j).Rests h) (dt : ℝ) :
    Prepared h (.ratchet j) ((Joint.ratchet j).preStep h dt) := by
  obtain ⟨s, i, mf, mb⟩ := hr
  have s' : if 0 < j.ratchet then j.angle ≤ (h j.b).a - (h j.a).a else (j.ratchet < 0 ∧ (h j.b).a - (h j.a).a ≤ j.angle) := s
  have eb : clamp (-biasCoef j.errorBias dt * 0 / dt) (-j.maxBias) j.maxBias = 0 := by
    rw [mul_zero, zero_div]; exact clamp_zero mb
  have hn : ¬ 0 < (j.angle - ((h j.b).a - (h j.a).a)) * j.ratchet := by
    rw [not_lt]
    split at s'
    · nlinarith
    · nlinarith
  have e : ((Joint.ratchet j).preStep h dt) = (h, .ratchet { j with
      angle := ffloor (((h j.b).a - (h j.a).a - j.phase) / j.ratchet) * j.ratchet + j.phase
      iSum := 1 / ((h j.a).i_inv + (h j.b).i_inv), bias := 0, jAcc := 0 }) := by
    simp only [Joint.preStep, RatchetJoint.preStep, if_neg hn, eb, Prod.map, id, if_true]
  rw [e]
  refine ⟨rfl, ⟨?_, fabs_of_zero, mf, mb⟩, ?_, rfl⟩
  · have hf := ffloor_le (((h j.b).a - (h j.a).a - j.phase) / j.ratchet)
    show if 0 < j.ratchet then _ else _
    split at s'
    · rename_i hp
      rw [if_pos hp]
      rw [le_div_iff₀ hp] at hf
      show ffloor _ * _ + _ ≤ _
      linarith
    · rename_i hp
      rw [if_neg hp]
      rw [le_div_iff_of_neg s'.1] at hf
      refine ⟨s'.1, ?_⟩
      show _ ≤ ffloor _ * _ + _
      linarith
  · intro g dt' hdt' ev
    simp [Joint.applyImpulse, RatchetJoint.applyImpulse]

theorem wf_dot {b : Body ℝ} (w : b.Wf) (u v : Vec ℝ) : (b.transform.vect u).dot (b.transform.vect v) = u.dot v := by
  rw [w]
  simp only [Body.setTransform, Transform.transpose, Transform.vect, Vec.dot, cos_real, sin_real]
  linear_combination (u.x * v.x + u.y * v.y) * Real.sin_sq_add_cos_sq b.a

theorem wf_cross {b : Body ℝ} (w : b.Wf) (u v : Vec ℝ) : (b.transform.vect u).cross (b.transform.vect v) = u.cross v := by
  rw [w]
  simp only [Body.setTransform, Transform.transpose, Transform.vect, Vec.cross, cos_real, sin_real]
  linear_combination (u.x * v.y - u.y * v.x) * Real.sin_sq_add_cos_sq b.a

theorem point_sub (b : Body ℝ) (u v : Vec ℝ) : (b.transform.point u).sub (b.transform.point v) = b.transform.vect (u.sub v) := by
  simp only [Transform.point, Transform.vect, Vec.sub]
  ext <;> simp <;> ring

theorem groove_foot {h : Bodies ℝ} {j : GrooveJoint ℝ} (wa : (h j.a).Wf) (wb : (h j.b).Wf) (s : (Joint.groove j).Satisfied h) :
    let q := (h j.b).p.add (anchorOffset (h j.b) j.anchorB)
    let n := (h j.a).transform.vect j.grooveN
    let ta := (h j.a).transform.point j.grooveA
    let tb := (h j.a).transform.point j.grooveB
    (q.cross n ≤ ta.cross n → q = ta) ∧ (¬ q.cross n ≤ ta.cross n → tb.cross n ≤ q.cross n → q = tb) ∧
    (¬ q.cross n ≤ ta.cross n → ¬ tb.cross n ≤ q.cross n → q = (n.perp.mult (-q.cross n)).add (n.mult (ta.dot n))) := by
  obtain ⟨h1, h2, h3⟩ := s
  have eq : grip h j.b j.anchorB = (h j.b).p.add (anchorOffset (h j.b) j.anchorB) := grip_eq wb _
  rw [eq] at h3
  intro q n ta tb
  have d1 : (tb.sub ta).dot n = 0 := by rw [point_sub, wf_dot wa, h1]
  have d2 : ta = tb ∨ 0 < (tb.sub ta).cross n := by
    rcases h2 with h2 | h2
    · left; show (h j.a).transform.point _ = (h j.a).transform.point _; rw [h2]
    · right; rw [point_sub, wf_cross wa]; exact h2
  have d3 : q = ta ∨ q = tb ∨ (n.dot n = 1 ∧ ∃ t, 0 ≤ t ∧ t ≤ 1 ∧ q = ta.lerp tb t) := by
    rcases h3 with h3 | h3 | ⟨h3, h4⟩
    · exact .inl h3
    · exact .inr (.inl h3)
    · exact .inr (.inr ⟨by rw [wf_dot wa]; exact h3, h4⟩)
  clear_value q n ta tb
  have cr : (tb.sub ta).cross n = tb.cross n - ta.cross n := by simp only [Vec.cross, Vec.sub]; ring
  rw [cr] at d2
  rcases d3 with rfl | rfl | ⟨hn, t, t0, t1, rfl⟩
  · exact ⟨fun _ => rfl, fun a => absurd le_rfl a, fun a => absurd le_rfl a⟩
  · refine ⟨fun a => ?_, fun _ _ => rfl, fun _ a => absurd le_rfl a⟩
    rcases d2 with d2 | d2
    · exact d2.symm
    · linarith
  · have cl : (ta.lerp tb t).cross n = ta.cross n + t * (tb.cross n - ta.cross n) := by
      simp only [Vec.cross, Vec.lerp, Vec.mult, Vec.add]; ring
    refine ⟨fun a => ?_, fun a b => ?_, fun _ _ => ?_⟩
    · rw [cl] at a
      rcases d2 with d2 | d2
      · subst d2; ext <;> simp [Vec.lerp, Vec.mult, Vec.add] <;> ring
      · have : t = 0 := le_antisymm (by nlinarith) t0
        subst this; ext <;> simp [Vec.lerp, Vec.mult, Vec.add]
    · rw [cl] at a b
      rcases d2 with d2 | d2
      · subst d2; ext <;> simp [Vec.lerp, Vec.mult, Vec.add] <;> ring
      · have : t = 1 := le_antisymm t1 (by nlinarith)
        subst this; ext <;> simp [Vec.lerp, Vec.mult, Vec.add]
    · simp only [Vec.dot, Vec.sub] at d1 hn
      ext
      · simp only [Vec.lerp, Vec.mult, Vec.add, Vec.perp, Vec.cross, Vec.dot]
        linear_combination (-(ta.x * (1 - t) + tb.x * t)) * hn + n.x * t * d1
      · simp only [Vec.lerp, Vec.mult, Vec.add, Vec.perp, Vec.cross, Vec.dot]
        linear_combination (-(ta.y * (1 - t) + tb.y * t)) * hn + n.y * t * d1

theorem groove_prepared {h : Bodies ℝ} {j : GrooveJoint ℝ} (wa : (h j.a).Wf) (wb : (h j.b).Wf) (hr : (Joint.groove j).Rests h) (dt : ℝ) :
    Prepared h (.groove j) ((Joint.groove j).preStep h dt) := by
  obtain ⟨s, i, mf, mb⟩ := hr
  have ja : j.jAcc = ⟨0, 0⟩ := length_zero i
  obtain ⟨f1, f2, f3⟩ := groove_foot wa wb s
  refine ⟨rfl, ⟨s, i, mf, mb⟩, ?_, rfl⟩
  have hz : ∀ (u v w : Vec ℝ) (c : ℝ), u = v → ((u.sub (w.add (v.sub w))).mult c) = ⟨0, 0⟩ := by
    rintro u v w c rfl
    simp only [Vec.sub, Vec.add, Vec.mult]
    ext <;> simp
  have hb : ∃ cl r1, ((Joint.groove j).preStep h dt).2 = .groove { j with
      grooveTn := (h j.a).transform.vect j.grooveN, clamp := cl, r1 := r1, r2 := anchorOffset (h j.b) j.anchorB
      k := kTensor h j.a j.b r1 (anchorOffset (h j.b) j.anchorB), bias := ⟨0, 0⟩ } := by
    simp only [Joint.preStep, GrooveJoint.preStep, Prod.map, id]
    by_cases c1 : ((h j.b).p.add (anchorOffset (h j.b) j.anchorB)).cross ((h j.a).transform.vect j.grooveN) ≤
        ((h j.a).transform.point j.grooveA).cross ((h j.a).transform.vect j.grooveN)
    · simp only [if_pos c1, hz _ _ _ _ (f1 c1), clampLen_zero]
      exact ⟨_, _, rfl⟩
    · by_cases c2 : ((h j.a).transform.point j.grooveB).cross ((h j.a).transform.vect j.grooveN) ≤
          ((h j.b).p.add (anchorOffset (h j.b) j.anchorB)).cross ((h j.a).transform.vect j.grooveN)
      · simp only [if_neg c1, if_pos c2, hz _ _ _ _ (f2 c1 c2), clampLen_zero]
        exact ⟨_, _, rfl⟩
      · simp only [if_neg c1, if_neg c2, hz _ _ _ _ (f3 c1 c2), clampLen_zero]
        exact ⟨_, _, rfl⟩
  obtain ⟨cl, r1, e⟩ := hb
  rw [e]
  intro g dt' hdt' ev
  have ev' : Even g j.a j.b := ev
  simp only [Joint.applyImpulse, GrooveJoint.applyImpulse, GrooveJoint.grooveConstrain, Prod.map, id, ev'.relVel, ja]
  simp only [Vec.sub, Vec.add, Vec.mult, sub_self, zero_mul, mul_zero, add_zero, Mat2.transform, Vec.cross, lt_irrefl, if_false, Vec.project,
    Vec.dot, zero_div, clampLen_zero]
  rw [applyImpulses_zero _ _ _ _ _ _ rfl rfl]

theorem prepared {h : Bodies ℝ} {j : Joint ℝ} (wa : (h j.con.a).Wf) (wb : (h j.con.b).Wf) (hr : j.Rests h) (dt : ℝ) :
    Prepared h j (j.preStep h dt) := by
  cases j with
  | pin j => exact pin_prepared wa wb hr dt
  | slide j => exact slide_prepared wa wb hr dt
  | pivot j => exact pivot_prepared wa wb hr dt
  | groove j => exact groove_prepared wa wb hr dt
  | spring j => exact spring_prepared wa wb hr dt
  | rotarySpring j => exact rotarySpring_prepared hr dt
  | gear j => exact gear_prepared hr dt
  | ratchet j => exact ratchet_prepared hr dt
  | rotaryLimit j => exact rotaryLimit_prepared hr dt
  | motor j => exact motor_prepared hr dt

/-! ### Moving together -/

/-- The bodies of `S` have been shifted by `d`. -/
structure Shifted (S : Set Nat) (d : Vec ℝ) (h h' : Bodies ℝ) : Prop where
  grip : ∀ k ∈ S, ∀ q, CP.grip h' k q = (CP.grip h k q).add d
  a : ∀ k ∈ S, (h' k).a = (h k).a

theorem shift_distance (u v d : Vec ℝ) : (u.add d).distance (v.add d) = u.distance v := by
  simp only [Vec.distance, Vec.length, Vec.dot, Vec.sub, Vec.add]; congr 1; ring

theorem shift_inj (u v d : Vec ℝ) : u.add d = v.add d ↔ u = v := by
  constructor
  · intro h
    simp only [Vec.add, Vec.mk.injEq] at h
    ext
    · linarith [h.1]
    · linarith [h.2]
  · rintro rfl; rfl

theorem shift_lerp (u v d : Vec ℝ) (t : ℝ) : (u.add d).lerp (v.add d) t = (u.lerp v t).add d := by
  simp only [Vec.lerp, Vec.add, Vec.mult]; ext <;> simp <;> ring

theorem Shifted.satisfied {S : Set Nat} {d : Vec ℝ} {h h' : Bodies ℝ} (sh : Shifted S d h h') (j : Joint ℝ) (ha : j.con.a ∈ S) (hb : j.con.b ∈ S) :
    j.Satisfied h' ↔ j.Satisfied h := by
  have g1 := sh.grip _ ha
  have g2 := sh.grip _ hb
  have a1 := sh.a _ ha
  have a2 := sh.a _ hb
  cases j <;> simp only [Joint.con] at g1 g2 a1 a2 <;>
    simp only [Joint.Satisfied, g1, g2, a1, a2, shift_distance, shift_inj, shift_lerp]

theorem Shifted.rests {S : Set Nat} {d : Vec ℝ} {h h' : Bodies ℝ} (sh : Shifted S d h h') {j : Joint ℝ} (ha : j.con.a ∈ S) (hb : j.con.b ∈ S)
    (r : j.Rests h) : j.Rests h' := ⟨(sh.satisfied j ha hb).2 r.satisfied, r.impulse, r.maxForce, r.maxBias⟩

/-! ### Light contacts -/

theorem Even.of_together {S : Set Nat} {V : Vec ℝ} {H : Bodies ℝ} (T : Together S V H) {a b : Nat} (ha : a ∈ S) (hb : b ∈ S) : Even H a b :=
  ⟨by rw [T.v a ha, T.v b hb], T.w a ha, T.w b hb⟩

theorem Even.congr {h h' : Bodies ℝ} {a b : Nat} (e : Even h a b) (ea : h' a = h a) (eb : h' b = h b) : Even h' a b :=
  ⟨by rw [ea, eb, e.v], by rw [ea, e.wa], by rw [eb, e.wb]⟩

/-- A prepared contact that does nothing. -/
structure Contact.Calm (c : Contact ℝ) : Prop where
  jn : c.jnAcc = 0
  jt : c.jtAcc = 0
  bias : c.bias = 0
  jBias : c.jBias = 0
  bounce : c.bounce = 0

theorem clamp_nothing (x : ℝ) : clamp x (-0) 0 = 0 := by
  simp only [clamp, neg_zero]
  split
  · rename_i hx; exact min_eq_right hx.le
  · exact min_self 0

theorem contact_calm {h : Bodies ℝ} {arb : Arb ℝ} {c : Contact ℝ} (e : Even h arb.a arb.b)
    (va : (h arb.a).v_bias = ⟨0, 0⟩) (vb : (h arb.b).v_bias = ⟨0, 0⟩) (wa : (h arb.a).w_bias = 0) (wb : (h arb.b).w_bias = 0)
    (hs : arb.surface_vr.dot arb.n = 0) (hc : c.Calm) : arb.applyContact h c = (h, c) := by
  obtain ⟨h1, h2, h3, h4, h5⟩ := hc
  have hs' : ((⟨0, 0⟩ : Vec ℝ).add arb.surface_vr).dot arb.n = 0 := by
    simp only [Vec.add, Vec.dot] at hs ⊢; linarith
  simp only [Arb.applyContact, e.relVel, hs', h1, h2, h3, h4, h5, va, vb, wa, wb]
  have z : (((⟨0, 0⟩ : Vec ℝ).add (c.r2.perp.mult 0)).sub ((⟨0, 0⟩ : Vec ℝ).add (c.r1.perp.mult 0))).dot arb.n = 0 := by
    simp [Vec.add, Vec.sub, Vec.mult, Vec.dot]
  simp only [z, sub_zero, add_zero, neg_zero, zero_mul, max_self, mul_zero, zero_add]
  have z2 := clamp_nothing (-(((⟨0, 0⟩ : Vec ℝ).add arb.surface_vr).dot arb.n.perp) * c.tMass)
  rw [neg_zero] at z2
  rw [z2]
  rw [applyBiasImpulses_zero _ _ _ _ _ _ (by simp [Vec.mult]) (by simp [Vec.mult]),
    applyImpulses_zero _ _ _ _ _ _ (by simp [Vec.rotate]) (by simp [Vec.rotate])]
  cases c; simp_all

theorem loop_calm {h : Bodies ℝ} {arb : Arb ℝ} (e : Even h arb.a arb.b)
    (va : (h arb.a).v_bias = ⟨0, 0⟩) (vb : (h arb.b).v_bias = ⟨0, 0⟩) (wa : (h arb.a).w_bias = 0) (wb : (h arb.b).w_bias = 0)
    (hs : arb.surface_vr.dot arb.n = 0) : ∀ l : List (Contact ℝ), (∀ c ∈ l, c.Calm) → arb.applyLoop h l = (h, l) := by
  intro l
  induction l with
  | nil => intro _; rfl
  | cons c l ih =>
    intro hc
    simp only [Arb.applyLoop, contact_calm e va vb wa wb hs (hc c List.mem_cons_self), ih fun c' h' => hc c' (List.mem_cons_of_mem _ h')]

theorem cached_calm (h : Bodies ℝ) (arb : Arb ℝ) (x : ℝ) (hc : ∀ c ∈ arb.contacts, c.jnAcc = 0 ∧ c.jtAcc = 0) :
    arb.applyCached h x = h := by
  simp only [Arb.applyCached]
  split
  · rfl
  · have : ∀ l : List (Contact ℝ), (∀ c ∈ l, c.jnAcc = 0 ∧ c.jtAcc = 0) → l.foldl (fun h c =>
        applyImpulses h arb.a arb.b c.r1 c.r2 ((arb.n.rotate ⟨c.jnAcc, c.jtAcc⟩).mult x)) h = h := by
      intro l
      induction l with
      | nil => intro _; rfl
      | cons c l ih =>
        intro hc
        obtain ⟨h1, h2⟩ := hc c List.mem_cons_self
        rw [List.foldl_cons, applyImpulses_zero _ _ _ _ _ _ (by simp [Vec.rotate, Vec.mult, h1, h2]) (by simp [Vec.rotate, Vec.mult, h1, h2])]
        exact ih fun c' h' => hc c' (List.mem_cons_of_mem _ h')
    exact this _ hc

/-! ### The solver phase -/

/-- Nothing has happened to the bodies `S`, and nothing will: bodies as in `H`, joints resting (those in `D` prepared), contacts
light (those in `E` prepared). -/
structure Lull (S J A : Set Nat) (H : Bodies ℝ) (slop : ℝ) (D E : Set Nat) (s : Solver ℝ) : Prop where
  bodies : ∀ k ∈ S, s.bodies k = H k
  iso : ∀ k ∈ J, ((s.joints k).con.a ∈ S ↔ (s.joints k).con.b ∈ S)
  rests : ∀ k ∈ J, (s.joints k).con.a ∈ S → (s.joints k).Rests H
  idle : ∀ k ∈ J, k ∈ D → (s.joints k).con.a ∈ S → (s.joints k).Idle
  isoA : ∀ k ∈ A, ((s.arbs k).a ∈ S ↔ (s.arbs k).b ∈ S)
  light : ∀ k ∈ A, (s.arbs k).a ∈ S → (s.arbs k).Light H slop
  calm : ∀ k ∈ A, k ∈ E → (s.arbs k).a ∈ S → ∀ c ∈ (s.arbs k).contacts, c.Calm

variable {S J A D E : Set Nat} {H : Bodies ℝ} {slop : ℝ} {s : Solver ℝ} {V : Vec ℝ}

theorem Lull.setJoint (κ : Lull S J A H slop D E s) {k : Nat} {h' : Bodies ℝ} {j' : Joint ℝ} (hb : ∀ i ∈ S, h' i = H i)
    (hc : j'.con = (s.joints k).con) (hr : k ∈ J → j'.con.a ∈ S → j'.Rests H) (D' : Set Nat) (hD : ∀ i ∈ D', i ≠ k → i ∈ D)
    (hi : k ∈ J → k ∈ D' → j'.con.a ∈ S → j'.Idle) : Lull S J A H slop D' E (s.setJoint h' k j') := by
  refine ⟨hb, ?_, ?_, ?_, κ.isoA, κ.light, κ.calm⟩
  · intro i hI
    simp only [Solver.setJoint]
    split
    · rename_i e; subst e; rw [hc]; exact κ.iso i hI
    · exact κ.iso i hI
  · intro i hI
    simp only [Solver.setJoint]
    split
    · rename_i e; subst e; exact hr hI
    · exact κ.rests i hI
  · intro i hi' hD'
    simp only [Solver.setJoint]
    split
    · rename_i e; subst e; exact hi hi' hD'
    · rename_i e; exact κ.idle i hi' (hD i hD' e)

theorem Lull.setArb (κ : Lull S J A H slop D E s) {k : Nat} {h' : Bodies ℝ} {x : Arb ℝ} (hb : ∀ i ∈ S, h' i = H i)
    (ha : x.a = (s.arbs k).a) (hb' : x.b = (s.arbs k).b) (hl : k ∈ A → x.a ∈ S → x.Light H slop) (E' : Set Nat)
    (hE : ∀ i ∈ E', i ≠ k → i ∈ E) (hi : k ∈ A → k ∈ E' → x.a ∈ S → ∀ c ∈ x.contacts, c.Calm) :
    Lull S J A H slop D E' (s.setArb h' k x) := by
  refine ⟨hb, κ.iso, κ.rests, κ.idle, ?_, ?_, ?_⟩
  · intro i hI
    simp only [Solver.setArb]
    split
    · rename_i e; subst e; rw [ha, hb']; exact κ.isoA i hI
    · exact κ.isoA i hI
  · intro i hI
    simp only [Solver.setArb]
    split
    · rename_i e; subst e; exact hl hI
    · exact κ.light i hI
  · intro i hi' hE'
    simp only [Solver.setArb]
    split
    · rename_i e; subst e; exact hi hi' hE'
    · rename_i e; exact κ.calm i hi' (hE i hE' e)

theorem Lull.apart (κ : Lull S J A H slop D E s) (op : SolverOp ℝ) (hi : op.integrated? = none)
    (hj : ∀ k, op.joint? = some k → k ∈ J ∧ (s.joints k).con.a ∉ S) (ha : ∀ k, op.arb? = some k → k ∈ A ∧ (s.arbs k).a ∉ S) :
    ∀ i ∈ S, (s.step op).bodies i = H i := by
  intro i hiS
  rw [← κ.bodies i hiS]
  refine run_apart i [op] s (by simpa using hi) ?_ ?_
  · intro o ho k hk
    rw [List.mem_singleton] at ho; subst ho
    obtain ⟨h1, h2⟩ := hj k hk
    exact ⟨fun e => h2 (e ▸ hiS), fun e => h2 ((κ.iso k h1).2 (e ▸ hiS))⟩
  · intro o ho k hk
    rw [List.mem_singleton] at ho; subst ho
    obtain ⟨h1, h2⟩ := ha k hk
    exact ⟨fun e => h2 (e ▸ hiS), fun e => h2 ((κ.isoA k h1).2 (e ▸ hiS))⟩

theorem agree_shifted {h : Bodies ℝ} (e : ∀ k ∈ S, h k = H k) : Shifted S ⟨0, 0⟩ H h :=
  ⟨fun k hk q => by simp only [grip, e k hk]; simp [Vec.add], fun k hk => by rw [e k hk]⟩

theorem agree_shifted' {h : Bodies ℝ} (e : ∀ k ∈ S, h k = H k) : Shifted S ⟨0, 0⟩ h H :=
  ⟨fun k hk q => by simp only [grip, e k hk]; simp [Vec.add], fun k hk => by rw [e k hk]⟩

theorem Lull.jointPre (κ : Lull S J A H slop D E s) (T : Together S V H) {k : Nat} (hk : k ∈ J) (dt : ℝ) :
    Lull S J A H slop (insert k D) E (s.step (.jointPreStep k dt)) := by
  have hc := (step_con s (.jointPreStep k dt)).1 k
  simp only [Solver.step, Solver.setJoint, if_true] at hc
  by_cases hS : (s.joints k).con.a ∈ S
  · have hS' := (κ.iso k hk).1 hS
    have r := (agree_shifted κ.bodies).rests hS hS' (κ.rests k hk hS)
    have p := prepared (h := s.bodies) (j := s.joints k) (by rw [κ.bodies _ hS]; exact T.placed _ hS) (by rw [κ.bodies _ hS']; exact T.placed _ hS')
      r dt
    refine κ.setJoint (fun i hi => by rw [p.bodies]; exact κ.bodies i hi) hc (fun _ h => ?_) _ ?_ (fun _ _ _ => p.idle)
    · exact (agree_shifted' κ.bodies).rests (by rw [hc]; exact hS) (by rw [hc]; exact hS') p.rests
    · intro i hi hne
      exact (Set.mem_insert_iff.1 hi).resolve_left hne
  · have := κ.apart (.jointPreStep k dt) rfl (fun i hi => by cases hi; exact ⟨hk, hS⟩) (fun i hi => by cases hi)
    refine κ.setJoint this hc (fun _ h => absurd (hc ▸ h) hS) _ ?_ (fun _ _ h => absurd (hc ▸ h) hS)
    intro i hi hne
    exact (Set.mem_insert_iff.1 hi).resolve_left hne

theorem Lull.jointCached (κ : Lull S J A H slop D E s) {k : Nat} (hk : k ∈ J) (c : ℝ) :
    Lull S J A H slop D E (s.step (.jointCached k c)) := by
  have hc := (step_con s (.jointCached k c)).1 k
  simp only [Solver.step, Solver.setJoint, if_true] at hc
  by_cases hS : (s.joints k).con.a ∈ S
  · have e := cached_idle s.bodies (s.joints k) c (κ.rests k hk hS).impulse
    simp only [Solver.step, e]
    exact κ.setJoint κ.bodies rfl (fun _ h => κ.rests k hk h) _ (fun i hi _ => hi) (fun _ hD h => κ.idle k hk hD h)
  · have := κ.apart (.jointCached k c) rfl (fun i hi => by cases hi; exact ⟨hk, hS⟩) (fun i hi => by cases hi)
    exact κ.setJoint this hc (fun _ h => absurd (hc ▸ h) hS) _ (fun i hi _ => hi) (fun _ _ h => absurd (hc ▸ h) hS)

theorem Lull.jointApply (κ : Lull S J A H slop D E s) (T : Together S V H) {k : Nat} (hk : k ∈ J) (hD : k ∈ D) {dt : ℝ} (hdt : 0 < dt) :
    Lull S J A H slop D E (s.step (.jointApply k dt)) := by
  have hc := (step_con s (.jointApply k dt)).1 k
  simp only [Solver.step, Solver.setJoint, if_true] at hc
  by_cases hS : (s.joints k).con.a ∈ S
  · have hS' := (κ.iso k hk).1 hS
    have e := κ.idle k hk hD hS s.bodies dt hdt ((Even.of_together T hS hS').congr (κ.bodies _ hS) (κ.bodies _ hS'))
    simp only [Solver.step, e]
    exact κ.setJoint κ.bodies rfl (fun _ h => κ.rests k hk h) _ (fun i hi _ => hi) (fun _ hD h => κ.idle k hk hD h)
  · have := κ.apart (.jointApply k dt) rfl (fun i hi => by cases hi; exact ⟨hk, hS⟩) (fun i hi => by cases hi)
    exact κ.setJoint this hc (fun _ h => absurd (hc ▸ h) hS) _ (fun i hi _ => hi) (fun _ _ h => absurd (hc ▸ h) hS)

theorem Lull.arbPre (κ : Lull S J A H slop D E s) (T : Together S V H) {k : Nat} (hk : k ∈ A) (dt bias : ℝ) :
    Lull S J A H slop D (insert k E) (s.step (.arbPreStep k dt slop bias)) := by
  refine κ.setArb (k := k) (x := (s.arbs k).preStep s.bodies dt slop bias) κ.bodies rfl rfl (fun _ h => ?_) _ ?_ (fun _ _ h => ?_)
  · have hS : (s.arbs k).a ∈ S := h
    have hS' := (κ.isoA k hk).1 hS
    obtain ⟨l1, l2⟩ := κ.light k hk hS
    refine ⟨l1, fun c hc => ?_⟩
    obtain ⟨c', hc', rfl⟩ := List.mem_map.1 hc
    exact l2 c' hc'
  · intro i hi hne
    exact (Set.mem_insert_iff.1 hi).resolve_left hne
  · have hS : (s.arbs k).a ∈ S := h
    have hS' := (κ.isoA k hk).1 hS
    obtain ⟨l1, l2⟩ := κ.light k hk hS
    intro c hc
    obtain ⟨c', hc', rfl⟩ := List.mem_map.1 hc
    obtain ⟨q1, q2, q3⟩ := l2 c' hc'
    have ev := (Even.of_together T hS hS').congr (κ.bodies _ hS) (κ.bodies _ hS')
    refine ⟨q1, q2, ?_, rfl, ?_⟩
    · show -bias * min 0 (((c'.r2.sub c'.r1).add ((s.bodies (s.arbs k).b).p.sub (s.bodies (s.arbs k).a).p)).dot (s.arbs k).n + slop) / dt = 0
      rw [κ.bodies _ hS, κ.bodies _ hS']
      have e : ((c'.r2.sub c'.r1).add ((H (s.arbs k).b).p.sub (H (s.arbs k).a).p)).dot (s.arbs k).n =
          (((H (s.arbs k).b).p.add c'.r2).sub ((H (s.arbs k).a).p.add c'.r1)).dot (s.arbs k).n := by
        simp only [Vec.dot, Vec.add, Vec.sub]; ring
      rw [e, min_eq_left (by linarith), mul_zero, zero_div]
    · show normalRelVel s.bodies (s.arbs k).a (s.arbs k).b c'.r1 c'.r2 (s.arbs k).n * (s.arbs k).e = 0
      rw [ev.normal, zero_mul]

theorem Lull.arbCached (κ : Lull S J A H slop D E s) {k : Nat} (hk : k ∈ A) (c : ℝ) :
    Lull S J A H slop D E (s.step (.arbCached k c)) := by
  have : ∀ i ∈ S, (s.step (.arbCached k c)).bodies i = H i := by
    by_cases hS : (s.arbs k).a ∈ S
    · have e := cached_calm s.bodies (s.arbs k) c fun c hc => ⟨((κ.light k hk hS).2 c hc).1, ((κ.light k hk hS).2 c hc).2.1⟩
      intro i hi
      show (s.arbs k).applyCached s.bodies c i = _
      rw [e, κ.bodies i hi]
    · exact κ.apart (.arbCached k c) rfl (fun i hi => by cases hi) (fun i hi => by cases hi; exact ⟨hk, hS⟩)
  exact ⟨this, κ.iso, κ.rests, κ.idle, κ.isoA, κ.light, κ.calm⟩

theorem Lull.arbApply (κ : Lull S J A H slop D E s) (T : Together S V H) {k : Nat} (hk : k ∈ A) (hE : k ∈ E) :
    Lull S J A H slop D E (s.step (.arbApply k)) := by
  obtain ⟨ha, hb⟩ := (step_con s (.arbApply k)).2 k
  simp only [Solver.step, Solver.setArb, if_true] at ha hb
  by_cases hS : (s.arbs k).a ∈ S
  · have hS' := (κ.isoA k hk).1 hS
    have ev := (Even.of_together T hS hS').congr (κ.bodies _ hS) (κ.bodies _ hS')
    have e := loop_calm ev (by rw [κ.bodies _ hS, T.vBias _ hS]) (by rw [κ.bodies _ hS', T.vBias _ hS'])
      (by rw [κ.bodies _ hS, T.wBias _ hS]) (by rw [κ.bodies _ hS', T.wBias _ hS']) (κ.light k hk hS).1 _ (κ.calm k hk hE hS)
    have e' : (s.arbs k).applyImpulse s.bodies = (s.bodies, s.arbs k) := by
      simp only [Arb.applyImpulse, e]
    simp only [Solver.step, e']
    exact κ.setArb κ.bodies rfl rfl (fun _ h => κ.light k hk h) _ (fun i hi _ => hi) (fun _ hD h => κ.calm k hk hD h)
  · have := κ.apart (.arbApply k) rfl (fun i hi => by cases hi) (fun i hi => by cases hi; exact ⟨hk, hS⟩)
    exact κ.setArb this ha hb (fun _ h => absurd (ha ▸ h) hS) _ (fun i hi _ => hi) (fun _ _ h => absurd (ha ▸ h) hS)

theorem Lull.arbsPre (T : Together S V H) (dt bias : ℝ) (l : List Nat) : ∀ {E : Set Nat} {s : Solver ℝ}, (∀ k ∈ l, k ∈ A) →
    Lull S J A H slop D E s → Lull S J A H slop D (E ∪ {k | k ∈ l}) (s.run (l.map fun k => SolverOp.arbPreStep k dt slop bias)) := by
  induction l with
  | nil => intro E s _ κ; simpa [Solver.run] using κ
  | cons x l ih =>
    intro E s hl κ
    have := ih (fun k hk => hl k (List.mem_cons_of_mem _ hk)) (κ.arbPre T (hl x List.mem_cons_self) dt bias)
    have e : insert x E ∪ {k | k ∈ l} = E ∪ {k | k ∈ x :: l} := by
      ext i; simp only [Set.mem_union, Set.mem_insert_iff, Set.mem_setOf_eq, List.mem_cons]; tauto
    rw [e] at this
    exact this

theorem Lull.jointsPre (T : Together S V H) (dt : ℝ) (l : List Nat) : ∀ {D : Set Nat} {s : Solver ℝ}, (∀ k ∈ l, k ∈ J) →
    Lull S J A H slop D E s → Lull S J A H slop (D ∪ {k | k ∈ l}) E (s.run (l.map fun k => SolverOp.jointPreStep k dt)) := by
  induction l with
  | nil => intro E s _ κ; simpa [Solver.run] using κ
  | cons x l ih =>
    intro D s hl κ
    have := ih (fun k hk => hl k (List.mem_cons_of_mem _ hk)) (κ.jointPre T (hl x List.mem_cons_self) dt)
    have e : insert x D ∪ {k | k ∈ l} = D ∪ {k | k ∈ x :: l} := by
      ext i; simp only [Set.mem_union, Set.mem_insert_iff, Set.mem_setOf_eq, List.mem_cons]; tauto
    rw [e] at this
    exact this

theorem Lull.post (T : Together S V H) {dt : ℝ} (hdt : 0 < dt) (ops : List (SolverOp ℝ)) : ∀ {s : Solver ℝ},
    (∀ op ∈ ops, (∃ k ∈ A, ∃ c, op = .arbCached k c) ∨ (∃ k ∈ J, ∃ c, op = .jointCached k c) ∨ (∃ k ∈ A, k ∈ E ∧ op = .arbApply k) ∨
      ∃ k ∈ J, k ∈ D ∧ op = .jointApply k dt) →
    Lull S J A H slop D E s → Lull S J A H slop D E (s.run ops) := by
  induction ops with
  | nil => intro s _ κ; exact κ
  | cons op ops ih =>
    intro s ho κ
    refine ih (s := s.step op) (fun o h => ho o (List.mem_cons_of_mem _ h)) ?_
    rcases ho op List.mem_cons_self with ⟨k, hk, c, rfl⟩ | ⟨k, hk, c, rfl⟩ | ⟨k, hk, hE, rfl⟩ | ⟨k, hk, hD, rfl⟩
    · exact κ.arbCached hk c
    · exact κ.jointCached hk c
    · exact κ.arbApply T hk hE
    · exact κ.jointApply T hk hD hdt

theorem postOps_forms (t : Tick ℝ) (prev : ℝ) : ∀ op ∈ postOps t prev,
    (∃ k ∈ {k | k ∈ t.arbs}, ∃ c, op = .arbCached k c) ∨ (∃ k ∈ t.joints, ∃ c, op = .jointCached k c) ∨
      (∃ k ∈ {k | k ∈ t.arbs}, op = .arbApply k) ∨ ∃ k ∈ t.joints, op = .jointApply k t.dt := by
  intro op hop
  rcases List.mem_append.mp hop with h | h
  · obtain ⟨k, hk, rfl⟩ := List.mem_map.mp h
    exact .inl ⟨k, hk, _, rfl⟩
  · rcases List.mem_append.mp h with h | h
    · obtain ⟨k, hk, rfl⟩ := List.mem_map.mp h
      exact .inr (.inl ⟨k, hk, _, rfl⟩)
    · obtain ⟨l, hl, hop⟩ := List.mem_flatten.mp h
      obtain ⟨-, rfl⟩ := List.mem_replicate.mp hl
      rcases List.mem_append.mp hop with h | h <;> obtain ⟨k, hk, rfl⟩ := List.mem_map.mp h
      · exact .inr (.inr (.inl ⟨k, hk, rfl⟩))
      · exact .inr (.inr (.inr ⟨k, hk, rfl⟩))

theorem light_congr {h h' : Bodies ℝ} {arb : Arb ℝ} (hp : (h' arb.b).p.sub (h' arb.a).p = (h arb.b).p.sub (h arb.a).p)
    (l : arb.Light h slop) : arb.Light h' slop := by
  refine ⟨l.1, fun c hc => ?_⟩
  obtain ⟨h1, h2, h3⟩ := l.2 c hc
  refine ⟨h1, h2, ?_⟩
  simp only [Vec.sub, Vec.mk.injEq] at hp
  have e : (((h' arb.b).p.add c.r2).sub ((h' arb.a).p.add c.r1)).dot arb.n = (((h arb.b).p.add c.r2).sub ((h arb.a).p.add c.r1)).dot arb.n := by
    simp only [Vec.dot, Vec.add, Vec.sub]
    linear_combination arb.n.x * hp.1 + arb.n.y * hp.2
  rw [e]; exact h3

theorem drift_grip {b : Body ℝ} (w : b.Wf) (d V q : Vec ℝ) : (b.drift d V).localToWorld q = (b.localToWorld q).add d := by
  have w' : (b.drift d V).Wf := rfl
  rw [w.localToWorld, w'.localToWorld]
  simp only [Body.place, Body.drift, Body.setTransform, Vec.add]
  ext <;> simp <;> ring

theorem drift_updatePosition {b : Body ℝ} (hw : b.w = 0) (hv : b.v_bias = ⟨0, 0⟩) (hb : b.w_bias = 0) (dt : ℝ) :
    b.updatePosition dt = b.drift (b.v.mult dt) b.v := by
  have e : b.v.add ⟨0, 0⟩ = b.v := by simp [Vec.add]
  simp only [Body.updatePosition, Body.drift, Body.setTransform, hw, hv, hb, e, Body.zeroV, add_zero, zero_mul]

theorem drift_zero {b : Body ℝ} (w : b.Wf) {V : Vec ℝ} (hV : b.v = V) : b.drift ⟨0, 0⟩ V = b := by
  have e : b.p.add ⟨0, 0⟩ = b.p := by simp [Vec.add]
  subst hV
  have w' : b.transform = (b.setTransform b.p b.a).transform := w
  simp only [Body.drift, e]
  show { b with transform := (b.setTransform b.p b.a).transform } = b
  rw [← w']

/-- One step of bodies that move together. -/
theorem tick_lull {m : Motion ℝ} {t : Tick ℝ} {V' : Vec ℝ} (T : Together S V m.bodies) (R : JointsRest S J m.bodies m.joints)
    (L : t.Light S J m.bodies) (mv : ∀ k ∈ S, k ∈ t.movers ∨ V = ⟨0, 0⟩)
    (dv : ∀ k ∈ S, k ∈ t.dyn → (m.bodies k).type ≠ .kinematic → V' = (V.mult (t.damping ^ t.dt)).add (t.gravity.mult t.dt))
    (sv : ∀ k ∈ S, (k ∉ t.dyn ∨ (m.bodies k).type = .kinematic) → V' = V) :
    (∀ k ∈ S, (m.tick t).bodies k = (m.bodies k).drift (V.mult t.dt) V') ∧ Together S V' (m.tick t).bodies ∧
    JointsRest S J (m.tick t).bodies (m.tick t).joints ∧
    ∀ k ∈ t.arbs, (t.contact k).a ∈ S → ∀ c ∈ ((m.solved t).arbs k).contacts, c.jnAcc = 0 ∧ c.jtAcc = 0 := by
  have hdt := L.dt
  -- positions
  have e0 : ∀ k ∈ S, (startOf m t).bodies k = (m.bodies k).drift (V.mult t.dt) V := by
    intro k hk
    show Motion.move m.bodies t.dt t.movers k = _
    rw [move_apply _ _ L.movers]
    split
    · rw [drift_updatePosition (T.w k hk) (T.vBias k hk) (T.wBias k hk), T.v k hk]
    · rename_i hn
      have hV := (mv k hk).resolve_left hn
      rw [hV]
      have : (⟨0, 0⟩ : Vec ℝ).mult t.dt = ⟨0, 0⟩ := by simp [Vec.mult]
      rw [this, drift_zero (T.placed k hk) (by rw [T.v k hk, hV])]
  have T0 : Together S V (startOf m t).bodies := by
    constructor <;> intro k hk <;> rw [e0 k hk]
    · rfl
    · exact T.w k hk
    · exact T.vBias k hk
    · exact T.wBias k hk
    · exact T.f k hk
    · exact T.t k hk
    · rfl
  have sh0 : Shifted S (V.mult t.dt) m.bodies (startOf m t).bodies :=
    ⟨fun k hk q => by simp only [grip]; rw [e0 k hk, drift_grip (T.placed k hk)], fun k hk => by rw [e0 k hk]; rfl⟩
  have κ0 : Lull S J {k | k ∈ t.arbs} (startOf m t).bodies t.slop ∅ ∅ (startOf m t) := by
    refine ⟨fun _ _ => rfl, fun k hk => (R k hk).1, fun k hk ha => sh0.rests ha ((R k hk).1.1 ha) ((R k hk).2 ha), fun _ _ h => h.elim,
      fun k hk => (L.contact k hk).1, fun k hk ha => ?_, fun _ _ h => h.elim⟩
    have hb := (L.contact k hk).1.1 ha
    have ha' : (t.contact k).a ∈ S := ha
    refine light_congr (h := m.bodies) ?_ ((L.contact k hk).2 ha)
    show ((startOf m t).bodies (t.contact k).b).p.sub ((startOf m t).bodies (t.contact k).a).p = _
    rw [e0 _ ha', e0 _ hb]
    simp only [Body.drift, Vec.sub, Vec.add]
    ext <;> simp [startOf]
  have κ1 : Lull S J {k | k ∈ t.arbs} (startOf m t).bodies t.slop (∅ ∪ {k | k ∈ t.joints}) (∅ ∪ {k | k ∈ t.arbs}) ((startOf m t).run (preOps t)) := by
    rw [preOps, solver_run_append]
    exact Lull.jointsPre T0 t.dt t.joints L.joints (Lull.arbsPre T0 _ _ t.arbs (fun k hk => hk) κ0)
  obtain ⟨ph⟩ := phases m t hdt.ne' L.dyn
  rw [← ph.e1] at κ1
  -- velocities
  obtain ⟨i1, i2, i3⟩ := integrate_apply t.gravity (t.damping ^ t.dt) t.dt t.dyn L.dyn ph.s1
  rw [← ph.e2] at i1 i2 i3
  have e2 : ∀ k ∈ S, ph.s2.bodies k = (m.bodies k).drift (V.mult t.dt) V' := by
    intro k hk
    rw [i1 k, κ1.bodies k hk, e0 k hk]
    have ty : ((m.bodies k).drift (V.mult t.dt) V).type = (m.bodies k).type := rfl
    split
    · rename_i hd
      by_cases hkin : (m.bodies k).type = .kinematic
      · rw [Body.updateVelocity, if_pos (ty.trans hkin), sv k hk (.inr hkin)]
      · rw [Body.updateVelocity, if_neg (by rw [ty]; exact hkin), dv k hk hd hkin]
        have hf := T.f k hk
        have ht := T.t k hk
        have hw := T.w k hk
        simp only [Body.drift, Body.setTransform, hf, ht, hw, Body.zeroV, zero_mul, add_zero, Vec.mult, Vec.add]
    · rename_i hd
      rw [sv k hk (.inl hd)]
  have T2 : Together S V' ph.s2.bodies := by
    constructor <;> intro k hk <;> rw [e2 k hk]
    · rfl
    · exact T.w k hk
    · exact T.vBias k hk
    · exact T.wBias k hk
    · exact T.f k hk
    · exact T.t k hk
    · rfl
  have sh2 : Shifted S ⟨0, 0⟩ (startOf m t).bodies ph.s2.bodies :=
    ⟨fun k hk q => by
      simp only [grip]; rw [e2 k hk, e0 k hk, drift_grip (T.placed k hk), drift_grip (T.placed k hk)]
      simp [Vec.add], fun k hk => by rw [e2 k hk, e0 k hk]; rfl⟩
  have κ2 : Lull S J {k | k ∈ t.arbs} ph.s2.bodies t.slop (∅ ∪ {k | k ∈ t.joints}) (∅ ∪ {k | k ∈ t.arbs}) ph.s2 := by
    refine ⟨fun _ _ => rfl, ?_, ?_, ?_, ?_, ?_, ?_⟩ <;> simp only [i2, i3]
    · exact κ1.iso
    · exact fun k hk ha => sh2.rests ha ((κ1.iso k hk).1 ha) (κ1.rests k hk ha)
    · exact κ1.idle
    · exact κ1.isoA
    · intro k hk ha
      refine light_congr ?_ (κ1.light k hk ha)
      rw [e2 _ ha, e2 _ ((κ1.isoA k hk).1 ha), e0 _ ha, e0 _ ((κ1.isoA k hk).1 ha)]
      rfl
    · exact κ1.calm
  have κ3 : Lull S J {k | k ∈ t.arbs} ph.s2.bodies t.slop (∅ ∪ {k | k ∈ t.joints}) (∅ ∪ {k | k ∈ t.arbs}) ph.s3 := by
    rw [ph.e3]
    refine Lull.post T2 hdt _ (fun op hop => ?_) κ2
    rcases postOps_forms t _ op hop with h | ⟨k, hk, c, e⟩ | ⟨k, hk, e⟩ | ⟨k, hk, e⟩
    · exact .inl h
    · exact .inr (.inl ⟨k, L.joints k hk, c, e⟩)
    · exact .inr (.inr (.inl ⟨k, hk, by simpa using hk, e⟩))
    · exact .inr (.inr (.inr ⟨k, L.joints k hk, by simpa using hk, e⟩))
  have esol : m.solved t = ph.s3 := by
    rw [ph.e3, ph.e2, ph.e1, Motion.solved, program_split, solver_run_append, solver_run_append]; rfl
  have hagree : ∀ k ∈ S, (m.tick t).bodies k = ph.s2.bodies k := by
    intro k hk; rw [ph.tick]; exact κ3.bodies k hk
  refine ⟨fun k hk => by rw [hagree k hk, e2 k hk], ?_, ?_, ?_⟩
  · constructor <;> intro k hk <;> rw [hagree k hk]
    exacts [T2.v k hk, T2.w k hk, T2.vBias k hk, T2.wBias k hk, T2.f k hk, T2.t k hk, T2.placed k hk]
  · intro k hk
    rw [ph.tick]
    refine ⟨κ3.iso k hk, fun ha => ?_⟩
    exact (agree_shifted κ3.bodies).rests ha ((κ3.iso k hk).1 ha) (κ3.rests k hk ha)
  · intro k hk ha c hc
    rw [esol] at hc
    have ha' : (ph.s3.arbs k).a ∈ S := by
      have : (ph.s3.arbs k).a = (t.contact k).a := by rw [ph.e3, ((run_con _ _).2 k).1, (ph.arb2 k).1]
      rw [this]; exact ha
    have := (κ3.light k hk ha').2 c hc
    exact ⟨this.1, this.2.1⟩

end CP
