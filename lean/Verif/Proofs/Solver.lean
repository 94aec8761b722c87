import Verif.Model.Solver
import Verif.Props.Geometry
import Mathlib.Algebra.BigOperators.Ring.Finset
import Mathlib.Algebra.BigOperators.Group.Finset.Piecewise

/-! # Elementary kicks of the solver -/

namespace CP
open GoFloat Finset

/-- Fields of a body the solver never writes. -/
structure Frozen (x y : Body ℝ) : Prop where
  m : y.m = x.m
  m_inv : y.m_inv = x.m_inv
  i : y.i = x.i
  i_inv : y.i_inv = x.i_inv
  cog : y.cog = x.cog
  p : y.p = x.p
  a : y.a = x.a
  transform : y.transform = x.transform
  shapes : y.shapes = x.shapes
  idle : y.idle = x.idle

theorem Frozen.refl (x : Body ℝ) : Frozen x x := ⟨rfl, rfl, rfl, rfl, rfl, rfl, rfl, rfl, rfl, rfl⟩
theorem Frozen.trans {x y z : Body ℝ} (h : Frozen x y) (g : Frozen y z) : Frozen x z :=
  ⟨g.m.trans h.m, g.m_inv.trans h.m_inv, g.i.trans h.i, g.i_inv.trans h.i_inv, g.cog.trans h.cog,
   g.p.trans h.p, g.a.trans h.a, g.transform.trans h.transform, g.shapes.trans h.shapes, g.idle.trans h.idle⟩

/-- `x` if `k = b`, minus `y` if `k = a`. -/
noncomputable def pairv (a b k : Nat) (y x : ℝ) : ℝ := (if k = b then x else 0) - (if k = a then y else 0)

/-- One pair of opposite impulses: linear impulse `j` (on `b`, `-j` on `a`), angular impulses `tb`
on `b` and `-ta` on `a`; `jb`, `tba`, `tbb` the same for the bias velocities. -/
structure Kick where
  a : Nat
  b : Nat
  j : Vec ℝ
  ta : ℝ
  tb : ℝ
  jb : Vec ℝ
  tba : ℝ
  tbb : ℝ

/-- The effect of a kick on the heap. -/
structure Kick.Does (κ : Kick) (h h' : Bodies ℝ) : Prop where
  frozen : ∀ k, Frozen (h k) (h' k)
  f : ∀ k, (h' k).f = (h k).f ∧ (h' k).t = (h k).t
  vx : ∀ k, (h' k).v.x = (h k).v.x + pairv κ.a κ.b k κ.j.x κ.j.x * (h k).m_inv
  vy : ∀ k, (h' k).v.y = (h k).v.y + pairv κ.a κ.b k κ.j.y κ.j.y * (h k).m_inv
  w : ∀ k, (h' k).w = (h k).w + pairv κ.a κ.b k κ.ta κ.tb * (h k).i_inv
  bx : ∀ k, (h' k).v_bias.x = (h k).v_bias.x + pairv κ.a κ.b k κ.jb.x κ.jb.x * (h k).m_inv
  b_y : ∀ k, (h' k).v_bias.y = (h k).v_bias.y + pairv κ.a κ.b k κ.jb.y κ.jb.y * (h k).m_inv
  wb : ∀ k, (h' k).w_bias = (h k).w_bias + pairv κ.a κ.b k κ.tba κ.tbb * (h k).i_inv

theorem applyImpulses_does (h : Bodies ℝ) (a b : Nat) (r1 r2 j : Vec ℝ) :
    (Kick.mk a b j (r1.cross j) (r2.cross j) ⟨0, 0⟩ 0 0).Does h (applyImpulses h a b r1 r2 j) := by
  constructor <;> intro k <;>
    by_cases h1 : k = a <;> by_cases h2 : k = b <;> by_cases h3 : a = b <;>
    (first | (exfalso; omega) | skip) <;>
    (try subst h1) <;> (try subst h2) <;> (try subst h3) <;>
    simp_all [applyImpulses, Bodies.set, pairv, Vec.cross] <;>
    first | exact Frozen.refl _ | (constructor <;> rfl) | ring

theorem applyBiasImpulses_does (h : Bodies ℝ) (a b : Nat) (r1 r2 j : Vec ℝ) :
    (Kick.mk a b ⟨0, 0⟩ 0 0 j (r1.cross j) (r2.cross j)).Does h (applyBiasImpulses h a b r1 r2 j) := by
  constructor <;> intro k <;>
    by_cases h1 : k = a <;> by_cases h2 : k = b <;> by_cases h3 : a = b <;>
    (first | (exfalso; omega) | skip) <;>
    (try subst h1) <;> (try subst h2) <;> (try subst h3) <;>
    simp_all [applyBiasImpulses, Bodies.set, pairv, Vec.cross] <;>
    first | exact Frozen.refl _ | (constructor <;> rfl) | ring

theorem applySpin_does (h : Bodies ℝ) (a b : Nat) (da db : Body ℝ → ℝ) (ta tb : ℝ)
    (ha : ∀ x, da x = ta * x.i_inv) (hb : ∀ x, db x = tb * x.i_inv) :
    (Kick.mk a b ⟨0, 0⟩ ta tb ⟨0, 0⟩ 0 0).Does h (applySpin h a b da db) := by
  constructor <;> intro k <;>
    by_cases h1 : k = a <;> by_cases h2 : k = b <;> by_cases h3 : a = b <;>
    (first | (exfalso; omega) | skip) <;>
    (try subst h1) <;> (try subst h2) <;> (try subst h3) <;>
    simp_all [applySpin, Bodies.set, pairv, ha, hb] <;>
    first | exact Frozen.refl _ | (constructor <;> rfl) | ring
theorem Kick.zero_does (a b : Nat) (h : Bodies ℝ) :
    (Kick.mk a b ⟨0, 0⟩ 0 0 ⟨0, 0⟩ 0 0).Does h h := by
  constructor <;> intro k <;> simp [pairv, Frozen.refl]

/-- The kick exerts no net torque about the origin (nor does its bias part). -/
def Kick.Balanced (κ : Kick) (h : Bodies ℝ) : Prop :=
  (h κ.b).p.cross κ.j + κ.tb = (h κ.a).p.cross κ.j + κ.ta ∧
  (h κ.b).p.cross κ.jb + κ.tbb = (h κ.a).p.cross κ.jb + κ.tba

/-- Offset between the world positions of the two application points. -/
noncomputable def gap (h : Bodies ℝ) (a b : Nat) (r1 r2 : Vec ℝ) : Vec ℝ :=
  ((h b).p.add r2).sub ((h a).p.add r1)

/-- The joint's next impulse exerts no net torque: it acts along the line between the two
application points, at a common point, or is a pair of opposite torques. -/
def Joint.Central (h : Bodies ℝ) : Joint ℝ → Prop
  | .pin j => (gap h j.a j.b j.r1 j.r2).cross j.n = 0
  | .slide j => (gap h j.a j.b j.r1 j.r2).cross j.n = 0
  | .spring j => (gap h j.a j.b j.r1 j.r2).cross j.n = 0
  | .pivot j => gap h j.a j.b j.r1 j.r2 = ⟨0, 0⟩
  | .groove j => gap h j.a j.b j.r1 j.r2 = ⟨0, 0⟩
  | .gear j => j.ratio_inv = 1
  | _ => True

theorem balanced_imp {h : Bodies ℝ} {a b : Nat} {r1 r2 j : Vec ℝ}
    (hc : (gap h a b r1 r2).cross j = 0) :
    (Kick.mk a b j (r1.cross j) (r2.cross j) ⟨0, 0⟩ 0 0).Balanced h := by
  simp only [gap, Vec.cross, Vec.sub, Vec.add] at hc
  simp only [Kick.Balanced, Vec.cross]
  constructor
  · linear_combination hc
  · ring

theorem balanced_bias {h : Bodies ℝ} {a b : Nat} {r1 r2 j : Vec ℝ}
    (hc : (gap h a b r1 r2).cross j = 0) :
    (Kick.mk a b ⟨0, 0⟩ 0 0 j (r1.cross j) (r2.cross j)).Balanced h := by
  simp only [gap, Vec.cross, Vec.sub, Vec.add] at hc
  simp only [Kick.Balanced, Vec.cross]
  constructor
  · ring
  · linear_combination hc

theorem cross_mult {g n : Vec ℝ} (s : ℝ) (h : g.cross n = 0) : g.cross (n.mult s) = 0 := by
  simp only [Vec.cross, Vec.mult] at *; linear_combination s * h

theorem cross_zero_left {g : Vec ℝ} (j : Vec ℝ) (h : g = ⟨0, 0⟩) : g.cross j = 0 := by
  subst h; simp [Vec.cross]

theorem balanced_spin {h : Bodies ℝ} {a b : Nat} {t : ℝ} :
    (Kick.mk a b ⟨0, 0⟩ t t ⟨0, 0⟩ 0 0).Balanced h := by
  simp [Kick.Balanced, Vec.cross]

/-- What an action of joint `j` does to the heap. -/
def JointKick (h : Bodies ℝ) (j : Joint ℝ) (h' : Bodies ℝ) : Prop :=
  ∃ κ : Kick, κ.a = j.con.a ∧ κ.b = j.con.b ∧ κ.Does h h' ∧ (j.Central h → κ.Balanced h)

theorem jointCached_kick (h : Bodies ℝ) (j : Joint ℝ) (c : ℝ) : JointKick h j (j.applyCached h c).1 := by
  cases j with
  | pin j => exact ⟨_, rfl, rfl, applyImpulses_does .., fun hc => balanced_imp (cross_mult _ hc)⟩
  | slide j => exact ⟨_, rfl, rfl, applyImpulses_does .., fun hc => balanced_imp (cross_mult _ hc)⟩
  | pivot j => exact ⟨_, rfl, rfl, applyImpulses_does .., fun hc => balanced_imp (cross_zero_left _ hc)⟩
  | groove j => exact ⟨_, rfl, rfl, applyImpulses_does .., fun hc => balanced_imp (cross_zero_left _ hc)⟩
  | spring j => exact ⟨_, rfl, rfl, Kick.zero_does .., fun _ => balanced_spin⟩
  | rotarySpring j => exact ⟨_, rfl, rfl, Kick.zero_does .., fun _ => balanced_spin⟩
  | gear j =>
    refine ⟨_, rfl, rfl, applySpin_does h j.a j.b _ _ (j.jAcc * c * j.ratio_inv) (j.jAcc * c)
      (fun x => mul_right_comm _ _ _) (fun x => rfl), fun hc => ?_⟩
    rw [show j.ratio_inv = 1 from hc, mul_one]; exact balanced_spin
  | ratchet j =>
    exact ⟨_, rfl, rfl, applySpin_does h j.a j.b _ _ (j.jAcc * c) (j.jAcc * c)
      (fun x => rfl) (fun x => rfl), fun _ => balanced_spin⟩
  | rotaryLimit j =>
    exact ⟨_, rfl, rfl, applySpin_does h j.a j.b _ _ (j.jAcc * c) (j.jAcc * c)
      (fun x => rfl) (fun x => rfl), fun _ => balanced_spin⟩
  | motor j =>
    exact ⟨_, rfl, rfl, applySpin_does h j.a j.b _ _ (j.jAcc * c) (j.jAcc * c)
      (fun x => rfl) (fun x => rfl), fun _ => balanced_spin⟩

theorem rotarySpring_does (h : Bodies ℝ) (a b : Nat) (t : ℝ) :
    let h1 := h.set a { h a with w := (h a).w + t * (h a).i_inv }
    (Kick.mk a b ⟨0, 0⟩ (-t) (-t) ⟨0, 0⟩ 0 0).Does h
      (h1.set b { h1 b with w := (h1 b).w - t * (h1 b).i_inv }) := by
  have := applySpin_does h a b (fun x => -t * x.i_inv) (fun x => -t * x.i_inv) (-t) (-t)
    (fun _ => rfl) (fun _ => rfl)
  simp only [applySpin, neg_mul, sub_neg_eq_add] at this
  exact this

theorem jointApply_kick (h : Bodies ℝ) (j : Joint ℝ) (dt : ℝ) : JointKick h j (j.applyImpulse h dt).1 := by
  cases j with
  | pin j => exact ⟨_, rfl, rfl, applyImpulses_does .., fun hc => balanced_imp (cross_mult _ hc)⟩
  | slide j =>
    simp only [Joint.applyImpulse, SlideJoint.applyImpulse]
    split
    · exact ⟨_, rfl, rfl, Kick.zero_does .., fun _ => balanced_spin⟩
    · exact ⟨_, rfl, rfl, applyImpulses_does .., fun hc => balanced_imp (cross_mult _ hc)⟩
  | pivot j => exact ⟨_, rfl, rfl, applyImpulses_does .., fun hc => balanced_imp (cross_zero_left _ hc)⟩
  | groove j => exact ⟨_, rfl, rfl, applyImpulses_does .., fun hc => balanced_imp (cross_zero_left _ hc)⟩
  | spring j => exact ⟨_, rfl, rfl, applyImpulses_does .., fun hc => balanced_imp (cross_mult _ hc)⟩
  | rotarySpring j => exact ⟨_, rfl, rfl, rotarySpring_does h j.a j.b _, fun _ => balanced_spin⟩
  | gear j =>
    refine ⟨_, rfl, rfl, applySpin_does h j.a j.b _ _ (_ * j.ratio_inv) _
      (fun x => mul_right_comm _ _ _) (fun x => rfl), fun hc => ?_⟩
    rw [show j.ratio_inv = 1 from hc, mul_one]; exact balanced_spin
  | ratchet j =>
    simp only [Joint.applyImpulse, RatchetJoint.applyImpulse]
    split
    · exact ⟨_, rfl, rfl, Kick.zero_does .., fun _ => balanced_spin⟩
    · exact ⟨_, rfl, rfl, applySpin_does h j.a j.b _ _ _ _
        (fun x => rfl) (fun x => rfl), fun _ => balanced_spin⟩
  | rotaryLimit j =>
    simp only [Joint.applyImpulse, RotaryLimitJoint.applyImpulse]
    split
    · exact ⟨_, rfl, rfl, Kick.zero_does .., fun _ => balanced_spin⟩
    · exact ⟨_, rfl, rfl, applySpin_does h j.a j.b _ _ _ _
        (fun x => rfl) (fun x => rfl), fun _ => balanced_spin⟩
  | motor j =>
    exact ⟨_, rfl, rfl, applySpin_does h j.a j.b _ _ _ _
      (fun x => rfl) (fun x => rfl), fun _ => balanced_spin⟩

/-- The geometric condition on the bodies under which the joint conserves angular momentum. -/
def Joint.Aligned (h : Bodies ℝ) : Joint ℝ → Prop
  | .pivot j => (h j.a).localToWorld j.anchorA = (h j.b).localToWorld j.anchorB
  | .groove _ => False
  | .gear j => j.ratio_inv = 1
  | _ => True

theorem gap_anchor (h : Bodies ℝ) (a b : Nat) (x y : Vec ℝ)
    (ha : (h a).localToWorld (h a).cog = (h a).p) (hb : (h b).localToWorld (h b).cog = (h b).p) :
    gap h a b (anchorOffset (h a) x) (anchorOffset (h b) y) =
      ((h b).localToWorld y).sub ((h a).localToWorld x) := by
  rw [gap, ← ha, ← hb]
  simp only [anchorOffset, Body.localToWorld, Transform.point, Transform.vect, Vec.sub, Vec.add]
  ext <;> simp <;> ring

/-- Pin/slide/spring: the normal is parallel to the gap. -/
theorem cross_self_mult (g : Vec ℝ) (s : ℝ) : g.cross (g.mult s) = 0 := by
  simp only [Vec.cross, Vec.mult]; ring

theorem cross_normalize (g : Vec ℝ) : g.cross g.normalize = 0 := cross_self_mult _ _

theorem jointPre_kick (h : Bodies ℝ) (j : Joint ℝ) (dt : ℝ) :
    (∃ κ : Kick, κ.a = j.con.a ∧ κ.b = j.con.b ∧ κ.Does h (j.preStep h dt).1 ∧ κ.Balanced h) ∧
    (j.preStep h dt).2.con = j.con ∧
    ((∀ k, (h k).localToWorld (h k).cog = (h k).p) → j.Aligned h → (j.preStep h dt).2.Central h) := by
  cases j with
  | pin j =>
    refine ⟨⟨_, rfl, rfl, Kick.zero_does .., balanced_spin⟩, rfl, fun _ _ => ?_⟩
    simp only [Joint.Central, Joint.preStep, PinJoint.preStep, Prod.map]
    have : ∀ r1 r2 : Vec ℝ, gap h j.a j.b r1 r2 = (h j.b).p.add (r2.sub ((h j.a).p.add r1)) := by
      intro r1 r2; simp only [gap, Vec.sub, Vec.add]; ext <;> simp <;> ring
    rw [this]
    split <;> exact cross_self_mult _ _
  | slide j =>
    refine ⟨⟨_, rfl, rfl, Kick.zero_does .., balanced_spin⟩, rfl, fun _ _ => ?_⟩
    simp only [Joint.Central, Joint.preStep, SlideJoint.preStep, Prod.map, gap]
    split
    · exact cross_normalize _
    · split
      · have := cross_normalize (((h j.b).p.add (anchorOffset (h j.b) j.anchorB)).sub
          ((h j.a).p.add (anchorOffset (h j.a) j.anchorA)))
        simp only [Vec.cross, Vec.neg] at this ⊢
        linear_combination -this
      · simp [Vec.cross]
  | spring j =>
    refine ⟨⟨_, rfl, rfl, applyImpulses_does .., balanced_imp ?_⟩, rfl, fun _ _ => ?_⟩
    · refine cross_mult _ ?_
      simp only [gap]
      split <;> exact cross_self_mult _ _
    · simp only [Joint.Central, Joint.preStep, DampedSpring.preStep, Prod.map, gap]
      split <;> exact cross_self_mult _ _
  | pivot j =>
    refine ⟨⟨_, rfl, rfl, Kick.zero_does .., balanced_spin⟩, rfl, fun hp ha => ?_⟩
    simp only [Joint.Central, Joint.preStep, PivotJoint.preStep, Prod.map]
    rw [gap_anchor h _ _ _ _ (hp _) (hp _), show (h j.a).localToWorld j.anchorA = _ from ha]
    simp [Vec.sub]
  | groove j =>
    exact ⟨⟨_, rfl, rfl, Kick.zero_does .., balanced_spin⟩, rfl, fun _ hf => hf.elim⟩
  | gear j => exact ⟨⟨_, rfl, rfl, Kick.zero_does .., balanced_spin⟩, rfl, fun _ ha => ha⟩
  | ratchet j => exact ⟨⟨_, rfl, rfl, Kick.zero_does .., balanced_spin⟩, rfl, fun _ _ => trivial⟩
  | rotaryLimit j => exact ⟨⟨_, rfl, rfl, Kick.zero_does .., balanced_spin⟩, rfl, fun _ _ => trivial⟩
  | motor j => exact ⟨⟨_, rfl, rfl, Kick.zero_does .., balanced_spin⟩, rfl, fun _ _ => trivial⟩
  | rotarySpring j =>
    exact ⟨⟨_, rfl, rfl, applySpin_does h j.a j.b _ _ _ _
      (fun x => rfl) (fun x => rfl), balanced_spin⟩, rfl, fun _ _ => trivial⟩

theorem jointCached_snd (h : Bodies ℝ) (j : Joint ℝ) (c : ℝ) : (j.applyCached h c).2 = j := by
  cases j <;> rfl

theorem jointApply_con (h : Bodies ℝ) (j : Joint ℝ) (dt : ℝ) : (j.applyImpulse h dt).2.con = j.con := by
  cases j with
  | slide j => simp only [Joint.applyImpulse, SlideJoint.applyImpulse]; split <;> rfl
  | ratchet j => simp only [Joint.applyImpulse, RatchetJoint.applyImpulse]; split <;> rfl
  | rotaryLimit j => simp only [Joint.applyImpulse, RotaryLimitJoint.applyImpulse]; split <;> rfl
  | _ => rfl

theorem jointApply_central (h h' : Bodies ℝ) (j : Joint ℝ) (dt : ℝ) :
    (j.applyImpulse h dt).2.Central h' ↔ j.Central h' := by
  cases j with
  | slide j => simp only [Joint.applyImpulse, SlideJoint.applyImpulse]; split <;> rfl
  | ratchet j => simp only [Joint.applyImpulse, RatchetJoint.applyImpulse]; split <;> rfl
  | rotaryLimit j => simp only [Joint.applyImpulse, RotaryLimitJoint.applyImpulse]; split <;> rfl
  | _ => rfl

theorem jointApply_aligned (h h' : Bodies ℝ) (j : Joint ℝ) (dt : ℝ) :
    (j.applyImpulse h dt).2.Aligned h' ↔ j.Aligned h' := by
  cases j with
  | slide j => simp only [Joint.applyImpulse, SlideJoint.applyImpulse]; split <;> rfl
  | ratchet j => simp only [Joint.applyImpulse, RatchetJoint.applyImpulse]; split <;> rfl
  | rotaryLimit j => simp only [Joint.applyImpulse, RotaryLimitJoint.applyImpulse]; split <;> rfl
  | _ => rfl

theorem jointPre_aligned (h h' : Bodies ℝ) (j : Joint ℝ) (dt : ℝ) :
    (j.preStep h dt).2.Aligned h' ↔ j.Aligned h' := by
  cases j <;> rfl

/-- `Central` and `Aligned` only depend on the positions. -/
theorem central_congr {h h' : Bodies ℝ} (hf : ∀ k, Frozen (h k) (h' k)) (j : Joint ℝ) :
    j.Central h' ↔ j.Central h := by
  cases j <;> simp [Joint.Central, gap, fun k => (hf k).p]

theorem aligned_congr {h h' : Bodies ℝ} (hf : ∀ k, Frozen (h k) (h' k)) (j : Joint ℝ) :
    j.Aligned h' ↔ j.Aligned h := by
  cases j <;> simp [Joint.Aligned, Body.localToWorld, fun k => (hf k).transform]

/-- Sequences of kicks satisfying `Q`. -/
inductive Kicks (Q : Kick → Prop) : Bodies ℝ → Bodies ℝ → Prop
  | refl (h : Bodies ℝ) : Kicks Q h h
  | step {h h1 h2 : Bodies ℝ} {κ : Kick} : Kicks Q h h1 → Q κ → κ.Does h1 h2 → Kicks Q h h2

theorem Kicks.one {Q : Kick → Prop} {κ : Kick} {h h' : Bodies ℝ} (hq : Q κ) (hd : κ.Does h h') :
    Kicks Q h h' := .step (.refl h) hq hd

theorem Kicks.trans {Q : Kick → Prop} {h h1 h2 : Bodies ℝ} (a : Kicks Q h h1) (b : Kicks Q h1 h2) :
    Kicks Q h h2 := by
  induction b with
  | refl => exact a
  | step _ hq hd ih => exact ih.step hq hd

theorem Kicks.mono {Q R : Kick → Prop} (hqr : ∀ κ, Q κ → R κ) {h h1 : Bodies ℝ} (a : Kicks Q h h1) :
    Kicks R h h1 := by
  induction a with
  | refl => exact .refl _
  | step _ hq hd ih => exact ih.step (hqr _ hq) hd

theorem Kicks.frozen {Q : Kick → Prop} {h h1 : Bodies ℝ} (a : Kicks Q h h1) : ∀ k, Frozen (h k) (h1 k) := by
  induction a with
  | refl => exact fun k => Frozen.refl _
  | step _ _ hd ih => exact fun k => (ih k).trans (hd.frozen k)

/-- The contact acts at a common point, or without friction along the line between its points. -/
def ContactCentral (h : Bodies ℝ) (arb : Arb ℝ) (c : Contact ℝ) : Prop :=
  gap h arb.a arb.b c.r1 c.r2 = ⟨0, 0⟩ ∨
    ((gap h arb.a arb.b c.r1 c.r2).cross arb.n = 0 ∧ arb.u = 0 ∧ c.jtAcc = 0)

def Arb.Central (h : Bodies ℝ) (arb : Arb ℝ) : Prop := ∀ c ∈ arb.contacts, ContactCentral h arb c

/-- The kicks of an arbiter. -/
def ArbQ (h : Bodies ℝ) (arb : Arb ℝ) (κ : Kick) : Prop :=
  κ.a = arb.a ∧ κ.b = arb.b ∧ (arb.Central h → κ.Balanced h)

theorem balanced_congr {h h' : Bodies ℝ} (hf : ∀ k, Frozen (h k) (h' k)) (κ : Kick) :
    κ.Balanced h' ↔ κ.Balanced h := by
  simp [Kick.Balanced, fun k => (hf k).p]

theorem contactCentral_congr {h h' : Bodies ℝ} (hf : ∀ k, Frozen (h k) (h' k)) (arb : Arb ℝ)
    (c : Contact ℝ) : ContactCentral h' arb c ↔ ContactCentral h arb c := by
  simp [ContactCentral, gap, fun k => (hf k).p]

theorem arbCentral_congr {h h' : Bodies ℝ} (hf : ∀ k, Frozen (h k) (h' k)) (arb : Arb ℝ) :
    arb.Central h' ↔ arb.Central h := by
  simp only [Arb.Central, contactCentral_congr hf]

theorem arbCached_kicks (h : Bodies ℝ) (arb : Arb ℝ) (c : ℝ) :
    Kicks (ArbQ h arb) h (arb.applyCached h c) := by
  unfold Arb.applyCached
  split
  · exact .refl _
  · have : ∀ l : List (Contact ℝ), (∀ x ∈ l, x ∈ arb.contacts) → ∀ h1, Kicks (ArbQ h arb) h h1 →
        Kicks (ArbQ h arb) h (l.foldl (fun h c' =>
          applyImpulses h arb.a arb.b c'.r1 c'.r2 ((arb.n.rotate ⟨c'.jnAcc, c'.jtAcc⟩).mult c)) h1) := by
      intro l
      induction l with
      | nil => intro _ h1 hk; exact hk
      | cons x l ih =>
        intro hl h1 hk
        refine ih (fun y hy => hl y (List.mem_cons_of_mem _ hy)) _ ?_
        refine hk.step ⟨rfl, rfl, fun hcen => ?_⟩ (applyImpulses_does ..)
        apply balanced_imp
        apply cross_mult
        rcases hcen x (hl x List.mem_cons_self) with h0 | ⟨h0, -, ht⟩
        · exact cross_zero_left _ h0
        · rw [ht]; simp only [Vec.cross, Vec.rotate] at h0 ⊢; linear_combination x.jnAcc * h0
    exact this arb.contacts (fun _ hx => hx) h (.refl _)

theorem applyContact_kicks (h0 h : Bodies ℝ) (arb : Arb ℝ) (c : Contact ℝ)
    (hc : arb.Central h0 → ContactCentral h0 arb c) (hk : Kicks (ArbQ h0 arb) h0 h) :
    Kicks (ArbQ h0 arb) h0 (arb.applyContact h c).1 ∧
    (arb.applyContact h c).2.r1 = c.r1 ∧ (arb.applyContact h c).2.r2 = c.r2 ∧
    (arb.Central h0 → ContactCentral h0 arb (arb.applyContact h c).2) := by
  have hjt : arb.u = 0 → c.jtAcc = 0 → (arb.applyContact h c).2.jtAcc = 0 := by
    intro hu _
    simp only [Arb.applyContact, hu, zero_mul, neg_zero]
    exact le_antisymm (C41_clamp_range _ 0 0 le_rfl).2.1 (C41_clamp_range _ 0 0 le_rfl).1
  refine ⟨?_, rfl, rfl, ?_⟩
  · refine (hk.step ⟨rfl, rfl, fun hcen => balanced_bias ?_⟩ (applyBiasImpulses_does ..)).step
      ⟨rfl, rfl, fun hcen => balanced_imp ?_⟩ (applyImpulses_does ..)
    · rcases hc hcen with h1 | ⟨h1, -, -⟩
      · exact cross_zero_left _ h1
      · exact cross_mult _ h1
    · rcases hc hcen with h1 | ⟨h1, hu, ht⟩
      · exact cross_zero_left _ h1
      · have h2 := hjt hu ht
        simp only [Arb.applyContact] at h2
        rw [ht] at h2 ⊢
        rw [h2]
        simp only [Vec.cross, Vec.rotate] at h1 ⊢
        generalize (max (c.jnAcc + _) 0 - c.jnAcc) = y
        linear_combination y * h1
  · intro hcen
    rcases hc hcen with h1 | ⟨h1, hu, ht⟩
    · exact Or.inl h1
    · exact Or.inr ⟨h1, hu, hjt hu ht⟩

theorem applyLoop_kicks (h0 : Bodies ℝ) (arb : Arb ℝ) (cs : List (Contact ℝ)) : ∀ h,
    (arb.Central h0 → ∀ c ∈ cs, ContactCentral h0 arb c) → Kicks (ArbQ h0 arb) h0 h →
    Kicks (ArbQ h0 arb) h0 (arb.applyLoop h cs).1 ∧
    (arb.Central h0 → ∀ c ∈ (arb.applyLoop h cs).2, ContactCentral h0 arb c) := by
  induction cs with
  | nil => intro h hc hk; exact ⟨hk, fun _ c hc => by simp [Arb.applyLoop] at hc⟩
  | cons c cs ih =>
    intro h hc hk
    obtain ⟨k1, -, -, k2⟩ := applyContact_kicks h0 h arb c (fun hcen => hc hcen c List.mem_cons_self) hk
    obtain ⟨k3, k4⟩ := ih _ (fun hcen x hx => hc hcen x (List.mem_cons_of_mem _ hx)) k1
    refine ⟨k3, fun hcen x hx => ?_⟩
    simp only [Arb.applyLoop, List.mem_cons] at hx
    rcases hx with rfl | hx
    · exact k2 hcen
    · exact k4 hcen x hx

theorem arbApply_kicks (h : Bodies ℝ) (arb : Arb ℝ) :
    Kicks (ArbQ h arb) h (arb.applyImpulse h).1 ∧
    (arb.applyImpulse h).2.a = arb.a ∧ (arb.applyImpulse h).2.b = arb.b ∧
    (arb.Central h → (arb.applyImpulse h).2.Central h) := by
  obtain ⟨k1, k2⟩ := applyLoop_kicks h arb arb.contacts h (fun hc c hcc => hc c hcc) (.refl _)
  refine ⟨k1, rfl, rfl, fun hc c hcc => ?_⟩
  exact k2 hc c hcc

theorem arbPre_central (h : Bodies ℝ) (arb : Arb ℝ) (dt slop bias : ℝ) (hc : arb.Central h) :
    (arb.preStep h dt slop bias).Central h := by
  intro c hcc
  simp only [Arb.preStep, List.mem_map] at hcc
  obtain ⟨c0, h0, rfl⟩ := hcc
  exact hc c0 h0

end CP
