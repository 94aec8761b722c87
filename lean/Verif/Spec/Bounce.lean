import Verif.Spec.Energy

/-! # Specification: how two bodies bounce off and slide along each other -/

namespace CP

/-- How fast the second body's surface slides along the first's at a contact (with the surface velocities of the shapes). -/
noncomputable def Arb.slipVel (arb : Arb ℝ) (c : Contact ℝ) (h : Bodies ℝ) : ℝ :=
  ((((h arb.b).v.add (c.r2.perp.mult (h arb.b).w)).sub ((h arb.a).v.add (c.r1.perp.mult (h arb.a).w))).add arb.surface_vr).dot arb.n.perp

/-- By how much a unit impulse along `d`, at a contact, changes the relative velocity of its points along `d`. -/
noncomputable def Arb.response (arb : Arb ℝ) (c : Contact ℝ) (h : Bodies ℝ) (d : Vec ℝ) : ℝ :=
  (h arb.a).m_inv + (h arb.a).i_inv * c.r1.cross d ^ 2 + ((h arb.b).m_inv + (h arb.b).i_inv * c.r2.cross d ^ 2)

/-- An impulse along the normal turns neither body: the contact is straight above its centre of gravity (as that of two circles), or it cannot be turned. -/
def Arb.Straight (arb : Arb ℝ) (c : Contact ℝ) (h : Bodies ℝ) : Prop :=
  (h arb.a).i_inv * c.r1.cross arb.n = 0 ∧ (h arb.b).i_inv * c.r2.cross arb.n = 0

/-- The velocities in `h'` are those in `h` after the impulse `P` on the second body and `-P` on the first, at a contact. -/
structure Arb.Kicked (arb : Arb ℝ) (c : Contact ℝ) (h h' : Bodies ℝ) (P : Vec ℝ) : Prop where
  va : (h' arb.a).v = (h arb.a).v.sub (P.mult (h arb.a).m_inv)
  wa : (h' arb.a).w = (h arb.a).w - (h arb.a).i_inv * c.r1.cross P
  vb : (h' arb.b).v = (h arb.b).v.add (P.mult (h arb.b).m_inv)
  wb : (h' arb.b).w = (h arb.b).w + (h arb.b).i_inv * c.r2.cross P

/-- The impulse with the normal part `J` and the part `T` along the surface. -/
noncomputable def Arb.impulse (arb : Arb ℝ) (J T : ℝ) : Vec ℝ := (arb.n.mult J).add (arb.n.perp.mult T)

/-- In the step `t` body `x` has no contacts but those of arbiter `i`, and no joint joins it. -/
structure Tick.Lone (t : Tick ℝ) (m : Motion ℝ) (i x : Nat) : Prop where
  others : ∀ k ∈ t.arbs, k ≠ i → x ≠ (t.contact k).a ∧ x ≠ (t.contact k).b
  unjoined : t.Unjoined m x

/-- In the step `t` two bodies touch only each other, at the single contact `c`, and no joint joins them; only a body that cannot be moved (a
floor) may also touch others and be joined to others. Pushing at the contact turns neither body (two circles, or a circle on a floor), or the contact has no friction. -/
structure Tick.Duel (m : Motion ℝ) (t : Tick ℝ) (i : Nat) (c : Contact ℝ) : Prop where
  pos : 0 < t.dt
  dyn : t.dyn.Nodup
  iterations : 0 < t.iterations
  once : t.arbs.count i = 1
  lone : ∀ x, x = (t.contact i).a ∨ x = (t.contact i).b → Immovable (m.bodies x) ∨ t.Lone m i x
  ne : (t.contact i).a ≠ (t.contact i).b
  one : (t.contact i).contacts = [c]
  unit : (t.contact i).n.dot (t.contact i).n = 1
  surface : (t.contact i).surface_vr.dot (t.contact i).n = 0
  solvable : 0 < (m.bodies (t.contact i).a).m_inv + (m.bodies (t.contact i).b).m_inv ∧
    0 ≤ (m.bodies (t.contact i).a).i_inv ∧ 0 ≤ (m.bodies (t.contact i).b).i_inv
  plain : (t.contact i).Straight c m.bodies ∨ ((t.contact i).u = 0 ∧ c.jtAcc = 0)

/-- The share of the impulses stored by the last step with which a step starts: none if the bodies touch for the first time, and the ratio of
the lengths of the steps otherwise. -/
noncomputable def Tick.carriedOver (t : Tick ℝ) (m : Motion ℝ) (i : Nat) : ℝ :=
  if (t.contact i).first then 0 else if m.currDt = 0 then 0 else t.dt / m.currDt

/-- Nothing is stored from the last step, or the last step was as long. -/
def Tick.Steady (t : Tick ℝ) (m : Motion ℝ) (i : Nat) (c : Contact ℝ) : Prop :=
  (c.jnAcc = 0 ∧ c.jtAcc = 0) ∨ ((t.contact i).first = false ∧ m.currDt = t.dt)

/-- The arbiter `i` as the step `t` leaves it: what callbacks see after the step, and what the next step starts from. -/
noncomputable def Motion.leftArb (m : Motion ℝ) (t : Tick ℝ) (i : Nat) : Arb ℝ :=
  (Solver.run { bodies := m.seen t, joints := m.joints, arbs := t.contact }
    (Solver.stepProgram t.arbs t.joints t.dyn t.iterations t.dt m.currDt t.slop t.collisionBias t.damping t.gravity)).arbs i

/-- Nothing but the contact acts on the bodies of arbiter `i`: no gravity, no damping, no forces. -/
structure Tick.Weightless (t : Tick ℝ) (m : Motion ℝ) (i : Nat) : Prop where
  gravity : t.gravity = ⟨0, 0⟩
  damping : t.damping = 1
  forces : ∀ x, x = (t.contact i).a ∨ x = (t.contact i).b → (m.bodies x).f = ⟨0, 0⟩ ∧ (m.bodies x).t = 0

/-- The next step starts from what the last one left: the same pair at the same place, no new collision. -/
structure Follows (m : Motion ℝ) (t t' : Tick ℝ) (i : Nat) (c c' : Contact ℝ) : Prop where
  left : ∃ d, (m.leftArb t i).contacts = [d] ∧ c'.jnAcc = d.jnAcc ∧ c'.jtAcc = d.jtAcc
  notFirst : (t'.contact i).first = false
  sameA : (t'.contact i).a = (t.contact i).a
  sameB : (t'.contact i).b = (t.contact i).b
  sameN : (t'.contact i).n = (t.contact i).n
  sameE : (t'.contact i).e = (t.contact i).e
  r1 : c'.r1 = c.r1
  r2 : c'.r2 = c.r2

end CP
