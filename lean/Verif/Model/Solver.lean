import Verif.Model.Body

/-! # The impulse solver: contacts and joints
(/repo/arbiter.go, /repo/everything.go, /repo/*joint.go, /repo/dampedspring.go,
/repo/dampedrotaryspring.go, /repo/simplemotor.go, /repo/constraint.go)

Bodies live in a heap `Nat → Body F` (a Go `*Body` is a `Nat`), so two references may alias. -/

namespace CP

/-- The heap of bodies: `*Body` pointers are natural numbers. -/
abbrev Bodies (F : Type) := Nat → Body F

namespace Bodies
variable {F : Type}
/-- Overwriting `*b`. -/
def set (h : Bodies F) (k : Nat) (b : Body F) : Bodies F := fun i => if i = k then b else h i
end Bodies

section
variable {F : Type} [GoFloat F]
open GoFloat

/-- /repo/arbiter.go:326-336 `apply_impulses`: first `b`, then `a` with the negated impulse. -/
def applyImpulses (h : Bodies F) (a b : Nat) (r1 r2 j : Vec F) : Bodies F :=
  let B := h b
  let h := h.set b { B with
    v := ⟨B.v.x + j.x * B.m_inv, B.v.y + j.y * B.m_inv⟩
    w := B.w + B.i_inv * (r2.x * j.y - r2.y * j.x) }
  let j : Vec F := ⟨-j.x, -j.y⟩
  let A := h a
  h.set a { A with
    v := ⟨A.v.x + j.x * A.m_inv, A.v.y + j.y * A.m_inv⟩
    w := A.w + A.i_inv * (r1.x * j.y - r1.y * j.x) }

/-- /repo/arbiter.go:344-354 `apply_bias_impulses`. -/
def applyBiasImpulses (h : Bodies F) (a b : Nat) (r1 r2 j : Vec F) : Bodies F :=
  let B := h b
  let h := h.set b { B with
    v_bias := ⟨B.v_bias.x + j.x * B.m_inv, B.v_bias.y + j.y * B.m_inv⟩
    w_bias := B.w_bias + B.i_inv * (r2.x * j.y - r2.y * j.x) }
  let j : Vec F := ⟨-j.x, -j.y⟩
  let A := h a
  h.set a { A with
    v_bias := ⟨A.v_bias.x + j.x * A.m_inv, A.v_bias.y + j.y * A.m_inv⟩
    w_bias := A.w_bias + A.i_inv * (r1.x * j.y - r1.y * j.x) }

/-- The statement pair `a.w -= da; b.w += db` of the angular joints, in this order
(/repo/simplemotor.go:51-52 and the same lines of the other angular joints). -/
def applySpin (h : Bodies F) (a b : Nat) (da db : Body F → F) : Bodies F :=
  let h := h.set a { h a with w := (h a).w - da (h a) }
  h.set b { h b with w := (h b).w + db (h b) }

/-- /repo/arbiter.go:356-358 `relative_velocity`. -/
def relVel (h : Bodies F) (a b : Nat) (r1 r2 : Vec F) : Vec F :=
  ((r2.perp.mult (h b).w).add (h b).v).sub ((r1.perp.mult (h a).w).add (h a).v)
/-- /repo/everything.go:348-350 `normal_relative_velocity`. -/
def normalRelVel (h : Bodies F) (a b : Nat) (r1 r2 n : Vec F) : F := (relVel h a b r1 r2).dot n
/-- /repo/everything.go:339-342 `k_scalar_body`. -/
def kScalarBody (b : Body F) (r n : Vec F) : F :=
  let rcn := r.cross n
  b.m_inv + b.i_inv * rcn * rcn
/-- /repo/everything.go:344-346 `k_scalar`. -/
def kScalar (h : Bodies F) (a b : Nat) (r1 r2 n : Vec F) : F :=
  kScalarBody (h a) r1 n + kScalarBody (h b) r2 n

/-- /repo/everything.go:195-197 `Mat2x2`. -/
structure Mat2 (F : Type) where
  a : F
  b : F
  c : F
  d : F
/-- /repo/everything.go:200-202 `Transform`. -/
def Mat2.transform (m : Mat2 F) (v : Vec F) : Vec F := ⟨v.x * m.a + v.y * m.b, v.x * m.c + v.y * m.d⟩

/-- /repo/everything.go:352-390 `k_tensor` (the assert `det != 0` is a precondition). -/
def kTensor (h : Bodies F) (a b : Nat) (r1 r2 : Vec F) : Mat2 F :=
  let m_sum := (h a).m_inv + (h b).m_inv
  let k11 := m_sum
  let k12 : F := 0
  let k21 : F := 0
  let k22 := m_sum
  let a_i_inv := (h a).i_inv
  let r1xsq := r1.x * r1.x * a_i_inv
  let r1ysq := r1.y * r1.y * a_i_inv
  let r1nxy := -r1.x * r1.y * a_i_inv
  let k11 := k11 + r1ysq
  let k12 := k12 + r1nxy
  let k21 := k21 + r1nxy
  let k22 := k22 + r1xsq
  let b_i_inv := (h b).i_inv
  let r2xsq := r2.x * r2.x * b_i_inv
  let r2ysq := r2.y * r2.y * b_i_inv
  let r2nxy := -r2.x * r2.y * b_i_inv
  let k11 := k11 + r2ysq
  let k12 := k12 + r2nxy
  let k21 := k21 + r2nxy
  let k22 := k22 + r2xsq
  let det := k11 * k22 - k12 * k21
  let det_inv := 1 / det
  ⟨k22 * det_inv, -k12 * det_inv, -k21 * det_inv, k11 * det_inv⟩

/-- /repo/everything.go:392-394 `bias_coef`. -/
def biasCoef (errorBias dt : F) : F := 1 - pow errorBias dt

/-! ## Contacts -/

/-- /repo/everything.go:85-95 `Contact`. -/
structure Contact (F : Type) where
  r1 : Vec F
  r2 : Vec F
  nMass : F
  tMass : F
  bounce : F
  jnAcc : F
  jtAcc : F
  jBias : F
  bias : F
  hash : Nat

/-- /repo/arbiter.go:11-32 `Arbiter`: the fields used by the solver. `first` is
`state == CP_ARBITER_STATE_FIRST_COLLISION`. -/
structure Arb (F : Type) where
  e : F
  u : F
  surface_vr : Vec F
  a : Nat
  b : Nat
  contacts : List (Contact F)
  n : Vec F
  first : Bool

namespace Arb
/-- /repo/arbiter.go:113-123 `ApplyCachedImpulse`. -/
def applyCached (h : Bodies F) (arb : Arb F) (dt_coef : F) : Bodies F :=
  if arb.first then h
  else arb.contacts.foldl (fun h c =>
    let j := arb.n.rotate ⟨c.jnAcc, c.jtAcc⟩
    applyImpulses h arb.a arb.b c.r1 c.r2 (j.mult dt_coef)) h

/-- One pass of the loop body at /repo/arbiter.go:132-161. -/
def applyContact (arb : Arb F) (h : Bodies F) (con : Contact F) : Bodies F × Contact F :=
  let n := arb.n
  let r1 := con.r1
  let r2 := con.r2
  let vb1 := (h arb.a).v_bias.add (r1.perp.mult (h arb.a).w_bias)
  let vb2 := (h arb.b).v_bias.add (r2.perp.mult (h arb.b).w_bias)
  let vr := (relVel h arb.a arb.b r1 r2).add arb.surface_vr
  let vbn := (vb2.sub vb1).dot n
  let vrn := vr.dot n
  let vrt := vr.dot n.perp
  let jbn := (con.bias - vbn) * con.nMass
  let jbnOld := con.jBias
  let jBias := max (jbnOld + jbn) 0
  let jn := -(con.bounce + vrn) * con.nMass
  let jnOld := con.jnAcc
  let jnAcc := max (jnOld + jn) 0
  let jtMax := arb.u * jnAcc
  let jt := -vrt * con.tMass
  let jtOld := con.jtAcc
  let jtAcc := clamp (jtOld + jt) (-jtMax) jtMax
  let h := applyBiasImpulses h arb.a arb.b r1 r2 (n.mult (jBias - jbnOld))
  let h := applyImpulses h arb.a arb.b r1 r2 (n.rotate ⟨jnAcc - jnOld, jtAcc - jtOld⟩)
  (h, { con with jBias := jBias, jnAcc := jnAcc, jtAcc := jtAcc })

/-- The loop over the contacts at /repo/arbiter.go:132-161. -/
def applyLoop (arb : Arb F) : Bodies F → List (Contact F) → Bodies F × List (Contact F)
  | h, [] => (h, [])
  | h, c :: cs =>
    let (h, c) := arb.applyContact h c
    let (h, cs) := applyLoop arb h cs
    (h, c :: cs)

/-- /repo/arbiter.go:125-162 `ApplyImpulse`. -/
def applyImpulse (h : Bodies F) (arb : Arb F) : Bodies F × Arb F :=
  let (h, cs) := arb.applyLoop h arb.contacts
  (h, { arb with contacts := cs })

/-- /repo/arbiter.go:168-189 `PreStep`. -/
def preStep (h : Bodies F) (arb : Arb F) (dt slop bias : F) : Arb F :=
  let n := arb.n
  let bodyDelta := (h arb.b).p.sub (h arb.a).p
  { arb with contacts := arb.contacts.map fun con =>
    let dist := ((con.r2.sub con.r1).add bodyDelta).dot n
    { con with
      nMass := 1 / kScalar h arb.a arb.b con.r1 con.r2 n
      tMass := 1 / kScalar h arb.a arb.b con.r1 con.r2 n.perp
      bias := -bias * min 0 (dist + slop) / dt
      jBias := 0
      bounce := normalRelVel h arb.a arb.b con.r1 con.r2 n * arb.e } }

/-- The contact part of /repo/arbiter.go:191-227 (`Update`): the freshly generated contacts, whose
`r1`, `r2` are absolute, take over the accumulated impulses of the old contacts with the same hash
(the last one wins). Handler selection is modelled in Model/Handlers.lean. -/
def updateContacts (h : Bodies F) (a b : Nat) (old fresh : List (Contact F)) : List (Contact F) :=
  fresh.map fun con =>
    let con := { con with r1 := con.r1.sub (h a).p, r2 := con.r2.sub (h b).p, jnAcc := 0, jtAcc := 0 }
    old.foldl (fun con old =>
      if con.hash = old.hash then { con with jnAcc := old.jnAcc, jtAcc := old.jtAcc } else con) con

/-- /repo/arbiter.go:191-260 `Update`, without the handler lookup. `a`, `b` are the bodies of the two
shapes, `e1 e2 u1 u2 s1 s2` their elasticities, frictions and surface velocities. -/
def update (h : Bodies F) (arb : Arb F) (a b : Nat) (n : Vec F) (fresh : List (Contact F))
    (e1 e2 u1 u2 : F) (s1 s2 : Vec F) (cached : Bool) : Arb F :=
  let surfaceVr := s2.sub s1
  { arb with
    a := a, b := b
    contacts := updateContacts h a b arb.contacts fresh
    n := n
    e := e1 * e2
    u := u1 * u2
    surface_vr := surfaceVr.sub (n.mult (surfaceVr.dot n))
    first := arb.first || cached }

/-- /repo/arbiter.go:409-422 `TotalImpulse` (for a state below CACHED), `swapped` as stored. -/
def totalImpulse (arb : Arb F) (swapped : Bool) : Vec F :=
  let sum := arb.contacts.foldl (fun s c => s.add (arb.n.rotate ⟨c.jnAcc, c.jtAcc⟩)) ⟨0, 0⟩
  if swapped then sum else sum.neg
end Arb

/-! ## Joints -/

/-- /repo/constraint.go:15-29 `Constraint`: the fields used by the solver. -/
structure Con (F : Type) where
  a : Nat
  b : Nat
  maxForce : F
  errorBias : F
  maxBias : F

/-- World offset of a body-local anchor from the centre of gravity,
`body.transform.Vect(anchor.Sub(body.cog))` (e.g. /repo/pinjoint.go:46-47). -/
def anchorOffset (b : Body F) (anchor : Vec F) : Vec F := b.transform.vect (anchor.sub b.cog)

/-- /repo/pinjoint.go:5-12 `PinJoint`. -/
structure PinJoint (F : Type) extends Con F where
  anchorA : Vec F
  anchorB : Vec F
  dist : F
  r1 : Vec F
  r2 : Vec F
  n : Vec F
  nMass : F
  jnAcc : F
  bias : F

namespace PinJoint
/-- /repo/pinjoint.go:42-61 `PreStep`. -/
def preStep (h : Bodies F) (j : PinJoint F) (dt : F) : Bodies F × PinJoint F :=
  let r1 := anchorOffset (h j.a) j.anchorA
  let r2 := anchorOffset (h j.b) j.anchorB
  let delta := (h j.b).p.add (r2.sub ((h j.a).p.add r1))
  let dist := delta.length
  let n := if dist ≠ 0 then delta.mult (1 / dist) else delta.mult (1 / maxFloat)
  (h, { j with
    r1 := r1, r2 := r2, n := n
    nMass := 1 / kScalar h j.a j.b r1 r2 n
    bias := clamp (-biasCoef j.errorBias dt * (dist - j.dist) / dt) (-j.maxBias) j.maxBias })
/-- /repo/pinjoint.go:63-66 `ApplyCachedImpulse`. -/
def applyCached (h : Bodies F) (j : PinJoint F) (c : F) : Bodies F × PinJoint F :=
  (applyImpulses h j.a j.b j.r1 j.r2 (j.n.mult (j.jnAcc * c)), j)
/-- /repo/pinjoint.go:68-83 `ApplyImpulse`. -/
def applyImpulse (h : Bodies F) (j : PinJoint F) (dt : F) : Bodies F × PinJoint F :=
  let vrn := normalRelVel h j.a j.b j.r1 j.r2 j.n
  let jnMax := j.maxForce * dt
  let jn := (j.bias - vrn) * j.nMass
  let jnAcc := clamp (j.jnAcc + jn) (-jnMax) jnMax
  let jn := jnAcc - j.jnAcc
  (applyImpulses h j.a j.b j.r1 j.r2 (j.n.mult jn), { j with jnAcc := jnAcc })
/-- /repo/pinjoint.go:85-87 `GetImpulse`. -/
def getImpulse (j : PinJoint F) : F := fabs j.jnAcc
end PinJoint

/-- /repo/slidejoint.go:5-15 `SlideJoint`. -/
structure SlideJoint (F : Type) extends Con F where
  anchorA : Vec F
  anchorB : Vec F
  min : F
  max : F
  r1 : Vec F
  r2 : Vec F
  n : Vec F
  nMass : F
  jnAcc : F
  bias : F

namespace SlideJoint
/-- /repo/slidejoint.go:29-56 `PreStep`. -/
def preStep (h : Bodies F) (j : SlideJoint F) (dt : F) : Bodies F × SlideJoint F :=
  let r1 := anchorOffset (h j.a) j.anchorA
  let r2 := anchorOffset (h j.b) j.anchorB
  let delta := ((h j.b).p.add r2).sub ((h j.a).p.add r1)
  let dist := delta.length
  let (pdist, n, jnAcc) : F × Vec F × F :=
    if j.max < dist then (dist - j.max, delta.normalize, j.jnAcc)
    else if dist < j.min then (j.min - dist, delta.normalize.neg, j.jnAcc)
    else (0, ⟨0, 0⟩, 0)
  (h, { j with
    r1 := r1, r2 := r2, n := n, jnAcc := jnAcc
    nMass := 1 / kScalar h j.a j.b r1 r2 n
    bias := clamp (-biasCoef j.errorBias dt * pdist / dt) (-j.maxBias) j.maxBias })
/-- /repo/slidejoint.go:58-64 `ApplyCachedImpulse`. -/
def applyCached (h : Bodies F) (j : SlideJoint F) (c : F) : Bodies F × SlideJoint F :=
  (applyImpulses h j.a j.b j.r1 j.r2 (j.n.mult (j.jnAcc * c)), j)
/-- /repo/slidejoint.go:66-86 `ApplyImpulse`. -/
def applyImpulse (h : Bodies F) (j : SlideJoint F) (dt : F) : Bodies F × SlideJoint F :=
  if j.n.x = 0 ∧ j.n.y = 0 then (h, j)
  else
    let vrn := (relVel h j.a j.b j.r1 j.r2).dot j.n
    let jn := (j.bias - vrn) * j.nMass
    let jnAcc := clamp (j.jnAcc + jn) (-j.maxForce * dt) 0
    let jn := jnAcc - j.jnAcc
    (applyImpulses h j.a j.b j.r1 j.r2 (j.n.mult jn), { j with jnAcc := jnAcc })
/-- /repo/slidejoint.go:88-90 `GetImpulse`. -/
def getImpulse (j : SlideJoint F) : F := fabs j.jnAcc
end SlideJoint

/-- /repo/pivotjoint.go:3-11 `PivotJoint`. -/
structure PivotJoint (F : Type) extends Con F where
  anchorA : Vec F
  anchorB : Vec F
  r1 : Vec F
  r2 : Vec F
  k : Mat2 F
  jAcc : Vec F
  bias : Vec F

namespace PivotJoint
/-- /repo/pivotjoint.go:43-56 `PreStep`. -/
def preStep (h : Bodies F) (j : PivotJoint F) (dt : F) : Bodies F × PivotJoint F :=
  let r1 := anchorOffset (h j.a) j.anchorA
  let r2 := anchorOffset (h j.b) j.anchorB
  let delta := ((h j.b).p.add r2).sub ((h j.a).p.add r1)
  (h, { j with
    r1 := r1, r2 := r2
    k := kTensor h j.a j.b r1 r2
    bias := (delta.mult (-biasCoef j.errorBias dt / dt)).clampLen j.maxBias })
/-- /repo/pivotjoint.go:58-60 `ApplyCachedImpulse`. -/
def applyCached (h : Bodies F) (j : PivotJoint F) (c : F) : Bodies F × PivotJoint F :=
  (applyImpulses h j.a j.b j.r1 j.r2 (j.jAcc.mult c), j)
/-- /repo/pivotjoint.go:62-79 `ApplyImpulse`. -/
def applyImpulse (h : Bodies F) (j : PivotJoint F) (dt : F) : Bodies F × PivotJoint F :=
  let vr := relVel h j.a j.b j.r1 j.r2
  let d := j.k.transform (j.bias.sub vr)
  let jAcc := (j.jAcc.add d).clampLen (j.maxForce * dt)
  let d := jAcc.sub j.jAcc
  (applyImpulses h j.a j.b j.r1 j.r2 d, { j with jAcc := jAcc })
/-- /repo/pivotjoint.go:81-83 `GetImpulse`. -/
def getImpulse (j : PivotJoint F) : F := j.jAcc.length
end PivotJoint

/-- /repo/groovejoint.go:3-15 `GrooveJoint`. -/
structure GrooveJoint (F : Type) extends Con F where
  grooveN : Vec F
  grooveA : Vec F
  grooveB : Vec F
  anchorB : Vec F
  grooveTn : Vec F
  clamp : F
  r1 : Vec F
  r2 : Vec F
  k : Mat2 F
  jAcc : Vec F
  bias : Vec F

namespace GrooveJoint
/-- /repo/groovejoint.go:29-59 `PreStep`. -/
def preStep (h : Bodies F) (j : GrooveJoint F) (dt : F) : Bodies F × GrooveJoint F :=
  let ta := (h j.a).transform.point j.grooveA
  let tb := (h j.a).transform.point j.grooveB
  let n := (h j.a).transform.vect j.grooveN
  let d := ta.dot n
  let r2 := anchorOffset (h j.b) j.anchorB
  let td := ((h j.b).p.add r2).cross n
  let (cl, r1) : F × Vec F :=
    if td ≤ ta.cross n then (1, ta.sub (h j.a).p)
    else if tb.cross n ≤ td then (lit (-1), tb.sub (h j.a).p)
    else (0, ((n.perp.mult (-td)).add (n.mult d)).sub (h j.a).p)
  let delta := ((h j.b).p.add r2).sub ((h j.a).p.add r1)
  (h, { j with
    grooveTn := n, clamp := cl, r1 := r1, r2 := r2
    k := kTensor h j.a j.b r1 r2
    bias := (delta.mult (-biasCoef j.errorBias dt / dt)).clampLen j.maxBias })
/-- /repo/groovejoint.go:61-66 `ApplyCachedImpulse`. -/
def applyCached (h : Bodies F) (j : GrooveJoint F) (c : F) : Bodies F × GrooveJoint F :=
  (applyImpulses h j.a j.b j.r1 j.r2 (j.jAcc.mult c), j)
/-- /repo/groovejoint.go:68-77 `grooveConstrain`. -/
def grooveConstrain (j : GrooveJoint F) (imp : Vec F) (dt : F) : Vec F :=
  let n := j.grooveTn
  let jClamp := if 0 < j.clamp * imp.cross n then imp else imp.project n
  jClamp.clampLen (j.maxForce * dt)
/-- /repo/groovejoint.go:79-94 `ApplyImpulse`. -/
def applyImpulse (h : Bodies F) (j : GrooveJoint F) (dt : F) : Bodies F × GrooveJoint F :=
  let vr := relVel h j.a j.b j.r1 j.r2
  let d := j.k.transform (j.bias.sub vr)
  let jAcc := j.grooveConstrain (j.jAcc.add d) dt
  let d := jAcc.sub j.jAcc
  (applyImpulses h j.a j.b j.r1 j.r2 d, { j with jAcc := jAcc })
/-- /repo/groovejoint.go:96-98 `GetImpulse`. -/
def getImpulse (j : GrooveJoint F) : F := j.jAcc.length
end GrooveJoint

/-- /repo/dampedspring.go:7-21 `DampedSpring`. `force` is `SpringForceFunc` (any function of the
distance; the default is `DefaultSpringForce`). -/
structure DampedSpring (F : Type) extends Con F where
  anchorA : Vec F
  anchorB : Vec F
  restLength : F
  stiffness : F
  damping : F
  force : F → F
  targetVrn : F
  vCoef : F
  r1 : Vec F
  r2 : Vec F
  nMass : F
  n : Vec F
  jAcc : F

namespace DampedSpring
/-- /repo/dampedspring.go:37-62 `PreStep` (the assert `k != 0` is a precondition). -/
def preStep (h : Bodies F) (j : DampedSpring F) (dt : F) : Bodies F × DampedSpring F :=
  let r1 := anchorOffset (h j.a) j.anchorA
  let r2 := anchorOffset (h j.b) j.anchorB
  let delta := ((h j.b).p.add r2).sub ((h j.a).p.add r1)
  let dist := delta.length
  let n := if dist ≠ 0 then delta.mult (1 / dist) else delta.mult (1 / maxFloat)
  let k := kScalar h j.a j.b r1 r2 n
  let jAcc := j.force dist * dt
  (applyImpulses h j.a j.b r1 r2 (n.mult jAcc), { j with
    r1 := r1, r2 := r2, n := n
    nMass := 1 / k
    targetVrn := 0
    vCoef := 1 - exp (-j.damping * dt * k)
    jAcc := jAcc })
/-- /repo/dampedspring.go:64-66 `ApplyCachedImpulse`. -/
def applyCached (h : Bodies F) (j : DampedSpring F) (_c : F) : Bodies F × DampedSpring F := (h, j)
/-- /repo/dampedspring.go:68-84 `ApplyImpulse`. -/
def applyImpulse (h : Bodies F) (j : DampedSpring F) (_dt : F) : Bodies F × DampedSpring F :=
  let vrn := normalRelVel h j.a j.b j.r1 j.r2 j.n
  let vDamp := (j.targetVrn - vrn) * j.vCoef
  let jDamp := vDamp * j.nMass
  (applyImpulses h j.a j.b j.r1 j.r2 (j.n.mult jDamp),
    { j with targetVrn := vrn + vDamp, jAcc := j.jAcc + jDamp })
/-- /repo/dampedspring.go:90-92 `DefaultSpringForce`. -/
def defaultForce (restLength stiffness dist : F) : F := (restLength - dist) * stiffness
/-- /repo/dampedspring.go:86-88 `GetImpulse`. -/
def getImpulse (j : DampedSpring F) : F := j.jAcc
end DampedSpring

/-- /repo/dampedrotaryspring.go:5-13 `DampedRotarySpring`; `torque` is `SpringTorqueFunc`. -/
structure DampedRotarySpring (F : Type) extends Con F where
  restAngle : F
  stiffness : F
  damping : F
  torque : F → F
  targetWrn : F
  wCoef : F
  iSum : F
  jAcc : F

namespace DampedRotarySpring
/-- /repo/dampedrotaryspring.go:30-45 `PreStep`. -/
def preStep (h : Bodies F) (j : DampedRotarySpring F) (dt : F) : Bodies F × DampedRotarySpring F :=
  let moment := (h j.a).i_inv + (h j.b).i_inv
  let jSpring := j.torque ((h j.a).a - (h j.b).a) * dt
  (applySpin h j.a j.b (fun A => jSpring * A.i_inv) (fun B => jSpring * B.i_inv), { j with
    iSum := 1 / moment
    wCoef := 1 - exp (-j.damping * dt * moment)
    targetWrn := 0
    jAcc := jSpring })
/-- /repo/dampedrotaryspring.go:47-49 `ApplyCachedImpulse`. -/
def applyCached (h : Bodies F) (j : DampedRotarySpring F) (_c : F) :
    Bodies F × DampedRotarySpring F := (h, j)
/-- /repo/dampedrotaryspring.go:51-65 `ApplyImpulse`: `a.w += jDamp*a.i_inv; b.w -= jDamp*b.i_inv`. -/
def applyImpulse (h : Bodies F) (j : DampedRotarySpring F) (_dt : F) :
    Bodies F × DampedRotarySpring F :=
  let wrn := (h j.a).w - (h j.b).w
  let wDamp := (j.targetWrn - wrn) * j.wCoef
  let jDamp := wDamp * j.iSum
  let h1 := h.set j.a { h j.a with w := (h j.a).w + jDamp * (h j.a).i_inv }
  let h2 := h1.set j.b { h1 j.b with w := (h1 j.b).w - jDamp * (h1 j.b).i_inv }
  (h2, { j with targetWrn := wrn + wDamp, jAcc := j.jAcc + jDamp })
/-- /repo/dampedrotaryspring.go:15-17 `defaultSpringTorque`. -/
def defaultTorque (restAngle stiffness relativeAngle : F) : F := (relativeAngle - restAngle) * stiffness
/-- /repo/dampedrotaryspring.go:67-69 `GetImpulse`. -/
def getImpulse (j : DampedRotarySpring F) : F := j.jAcc
end DampedRotarySpring

/-- /repo/gearjoint.go:5-13 `GearJoint`. -/
structure GearJoint (F : Type) extends Con F where
  phase : F
  ratio : F
  ratio_inv : F
  iSum : F
  bias : F
  jAcc : F

namespace GearJoint
/-- /repo/gearjoint.go:15-25 `NewGearJoint` and /repo/constraint.go:31-46 `NewConstraint`. -/
def new (a b : Nat) (phase ratio : F) : GearJoint F :=
  { a := a, b := b, maxForce := maxFloat, errorBias := pow (1 - lit (1 / 10)) (lit 60),
    maxBias := maxFloat, phase := phase, ratio := ratio, ratio_inv := 1 / ratio,
    iSum := 0, bias := 0, jAcc := 0 }
/-- /repo/gearjoint.go:27-37 `PreStep`. -/
def preStep (h : Bodies F) (j : GearJoint F) (dt : F) : Bodies F × GearJoint F :=
  (h, { j with
    iSum := 1 / ((h j.a).i_inv * j.ratio_inv + j.ratio * (h j.b).i_inv)
    bias := CP.clamp (-biasCoef j.errorBias dt * ((h j.b).a * j.ratio - (h j.a).a - j.phase) / dt)
      (-j.maxBias) j.maxBias })
/-- /repo/gearjoint.go:39-46 `ApplyCachedImpulse`. -/
def applyCached (h : Bodies F) (j : GearJoint F) (c : F) : Bodies F × GearJoint F :=
  let i := j.jAcc * c
  (applySpin h j.a j.b (fun A => i * A.i_inv * j.ratio_inv) (fun B => i * B.i_inv), j)
/-- /repo/gearjoint.go:48-66 `ApplyImpulse`. -/
def applyImpulse (h : Bodies F) (j : GearJoint F) (dt : F) : Bodies F × GearJoint F :=
  let wr := (h j.b).w * j.ratio - (h j.a).w
  let jMax := j.maxForce * dt
  let i := (j.bias - wr) * j.iSum
  let jAcc := CP.clamp (j.jAcc + i) (-jMax) jMax
  let i := jAcc - j.jAcc
  (applySpin h j.a j.b (fun A => i * A.i_inv * j.ratio_inv) (fun B => i * B.i_inv),
    { j with jAcc := jAcc })
/-- /repo/gearjoint.go:68-70 `GetImpulse`. -/
def getImpulse (j : GearJoint F) : F := fabs j.jAcc
end GearJoint

/-- /repo/ratchetjoint.go:5-11 `RatchetJoint`. -/
structure RatchetJoint (F : Type) extends Con F where
  angle : F
  phase : F
  ratchet : F
  iSum : F
  bias : F
  jAcc : F

/-- `math.Floor`, through the integer conversion. -/
def ffloor (x : F) : F :=
  let t := ofInt (trunc x)
  if x < t then t - 1 else t

namespace RatchetJoint
/-- /repo/ratchetjoint.go:28-54 `PreStep`. -/
def preStep (h : Bodies F) (j : RatchetJoint F) (dt : F) : Bodies F × RatchetJoint F :=
  let delta := (h j.b).a - (h j.a).a
  let diff := j.angle - delta
  let (pdist, angle) : F × F :=
    if 0 < diff * j.ratchet then (diff, j.angle)
    else (0, ffloor ((delta - j.phase) / j.ratchet) * j.ratchet + j.phase)
  let bias := CP.clamp (-biasCoef j.errorBias dt * pdist / dt) (-j.maxBias) j.maxBias
  (h, { j with
    angle := angle
    iSum := 1 / ((h j.a).i_inv + (h j.b).i_inv)
    bias := bias
    jAcc := if bias = 0 then 0 else j.jAcc })
/-- /repo/ratchetjoint.go:56-63 `ApplyCachedImpulse`. -/
def applyCached (h : Bodies F) (j : RatchetJoint F) (c : F) : Bodies F × RatchetJoint F :=
  let i := j.jAcc * c
  (applySpin h j.a j.b (fun A => i * A.i_inv) (fun B => i * B.i_inv), j)
/-- /repo/ratchetjoint.go:65-85 `ApplyImpulse`. -/
def applyImpulse (h : Bodies F) (j : RatchetJoint F) (dt : F) : Bodies F × RatchetJoint F :=
  if j.bias = 0 then (h, j)
  else
    let wr := (h j.b).w - (h j.a).w
    let jMax := j.maxForce * dt
    let i := -(j.bias + wr) * j.iSum
    let jAcc := CP.clamp ((j.jAcc + i) * j.ratchet) 0 (jMax * fabs j.ratchet) / j.ratchet
    let i := jAcc - j.jAcc
    (applySpin h j.a j.b (fun A => i * A.i_inv) (fun B => i * B.i_inv), { j with jAcc := jAcc })
/-- /repo/ratchetjoint.go:87-89 `GetImpulse`. -/
def getImpulse (j : RatchetJoint F) : F := fabs j.jAcc
end RatchetJoint

/-- /repo/rotarylimitjoint.go:5-11 `RotaryLimitJoint`. -/
structure RotaryLimitJoint (F : Type) extends Con F where
  min : F
  max : F
  iSum : F
  bias : F
  jAcc : F

namespace RotaryLimitJoint
/-- /repo/rotarylimitjoint.go:22-42 `PreStep`. -/
def preStep (h : Bodies F) (j : RotaryLimitJoint F) (dt : F) : Bodies F × RotaryLimitJoint F :=
  let dist := (h j.b).a - (h j.a).a
  let pdist := if j.max < dist then j.max - dist else if dist < j.min then j.min - dist else 0
  let bias := CP.clamp (-biasCoef j.errorBias dt * pdist / dt) (-j.maxBias) j.maxBias
  (h, { j with
    iSum := 1 / ((h j.a).i_inv + (h j.b).i_inv)
    bias := bias
    jAcc := if bias = 0 then 0 else j.jAcc })
/-- /repo/rotarylimitjoint.go:44-51 `ApplyCachedImpulse`. -/
def applyCached (h : Bodies F) (j : RotaryLimitJoint F) (c : F) : Bodies F × RotaryLimitJoint F :=
  let i := j.jAcc * c
  (applySpin h j.a j.b (fun A => i * A.i_inv) (fun B => i * B.i_inv), j)
/-- /repo/rotarylimitjoint.go:53-76 `ApplyImpulse`. -/
def applyImpulse (h : Bodies F) (j : RotaryLimitJoint F) (dt : F) : Bodies F × RotaryLimitJoint F :=
  if j.bias = 0 then (h, j)
  else
    let wr := (h j.b).w - (h j.a).w
    let jMax := j.maxForce * dt
    let i := -(j.bias + wr) * j.iSum
    let jAcc := if j.bias < 0 then CP.clamp (j.jAcc + i) 0 jMax
      else CP.clamp (j.jAcc + i) (-jMax) 0
    let i := jAcc - j.jAcc
    (applySpin h j.a j.b (fun A => i * A.i_inv) (fun B => i * B.i_inv), { j with jAcc := jAcc })
/-- /repo/rotarylimitjoint.go:78-80 `GetImpulse`. -/
def getImpulse (j : RotaryLimitJoint F) : F := fabs j.jAcc
end RotaryLimitJoint

/-- /repo/simplemotor.go:5-11 `SimpleMotor`. -/
structure SimpleMotor (F : Type) extends Con F where
  rate : F
  iSum : F
  jAcc : F

namespace SimpleMotor
/-- /repo/simplemotor.go:21-27 `PreStep`. -/
def preStep (h : Bodies F) (j : SimpleMotor F) (_dt : F) : Bodies F × SimpleMotor F :=
  (h, { j with iSum := 1 / ((h j.a).i_inv + (h j.b).i_inv) })
/-- /repo/simplemotor.go:29-36 `ApplyCachedImpulse`. -/
def applyCached (h : Bodies F) (j : SimpleMotor F) (c : F) : Bodies F × SimpleMotor F :=
  let i := j.jAcc * c
  (applySpin h j.a j.b (fun A => i * A.i_inv) (fun B => i * B.i_inv), j)
/-- /repo/simplemotor.go:38-53 `ApplyImpulse`. -/
def applyImpulse (h : Bodies F) (j : SimpleMotor F) (dt : F) : Bodies F × SimpleMotor F :=
  let wr := (h j.b).w - (h j.a).w + j.rate
  let jMax := j.maxForce * dt
  let i := -wr * j.iSum
  let jAcc := CP.clamp (j.jAcc + i) (-jMax) jMax
  let i := jAcc - j.jAcc
  (applySpin h j.a j.b (fun A => i * A.i_inv) (fun B => i * B.i_inv), { j with jAcc := jAcc })
/-- /repo/simplemotor.go:55-57 `GetImpulse`. -/
def getImpulse (j : SimpleMotor F) : F := fabs j.jAcc
end SimpleMotor

/-- /repo/constraint.go:5-10 `Constrainer`: the joint classes. -/
inductive Joint (F : Type)
  | pin (j : PinJoint F)
  | slide (j : SlideJoint F)
  | pivot (j : PivotJoint F)
  | groove (j : GrooveJoint F)
  | spring (j : DampedSpring F)
  | rotarySpring (j : DampedRotarySpring F)
  | gear (j : GearJoint F)
  | ratchet (j : RatchetJoint F)
  | rotaryLimit (j : RotaryLimitJoint F)
  | motor (j : SimpleMotor F)

namespace Joint
/-- Dynamic dispatch of `Class.PreStep` (/repo/constraint.go:6). -/
def preStep (h : Bodies F) (j : Joint F) (dt : F) : Bodies F × Joint F :=
  match j with
  | pin j => (j.preStep h dt).map id pin
  | slide j => (j.preStep h dt).map id slide
  | pivot j => (j.preStep h dt).map id pivot
  | groove j => (j.preStep h dt).map id groove
  | spring j => (j.preStep h dt).map id spring
  | rotarySpring j => (j.preStep h dt).map id rotarySpring
  | gear j => (j.preStep h dt).map id gear
  | ratchet j => (j.preStep h dt).map id ratchet
  | rotaryLimit j => (j.preStep h dt).map id rotaryLimit
  | motor j => (j.preStep h dt).map id motor
/-- Dynamic dispatch of `Class.ApplyCachedImpulse` (/repo/constraint.go:7). -/
def applyCached (h : Bodies F) (j : Joint F) (c : F) : Bodies F × Joint F :=
  match j with
  | pin j => (j.applyCached h c).map id pin
  | slide j => (j.applyCached h c).map id slide
  | pivot j => (j.applyCached h c).map id pivot
  | groove j => (j.applyCached h c).map id groove
  | spring j => (j.applyCached h c).map id spring
  | rotarySpring j => (j.applyCached h c).map id rotarySpring
  | gear j => (j.applyCached h c).map id gear
  | ratchet j => (j.applyCached h c).map id ratchet
  | rotaryLimit j => (j.applyCached h c).map id rotaryLimit
  | motor j => (j.applyCached h c).map id motor
/-- Dynamic dispatch of `Class.ApplyImpulse` (/repo/constraint.go:8). -/
def applyImpulse (h : Bodies F) (j : Joint F) (dt : F) : Bodies F × Joint F :=
  match j with
  | pin j => (j.applyImpulse h dt).map id pin
  | slide j => (j.applyImpulse h dt).map id slide
  | pivot j => (j.applyImpulse h dt).map id pivot
  | groove j => (j.applyImpulse h dt).map id groove
  | spring j => (j.applyImpulse h dt).map id spring
  | rotarySpring j => (j.applyImpulse h dt).map id rotarySpring
  | gear j => (j.applyImpulse h dt).map id gear
  | ratchet j => (j.applyImpulse h dt).map id ratchet
  | rotaryLimit j => (j.applyImpulse h dt).map id rotaryLimit
  | motor j => (j.applyImpulse h dt).map id motor
/-- Dynamic dispatch of `Class.GetImpulse` (/repo/constraint.go:9). -/
def getImpulse (j : Joint F) : F :=
  match j with
  | pin j => j.getImpulse
  | slide j => j.getImpulse
  | pivot j => j.getImpulse
  | groove j => j.getImpulse
  | spring j => j.getImpulse
  | rotarySpring j => j.getImpulse
  | gear j => j.getImpulse
  | ratchet j => j.getImpulse
  | rotaryLimit j => j.getImpulse
  | motor j => j.getImpulse
/-- The embedded `*Constraint` (its bodies and limits). -/
def con (j : Joint F) : Con F :=
  match j with
  | pin j => j.toCon
  | slide j => j.toCon
  | pivot j => j.toCon
  | groove j => j.toCon
  | spring j => j.toCon
  | rotarySpring j => j.toCon
  | gear j => j.toCon
  | ratchet j => j.toCon
  | rotaryLimit j => j.toCon
  | motor j => j.toCon
end Joint

/-! ## The solver part of `Space.Step` -/

/-- The solver's state: bodies, joints and active arbiters
(/repo/space.go:719-783 works on `space.dynamicBodies`, `space.constraints`, `space.arbiters`). -/
structure Solver (F : Type) where
  bodies : Bodies F
  joints : Nat → Joint F
  arbs : Nat → Arb F

/-- One elementary action of the solver phase of `Space.Step`. -/
inductive SolverOp (F : Type)
  | arbPreStep (k : Nat) (dt slop bias : F)
  | jointPreStep (k : Nat) (dt : F)
  | integrate (body : Nat) (gravity : Vec F) (damping dt : F)
  | arbCached (k : Nat) (dt_coef : F)
  | jointCached (k : Nat) (dt_coef : F)
  | arbApply (k : Nat)
  | jointApply (k : Nat) (dt : F)

namespace Solver
/-- Storing a joint. -/
def setJoint (s : Solver F) (h : Bodies F) (k : Nat) (j : Joint F) : Solver F :=
  { s with bodies := h, joints := fun i => if i = k then j else s.joints i }
/-- Storing an arbiter. -/
def setArb (s : Solver F) (h : Bodies F) (k : Nat) (x : Arb F) : Solver F :=
  { s with bodies := h, arbs := fun i => if i = k then x else s.arbs i }

/-- Executing one action. -/
def step (s : Solver F) : SolverOp F → Solver F
  | .arbPreStep k dt slop bias => s.setArb s.bodies k ((s.arbs k).preStep s.bodies dt slop bias)
  | .jointPreStep k dt =>
    let r := (s.joints k).preStep s.bodies dt
    s.setJoint r.1 k r.2
  | .integrate k g d dt => { s with bodies := s.bodies.set k ((s.bodies k).updateVelocity g d dt) }
  | .arbCached k c => { s with bodies := (s.arbs k).applyCached s.bodies c }
  | .jointCached k c =>
    let r := (s.joints k).applyCached s.bodies c
    s.setJoint r.1 k r.2
  | .arbApply k =>
    let r := (s.arbs k).applyImpulse s.bodies
    s.setArb r.1 k r.2
  | .jointApply k dt =>
    let r := (s.joints k).applyImpulse s.bodies dt
    s.setJoint r.1 k r.2

/-- Executing a list of actions. -/
def run (s : Solver F) (ops : List (SolverOp F)) : Solver F := ops.foldl step s

/-- The solver phase of /repo/space.go:719-770 (`Step`), after the collision phase: the actions for
the active arbiters `arbs`, the constraints `joints` and the dynamic bodies `dyn`, in program order.
`prev_dt` is the previous time step; user callbacks (PreSolve, PostSolve) are not modelled. -/
def stepProgram (arbs joints dyn : List Nat) (iterations : Nat) (dt prev_dt slop collisionBias
    damping : F) (gravity : Vec F) : List (SolverOp F) :=
  let bc := 1 - pow collisionBias dt
  let dmp := pow damping dt
  let dt_coef := if prev_dt ≠ 0 then dt / prev_dt else 0
  arbs.map (fun k => .arbPreStep k dt slop bc) ++
  joints.map (fun k => .jointPreStep k dt) ++
  dyn.map (fun k => .integrate k gravity dmp dt) ++
  arbs.map (fun k => .arbCached k dt_coef) ++
  joints.map (fun k => .jointCached k dt_coef) ++
  (List.replicate iterations
    (arbs.map (fun k => SolverOp.arbApply k) ++ joints.map (fun k => SolverOp.jointApply k dt))).flatten
end Solver
end
end CP
