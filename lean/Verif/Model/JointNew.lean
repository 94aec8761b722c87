import Verif.Model.Solver

/-! # Constructors of joints

Bodies are given by their names in the heap `h`; a joint can only be added to a space with two bodies that are not nil
(/repo/space.go:306), so the nil cases of the constructors are not modelled. Fields that the code leaves at Go's zero value
are 0 here. -/

namespace CP
open GoFloat
variable {F : Type} [GoFloat F]

/-- /repo/constraint.go:31-46 `NewConstraint`. -/
def Con.new (a b : Nat) : Con F :=
  { a := a, b := b, maxForce := maxFloat, errorBias := pow (1 - lit (1 / 10)) (lit 60), maxBias := maxFloat }

/-- /repo/pinjoint.go:14-40 `NewPinJoint`. -/
def PinJoint.new (h : Bodies F) (a b : Nat) (anchorA anchorB : Vec F) : PinJoint F :=
  { Con.new a b with
    anchorA := anchorA, anchorB := anchorB
    dist := (((h b).transform.point anchorB).sub ((h a).transform.point anchorA)).length
    r1 := ⟨0, 0⟩, r2 := ⟨0, 0⟩, n := ⟨0, 0⟩, nMass := 0, jnAcc := 0, bias := 0 }

/-- /repo/slidejoint.go:17-27 `NewSlideJoint`. -/
def SlideJoint.new (a b : Nat) (anchorA anchorB : Vec F) (min max : F) : SlideJoint F :=
  { (Con.new a b : Con F) with
    anchorA := anchorA, anchorB := anchorB, min := min, max := max
    r1 := ⟨0, 0⟩, r2 := ⟨0, 0⟩, n := ⟨0, 0⟩, nMass := 0, jnAcc := 0, bias := 0 }

/-- /repo/pivotjoint.go:32-41 `NewPivotJoint2`. -/
def PivotJoint.new2 (a b : Nat) (anchorA anchorB : Vec F) : PivotJoint F :=
  { (Con.new a b : Con F) with
    anchorA := anchorA, anchorB := anchorB
    r1 := ⟨0, 0⟩, r2 := ⟨0, 0⟩, k := ⟨0, 0, 0, 0⟩, jAcc := ⟨0, 0⟩, bias := ⟨0, 0⟩ }

/-- /repo/pivotjoint.go:13-30 `NewPivotJoint`. -/
def PivotJoint.new (h : Bodies F) (a b : Nat) (pivot : Vec F) : PivotJoint F :=
  PivotJoint.new2 a b ((h a).worldToLocal pivot) ((h b).worldToLocal pivot)

/-- /repo/groovejoint.go:17-27 `NewGrooveJoint`. -/
def GrooveJoint.new (a b : Nat) (grooveA grooveB anchorB : Vec F) : GrooveJoint F :=
  { (Con.new a b : Con F) with
    grooveA := grooveA, grooveB := grooveB, grooveN := (grooveB.sub grooveA).normalize.perp, anchorB := anchorB
    grooveTn := ⟨0, 0⟩, clamp := 0
    r1 := ⟨0, 0⟩, r2 := ⟨0, 0⟩, k := ⟨0, 0, 0, 0⟩, jAcc := ⟨0, 0⟩, bias := ⟨0, 0⟩ }

/-- /repo/dampedspring.go:23-35 `NewDampedSpring`. -/
def DampedSpring.new (a b : Nat) (anchorA anchorB : Vec F) (restLength stiffness damping : F) : DampedSpring F :=
  { (Con.new a b : Con F) with
    anchorA := anchorA, anchorB := anchorB, restLength := restLength, stiffness := stiffness, damping := damping
    force := DampedSpring.defaultForce restLength stiffness
    targetVrn := 0, vCoef := 0, r1 := ⟨0, 0⟩, r2 := ⟨0, 0⟩, nMass := 0, n := ⟨0, 0⟩, jAcc := 0 }

/-- /repo/dampedrotaryspring.go:19-28 `NewDampedRotarySpring`. -/
def DampedRotarySpring.new (a b : Nat) (restAngle stiffness damping : F) : DampedRotarySpring F :=
  { (Con.new a b : Con F) with
    restAngle := restAngle, stiffness := stiffness, damping := damping
    torque := DampedRotarySpring.defaultTorque restAngle stiffness
    targetWrn := 0, wCoef := 0, iSum := 0, jAcc := 0 }

/-- /repo/ratchetjoint.go:13-26 `NewRatchetJoint`. -/
def RatchetJoint.new (h : Bodies F) (a b : Nat) (phase ratchet : F) : RatchetJoint F :=
  { (Con.new a b : Con F) with
    angle := (h b).a - (h a).a, phase := phase, ratchet := ratchet, iSum := 0, bias := 0, jAcc := 0 }

/-- /repo/rotarylimitjoint.go:13-20 `NewRotaryLimitJoint`. -/
def RotaryLimitJoint.new (a b : Nat) (min max : F) : RotaryLimitJoint F :=
  { (Con.new a b : Con F) with min := min, max := max, iSum := 0, bias := 0, jAcc := 0 }

/-- /repo/simplemotor.go:13-19 `NewSimpleMotor`. -/
def SimpleMotor.new (a b : Nat) (rate : F) : SimpleMotor F :=
  { (Con.new a b : Con F) with rate := rate, iSum := 0, jAcc := 0 }

end CP
