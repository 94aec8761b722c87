import Verif.Model.Scene

/-! # Specification: which pairs of shapes a step tests

What a program may do with a whole scene, the scenes it can reach, and the pairs that a step must look at. -/

namespace CP
open GoFloat
variable {F : Type} [GoFloat F]

/-- What the program must respect: the preconditions of the operations on the space (`Sp.Op.Allowed`); in a step, polygons
of the space have vertices and position functions, Begin and PreSolve callbacks wake no sleeping body. -/
def SceneOp.Allowed (sc : Scene F) : SceneOp F → Prop
  | .op o _ => (∀ i, o ≠ .step i) ∧ o.Allowed sc.sp
  | .step shapes _ answer i _ =>
      (∀ sh, (sc.sp.shapes sh).inSpace = true → (shapes sh).shp.cls.nonempty = true) ∧
      (∀ b ∈ i.posActs, (sc.sp.bodies b).root = none) ∧
      ∀ x y, ∀ b ∈ (answer x y).beginActs ++ (answer x y).preActs, (sc.sp.bodies b).root = none
  | _ => True

/-- The scenes a program can reach from a new space (`h` gives the hash of a shape). -/
inductive Scene.Reach (h : Obj → Nat) : Scene F → Prop
  | new (n m : Nat) (type : Nat → BType) (shape : Nat → Nat × Bool) (con : Nat → Nat × Nat) (shapes : Nat → QShape F)
      (vel : Nat → Vec F) (flags : Nat → Bool) (w : World F) (hw : World.init (fun o => (shapes o).shp.bb) vel = some w) :
      Scene.Reach h ⟨Sp.newSpace n m type shape con, w, shapes, flags⟩
  | step {sc sc' : Scene F} (o : SceneOp F) : Scene.Reach h sc → o.Allowed sc → sc.run h o = some sc' → Scene.Reach h sc'

/-- The shape can move by itself: its body is neither static nor asleep. -/
def Scene.Mobile (sc : Scene F) (x : Nat) : Prop :=
  sc.sp.typ (sc.sp.shapes x).body ≠ .static ∧ sc.sp.isSleeping (sc.sp.shapes x).body = false

/-- The pairs a step has to test: two shapes of the space, on different bodies, at least one of which can move, whose
filters accept each other, whose boxes overlap, and whose bodies are not joined by a constraint of the space that forbids
them to collide. -/
structure Scene.MustTest (sc : Scene F) (x y : Nat) : Prop where
  inX : (sc.sp.shapes x).inSpace = true
  inY : (sc.sp.shapes y).inSpace = true
  mobile : sc.Mobile x ∨ sc.Mobile y
  bodies : (sc.sp.shapes x).body ≠ (sc.sp.shapes y).body
  filters : (sc.shapes x).filter.reject (sc.shapes y).filter = false
  boxes : (sc.shapes x).shp.bb.intersects (sc.shapes y).shp.bb = true
  joints : ∀ c, (sc.sp.cons c).inSpace = true → sc.sp.joins c (sc.sp.shapes x).body = true →
    sc.sp.joins c (sc.sp.shapes y).body = true → sc.collideBodies c = true

/-- How often a list of tests contains the unordered pair. -/
def testCount (l : List Sp.CollideIn) (x y : Nat) : Nat :=
  l.countP fun e => decide ((e.a = x ∧ e.b = y) ∨ (e.a = y ∧ e.b = x))

/-- A shape in the static index has not left the box under which it was indexed. -/
def Scene.Fits (sc : Scene F) (x : Nat) : Prop :=
  ∀ l ∈ leavesOf sc.index.stat, l.obj = x → l.bb.contains (sc.shapes x).shp.bb = true

/-- The narrow phase finds contacts for the two shapes, whatever was cached for the pair. -/
def Meets (a b : QShape F) : Prop :=
  ∀ id res, (Coll.collide a.shp b.shp id = some res ∨ Coll.collide b.shp a.shp id = some res) → res.2.contacts ≠ []
/-- The narrow phase finds no contacts for the two shapes. -/
def Misses (a b : QShape F) : Prop :=
  ∀ id res, (Coll.collide a.shp b.shp id = some res ∨ Coll.collide b.shp a.shp id = some res) → res.2.contacts = []

end CP
