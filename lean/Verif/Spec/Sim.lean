import Verif.Model.Sim
import Verif.Spec.Engine
import Verif.Spec.Scene
import Verif.Spec.Events

/-! # Specification: programs that use a whole simulation -/

namespace CP
variable {F : Type} [GoFloat F]

/-- A polygon has vertices. -/
def Coll.Cls.Solid : Coll.Cls F → Prop
  | .poly s => s.src ≠ [] ∧ s.dst ≠ []
  | _ => True

namespace Sim

/-- What a program can call:
* `op`: adding and removing, waking, queries, ... (every operation of Spec/History.lean but `Step`). `AddShape` puts the shape
  where its body is. (If the shape has a mass, the body's new mass is a `poke`.);
* `poke b new`: any setter of a body; all of them call `Activate` first and then store new numbers;
* `tune c j`: any setter of a constraint (waking its bodies is a call of its own), `flag c on`: `SetCollideBodies`;
* `reshape x q m`: any setter of a shape (`SetRadius`, `SetFilter`, `SetFriction`, `Update`, ...; waking its body is a call of its own);
* `reindex x`: `ReindexShape`;
* `step`: `Step`. -/
inductive Call (F : Type)
  | op (o : Sp.Op F) (again : Nat → Bool)
  | poke (b : Nat) (new : Body F) (again : Nat → Bool)
  | tune (c : Nat) (j : Joint F)
  | flag (c : Nat) (on : Bool)
  | reshape (x : Nat) (q : QShape F) (m : Surface F)
  | reindex (x : Nat)
  | step (i : SimIn F)

/-- The scene with shape `x` put where its body is. -/
def fetch (s : Sim F) (x : Nat) : Scene F :=
  s.sc.moved (Function.update s.sc.shapes x ((s.sc.shapes x).update (s.mo.bodies (s.sc.sp.shapes x).body).transform)) s.sc.index.vel

/-- The scene in which an operation happens. -/
def before (s : Sim F) : Sp.Op F → Scene F
  | .addShape x => s.fetch x
  | _ => s.sc

/-- Running a call (`hash` gives the hash ids of the shapes). -/
def call (hash : Obj → Nat) (s : Sim F) : Call F → Option (Sim F)
  | .op o again => ((s.before o).run hash (.op o again)).map fun sc => { s with sc := sc }
  | .poke b new again => (s.sc.run hash (.op (.activate b) again)).map fun sc =>
      settle { s with sc := sc, mo := { s.mo with bodies := s.mo.bodies.set b new } }
  | .tune c j => some { s with mo := { s.mo with joints := fun k => if k = c then j else s.mo.joints k } }
  | .flag c on => some { s with sc := { s.sc with collideBodies := Function.update s.sc.collideBodies c on } }
  | .reshape x q m => some (settle { s with
      sc := s.sc.moved (Function.update s.sc.shapes x q) s.sc.index.vel, surf := Function.update s.surf x m })
  | .reindex x => ((s.fetch x).run hash (.reindex x)).map fun sc => { s with sc := sc }
  | .step i => s.step hash i

/-- What the program must respect: the preconditions of the operations (`Sp.Op.Allowed`), a constraint keeps its bodies, polygons
have vertices; in a step, position functions, Begin and PreSolve callbacks wake no sleeping body. -/
def Call.Allowed (s : Sim F) : Call F → Prop
  | .op o _ => o.Allowed s.sc.sp ∧ ∀ i, o ≠ .step i
  | .tune c j => j.con.a = (s.sc.sp.cons c).a ∧ j.con.b = (s.sc.sp.cons c).b
  | .reshape _ q _ => q.shp.cls.Solid
  | .step i => (∀ b ∈ i.posActs, (s.sc.sp.bodies b).root = none) ∧
      ∀ x y, ∀ b ∈ (i.answer x y).beginActs ++ (i.answer x y).preActs, (s.sc.sp.bodies b).root = none
  | _ => True

/-- The states a program can reach: it starts with `NewSpace`, bodies with any numbers, shapes and constraints of any kind. -/
inductive Reach (hash : Obj → Nat) : Sim F → Prop
  | new (n m : Nat) (type : Nat → BType) (shape : Nat → Nat × Bool) (con : Nat → Nat × Nat) (mo : Motion F)
      (shapes : Nat → QShape F) (surf : Nat → Surface F) (flags : Nat → Bool) (arbs : Nat → Arb F) (w : World F)
      (ends : ∀ c, (mo.joints c).con.a = (con c).1 ∧ (mo.joints c).con.b = (con c).2)
      (solid : ∀ x, (shapes x).shp.cls.Solid)
      (rot : ∀ x, (shapes x).shp.rot = (mo.bodies (shape x).1).rotation)
      (hw : World.init (fun o => (shapes o).shp.bb) (fun o => (mo.bodies (shape o).1).v) = some w) :
      Reach hash ⟨⟨Sp.newSpace n m type shape con, w, shapes, flags⟩, mo, arbs, surf⟩
  | call {s s' : Sim F} (c : Call F) : Reach hash s → c.Allowed s → s.call hash c = some s' → Reach hash s'

/-- The part of a simulation that C63 is about. -/
def engine (s : Sim F) : Engine F := ⟨s.sc.sp, s.mo⟩

/-- The shape is where its body is: its cached geometry and its box are those of the body's current transform. -/
def Synced (s : Sim F) (x : Nat) : Prop :=
  (s.sc.shapes x).update (s.mo.bodies (s.sc.sp.shapes x).body).transform = s.sc.shapes x

/-- The shape is where its body is, and if it is in the index of static and sleeping shapes, it is filed there under a box that
contains it. -/
structure InPlace (s : Sim F) (x : Nat) : Prop where
  synced : s.Synced x
  fits : s.sc.Fits x

/-- The call puts shape `x` in its place: `AddShape`, `ReindexShape`, or `Step` if the shape is in the space and its body is
neither static nor asleep. -/
def Call.places (s : Sim F) (x : Nat) : Call F → Prop
  | .op (.addShape y) _ => y = x
  | .reindex y => y = x
  | .step i => i.dt ≠ 0 ∧ (s.sc.sp.shapes x).inSpace = true ∧ s.sc.Mobile x
  | _ => False

/-- The call may move shape `x` away from its place: a setter that moves its body, a setter of the shape itself, or a `Step` with a
shape that is not in the space. -/
def Call.displaces (s : Sim F) (x : Nat) : Call F → Prop
  | .poke b new _ => b = (s.sc.sp.shapes x).body ∧ new.transform ≠ (s.mo.bodies b).transform
  | .reshape y _ _ => y = x
  | .step _ => (s.sc.sp.shapes x).inSpace = false
  | _ => False

/-- Where the body's transform puts a point given in body coordinates (/repo/body.go:500-502 `LocalToWorld`). -/
def worldPoint (s : Sim F) (b : Nat) (p : Vec F) : Vec F := (s.mo.bodies b).localToWorld p

/-- Where the centre of gravity of the body will be when a step of `dt` has moved it (if it is awake). -/
def movedPos (s : Sim F) (dt : F) (b : Nat) : Body F := Motion.move s.mo.bodies dt s.sc.sp.dynamicBodies b

/-- The body is neither static nor asleep. -/
def mobile (s : Sim F) (b : Nat) : Prop := s.sc.sp.typ b ≠ .static ∧ ¬ s.engine.asleep b

/-- What the solver has to be given for the shapes `x` and `y`: the normal and the points that the narrow phase finds for the two
shapes where they are after the step (`s'`), the points relative to the centres of gravity, and the products of the materials; every
contact starts with impulse zero, or with the impulses that arbiter `k` of the same two shapes, which the space still keeps, had for a contact with the same hash before the step (`s`). -/
structure ContactOf (s s' : Sim F) (k x y : Nat) (arb : Arb F) : Prop where
  found : ∃ id info, (Coll.collide (s'.sc.shapes x).shp (s'.sc.shapes y).shp id = some (false, info) ∨
      Coll.collide (s'.sc.shapes y).shp (s'.sc.shapes x).shp id = some (true, info)) ∧ info.contacts ≠ [] ∧ arb.n = info.n ∧
    arb.contacts.map (fun c => (c.r1, c.r2, c.hash)) = info.contacts.map fun c =>
      (c.r1.sub (s'.mo.bodies (s.sc.sp.shapes x).body).p, c.r2.sub (s'.mo.bodies (s.sc.sp.shapes y).body).p, c.hash.toNat)
  e : arb.e = (s.surf x).e * (s.surf y).e
  u : arb.u = (s.surf x).u * (s.surf y).u
  surface : arb.surface_vr = ((s.surf y).v.sub (s.surf x).v).sub (arb.n.mult (((s.surf y).v.sub (s.surf x).v).dot arb.n))
  impulses : ∀ c ∈ arb.contacts, (c.jnAcc = 0 ∧ c.jtAcc = 0) ∨
    (k ∈ s.sc.sp.cached ∧ s.sc.sp.samePair x y k = true ∧ ∃ o ∈ (s.arbs k).contacts, o.hash = c.hash ∧ c.jnAcc = o.jnAcc ∧ c.jtAcc = o.jtAcc)

/-- The solver is given the contacts of `x` and `y` in arbiter `k`: as `ContactOf` says, after what the callbacks changed; the contacts are marked as the
first ones if the pair was not touching before the step. -/
def Given (s s' : Sim F) (i : SimIn F) (t : Tick F) (k x y : Nat) : Prop :=
  ∃ arb, ContactOf s s' k x y arb ∧ t.contact k = { i.adjust x y arb with
    a := (s.sc.sp.shapes x).body
    b := (s.sc.sp.shapes y).body
    first := decide (proto x y s.sc.sp.trace ≠ some true) }

/-- Nothing keeps the contacts of the pair from the solver: neither shape is a sensor, not both bodies have infinite mass, Begin and PreSolve
say yes, and no callback has asked to ignore the pair. -/
structure Admitted (s : Sim F) (i : SimIn F) (x y : Nat) : Prop where
  inert : s.sc.sp.inert x y = false
  before : s.sc.sp.pairSt x y ≠ .ignored
  answer : ∀ p q, ((p = x ∧ q = y) ∨ (p = y ∧ q = x)) → (i.answer p q).beginRet = true ∧ (i.answer p q).beginIgnore = false ∧
    (i.answer p q).preRet = true ∧ (i.answer p q).preIgnore = false

end Sim
end CP
