import Verif.Model.HashSet

/-! # Collision handlers and shape filters (/repo/space.go:851-880, /repo/arbiter.go:236-254, /repo/everything.go:163-192) -/

namespace CP

/-- `CollisionType`, `HashValue` and `uint`: 64-bit machine words (/repo/everything.go:58, /repo/hashset.go:3). -/
abbrev Word := BitVec 64

/-- /repo/collision.go:353 `hashCoef`. -/
def hashCoef : Word := 3344921057#64

/-- /repo/collision.go:355-357 `HashPair` (wrapping multiplication, xor). -/
def hashPair (a b : Word) : Word := (a * hashCoef) ^^^ (b * hashCoef)

/-- /repo/arbiter.go:5 `WILDCARD_COLLISION_TYPE = ^CollisionType(0)`. -/
def wildcardType : Word := BitVec.allOnes 64

/-- /repo/everything.go:64-83 `CollisionHandler`; `id` is the identity of the pointer. The callback fields
belong to the identity and are not part of this model. -/
structure Handler where
  typeA : Word
  typeB : Word
  id : Nat
deriving DecidableEq, Repr

/-- /repo/space.go:85-93 the equality given to `NewHashSet` for collision handlers. -/
def handlerEq (a b : Handler) : Bool :=
  if a.typeA = b.typeA ∧ a.typeB = b.typeB then true
  else if a.typeB = b.typeA ∧ a.typeA = b.typeB then true
  else false

/-- The part of `Space` (/repo/space.go:45-49) about handlers; `next` numbers allocated handlers. -/
structure HandlerTable where
  set : HashSet Handler
  next : Nat

/-- /repo/space.go:860-864 `NewCollisionHandler` and :866-873 `NewWildcardCollisionHandler`
(the latter with `b = wildcardType`). Allocates a handler and inserts it. -/
def HandlerTable.register (s : HandlerTable) (a b : Word) : Option (HandlerTable × Handler) :=
  let h : Handler := ⟨a, b, s.next⟩
  (HashSet.insert handlerEq s.set (hashPair a b).toNat h h).map fun r =>
    ({ set := r.1, next := s.next + 1 }, r.2)

/-- /repo/space.go:851-858 `LookupHandler`; `none` inside is the default handler. -/
def HandlerTable.lookup (s : HandlerTable) (a b : Word) : Option (Option Handler) :=
  HashSet.find handlerEq s.set (hashPair a b).toNat ⟨a, b, 0⟩

/-- A history of registrations. -/
def HandlerTable.run : List (Word × Word) → Option HandlerTable
  | hist => do
    let s0 ← HashSet.new
    hist.foldlM (fun s p => (HandlerTable.register s p.1 p.2).map Prod.fst) { set := s0, next := 0 }

/-- /repo/arbiter.go:242 the `swapped` flag computed in `Arbiter.Update`. -/
def swappedFlag (typeA : Word) (h : Handler) : Bool :=
  decide (typeA ≠ h.typeA) && decide (h.typeA ≠ wildcardType)

/-- /repo/arbiter.go:433-439 `Arbiter.Shapes` in terms of the collision types of the two shapes. -/
def shapesTypes (swapped : Bool) (a b : Word) : Word × Word := if swapped then (b, a) else (a, b)

/-- /repo/everything.go:169-179 `ShapeFilter`. -/
structure ShapeFilter where
  group : Word
  categories : Word
  mask : Word
deriving DecidableEq

/-- /repo/everything.go:186-192 `Reject`. -/
def ShapeFilter.reject (a b : ShapeFilter) : Bool :=
  (decide (a.group ≠ 0#64) && decide (a.group = b.group)) ||
    decide (a.categories &&& b.mask = 0#64) || decide (b.categories &&& a.mask = 0#64)

/-- /repo/everything.go:39 `SHAPE_FILTER_ALL`. -/
def ShapeFilter.all : ShapeFilter := ⟨0#64, BitVec.allOnes 64, BitVec.allOnes 64⟩
/-- /repo/everything.go:42 `SHAPE_FILTER_NONE`. -/
def ShapeFilter.none : ShapeFilter := ⟨0#64, ~~~ (BitVec.allOnes 64), ~~~ (BitVec.allOnes 64)⟩

end CP
