import Verif.Model.Scalar

/-! # The space: bodies, lists, sleeping, locks, arbiters, contact buffers
(/repo/space.go, /repo/body.go, /repo/arbiter.go, /repo/constraint.go, /repo/hashset_arbiter.go,
/repo/contactbuffer.go)

Go objects live in heaps indexed by natural numbers (`*Body`, `*Shape`, `*Constraint`, `*Arbiter`,
`*ContactBuffer`), `nil` is `none`, and the intrusive lists (`sleepingNext`, `next_a/next_b`, `thread_a/thread_b`)
are the pointers of the code. `Option` results: `none` is a panic (nil dereference, "Arbiter not found", a failing
`assert` of the debug build) or a loop that never ends.

Simplifications, valid for the whole file:
* numbers that play no role in the bookkeeping (positions, velocities, masses other than "infinite or not") are left
  out. What depends on them enters as input of a step: which bodies have a kinetic energy above the threshold, and
  which pairs collide with how many contacts, in the order in which the broad phase reports them.
* The spatial indexes are lists of the shapes they hold (their trees are Model/BBTree.lean); the hash set of cached
  arbiters is the list of its elements (Model/HashSet.lean).
* User callbacks are scripts: the answer they return, whether they call `Arbiter.Ignore`, and the bodies on which they
  call `Activate` (which every setter of a body, shape or constraint does).
* `sleepingIdleTime` is `infinity` or a finite time; a finite time never reaches MaxFloat64 by accumulation. -/

namespace CP

/-- /repo/body.go:9-13: the body types. -/
inductive BType | dynamic | kinematic | static
deriving DecidableEq, Repr

/-- `sleepingIdleTime`, `SleepTimeThreshold`: `INFINITY` or a time. -/
inductive Idle (F : Type) | infinity | time (t : F)
deriving DecidableEq

/-- The comparison `<` of idle times used by `ComponentActive`. -/
def Idle.lt {F : Type} [GoFloat F] : Idle F → Idle F → Bool
  | .infinity, _ => false
  | .time _, .infinity => true
  | .time a, .time b => decide (a < b)

/-- /repo/body.go:23-65 `Body`: the fields used for bookkeeping. `infMass` is `m == INFINITY`,
`inSpace` is `space != nil`. -/
structure BodyR (F : Type) where
  idle : Idle F
  infMass : Bool := false
  inSpace : Bool := false
  root : Option Nat := none
  next : Option Nat := none
  shapes : List Nat := []
  arbs : Option Nat := none
  cons : Option Nat := none

/-- /repo/shape.go:25-42 `Shape`: body, sensor flag, `space != nil`. -/
structure ShapeR where
  body : Nat
  sensor : Bool := false
  inSpace : Bool := false

/-- /repo/constraint.go:15-29 `Constraint`: ends, list pointers, `space != nil`. -/
structure ConR where
  a : Nat
  b : Nat
  nextA : Option Nat := none
  nextB : Option Nat := none
  inSpace : Bool := false

/-- /repo/arbiter.go:66-68 `ArbiterThread`. -/
structure Thread where
  next : Option Nat := none
  prev : Option Nat := none
deriving DecidableEq

/-- /repo/everything.go:19-31: arbiter states. -/
inductive ArbState | first | normal | ignore | cached | invalidated
deriving DecidableEq, Repr

/-- Where the slice `arbiter.contacts` points to: nil, a place in a ring buffer, or memory of its own. -/
inductive Mem | nil | ring (buf off : Nat) | own
deriving DecidableEq

/-- /repo/arbiter.go:11-32 `Arbiter`. -/
structure ArbR where
  a : Nat
  b : Nat
  bodyA : Nat
  bodyB : Nat
  thA : Thread := {}
  thB : Thread := {}
  count : Nat := 0
  mem : Mem := .nil
  stamp : Nat := 0
  state : ArbState := .first

/-- /repo/contactbuffer.go:3-11 `ContactBuffer`. -/
structure BufR where
  stamp : Nat
  next : Nat
  num : Nat

/-- The four callbacks of a collision handler. -/
inductive EvKind | begin | preSolve | postSolve | separate
deriving DecidableEq, Repr

/-- A call of a collision callback: for which shapes, in which step. -/
structure Ev where
  kind : EvKind
  a : Nat
  b : Nat
  stamp : Nat
deriving DecidableEq, Repr

/-- /repo/space.go:12-54 `Space` together with the heap. `nBodies` and `nCons` are the numbers of body and constraint
objects the program ever creates (any numbers), `arbBound` and `bufBound` the next unused addresses.
`trace` records the callbacks made so far (oldest first); it is not part of the Go state. -/
structure Sp (F : Type) where
  nBodies : Nat
  nCons : Nat
  bodies : Nat → BodyR F
  shapes : Nat → ShapeR
  cons : Nat → ConR
  arbs : Nat → ArbR
  bufs : Nat → BufR
  arbBound : Nat
  bufBound : Nat
  threshold : Idle F
  staticBody : Nat
  dynamicBodies : List Nat
  staticBodies : List Nat
  roused : List Nat
  sleeping : List Nat
  staticShapes : List Nat
  dynamicShapes : List Nat
  constraints : List Nat
  arbiters : List Nat
  cached : List Nat
  pool : List Nat
  head : Option Nat
  locked : Nat
  stamp : Nat
  trace : List Ev

/-- /repo/space.go:70, `collisionPersistence`, set in `NewSpace` and never changed. -/
def persistence : Nat := 3
/-- /repo/space.go:9 `MAX_CONTACTS_PER_ARBITER`. -/
def maxContacts : Nat := 2
/-- /repo/space.go:10 `CONTACTS_BUFFER_SIZE`. -/
def bufSize : Nat := 1024

section
variable {F : Type}

/-- /repo/body.go:226-234 `GetType`. -/
def BodyR.type (b : BodyR F) : BType :=
  match b.idle with
  | .infinity => .static
  | .time _ => if b.infMass then .kinematic else .dynamic

namespace Sp

/-- Writing to a body. -/
def setBody (s : Sp F) (b : Nat) (f : BodyR F → BodyR F) : Sp F :=
  { s with bodies := Function.update s.bodies b (f (s.bodies b)) }
/-- Writing to a shape. -/
def setShape (s : Sp F) (i : Nat) (f : ShapeR → ShapeR) : Sp F :=
  { s with shapes := Function.update s.shapes i (f (s.shapes i)) }
/-- Writing to a constraint. -/
def setCon (s : Sp F) (c : Nat) (f : ConR → ConR) : Sp F :=
  { s with cons := Function.update s.cons c (f (s.cons c)) }
/-- Writing to an arbiter. -/
def setArb (s : Sp F) (x : Nat) (f : ArbR → ArbR) : Sp F :=
  { s with arbs := Function.update s.arbs x (f (s.arbs x)) }
/-- Writing to a contact buffer. -/
def setBuf (s : Sp F) (k : Nat) (f : BufR → BufR) : Sp F :=
  { s with bufs := Function.update s.bufs k (f (s.bufs k)) }

/-- The type of body `b`. -/
def typ (s : Sp F) (b : Nat) : BType := (s.bodies b).type
/-- /repo/body.go:437-439 `IsSleeping`. -/
def isSleeping (s : Sp F) (b : Nat) : Bool := (s.bodies b).root.isSome

end Sp

/-- A loop `for x := start; x != nil; x = next(x)`: the nodes visited, `none` if more than `fuel`.
With `fuel` at least the number of objects, running out means that the loop never ends. -/
def walk (next : Nat → Option Nat) : Nat → Option Nat → Option (List Nat)
  | _, none => some []
  | 0, some _ => none
  | n + 1, some x => (walk next n (next x)).map (x :: ·)

/-- `append(l[:i], l[i+1:]...)` through the last element: the "leak-free delete" of the code puts the last element in
the place of the deleted one. `none` if the element is not found.
(/repo/space.go:830-838, /repo/body.go:554-563) -/
def swapErase (l : List Nat) (x : Nat) : Option (List Nat) :=
  if x ∈ l then some ((l.set (l.idxOf x) (l.getLastD 0)).dropLast) else none

namespace Sp

/-- /repo/arbiter.go:70-76 `Next` (and /repo/space.go:669-674 `ArbiterNext`, the same function). -/
def arbNext (s : Sp F) (body x : Nat) : Option Nat :=
  if (s.arbs x).bodyA = body then (s.arbs x).thA.next else (s.arbs x).thB.next

/-- The loop `for arb := body.arbiterList; arb != nil; arb = arb.Next(body)`. The loops of the code that use it do not
change the list while walking it. -/
def arbList (s : Sp F) (body : Nat) : Option (List Nat) :=
  walk (s.arbNext body) s.arbBound (s.bodies body).arbs

/-- /repo/constraint.go:83-89 `Next`. -/
def conNext (s : Sp F) (body c : Nat) : Option Nat :=
  if (s.cons c).a = body then (s.cons c).nextA else (s.cons c).nextB

/-- /repo/body.go:602-609 `EachConstraint`: the loop over `body.constraintList`. -/
def conList (s : Sp F) (body : Nat) : Option (List Nat) :=
  walk (s.conNext body) s.nCons (s.bodies body).cons

/-- /repo/arbiter.go:105-111 `ThreadForBody`, reading. -/
def thread (s : Sp F) (x body : Nat) : Thread :=
  if (s.arbs x).bodyA = body then (s.arbs x).thA else (s.arbs x).thB

/-- /repo/arbiter.go:105-111 `ThreadForBody`, writing through the pointer. -/
def setThread (s : Sp F) (x body : Nat) (f : Thread → Thread) : Sp F :=
  s.setArb x fun r => if r.bodyA = body then { r with thA := f r.thA } else { r with thB := f r.thB }

/-- /repo/body.go:465-472 `PushArbiter`. -/
def pushArbiter (s : Sp F) (body x : Nat) : Sp F :=
  let next := (s.bodies body).arbs
  let s := s.setThread x body fun t => { t with next := next }
  let s := match next with
    | some y => s.setThread y body fun t => { t with prev := some x }
    | none => s
  s.setBody body fun r => { r with arbs := some x }

/-- /repo/arbiter.go:83-103 `unthreadHelper`. -/
def unthreadHelper (s : Sp F) (x body : Nat) : Sp F :=
  let t := s.thread x body
  let s := match t.prev with
    | some p => s.setThread p body fun u => { u with next := t.next }
    | none =>
      if (s.bodies body).arbs = some x then s.setBody body fun r => { r with arbs := t.next } else s
  let s := match t.next with
    | some n => s.setThread n body fun u => { u with prev := t.prev }
    | none => s
  s.setThread x body fun _ => {}

/-- /repo/arbiter.go:78-81 `Unthread`. -/
def unthread (s : Sp F) (x : Nat) : Sp F :=
  let s := s.unthreadHelper x (s.arbs x).bodyA
  s.unthreadHelper x (s.arbs x).bodyB

/-! ## Contact buffers -/

/-- /repo/space.go:483-498 `PushFreshContactBuffer` with /repo/contactbuffer.go:13-29 (`NewContactBuffer`,
`InitHeader`): no head: a ring of one new buffer; the oldest buffer (`head.next`) is older than the persistence: it is
reused; otherwise a new buffer is put into the ring behind the head. -/
def pushFresh (s : Sp F) : Sp F :=
  match s.head with
  | none =>
    let k := s.bufBound
    { s.setBuf k (fun _ => ⟨s.stamp, k, 0⟩) with bufBound := k + 1, head := some k }
  | some h =>
    let t := (s.bufs h).next
    if persistence < s.stamp - (s.bufs t).stamp then
      { s.setBuf t (fun r => ⟨s.stamp, r.next, 0⟩) with head := some t }
    else
      let k := s.bufBound
      let s := s.setBuf k fun _ => ⟨s.stamp, (s.bufs h).next, 0⟩
      { s.setBuf h (fun r => { r with next := k }) with bufBound := k + 1, head := some k }

/-- /repo/space.go:500-507 `ContactBufferGetArray`: the buffer and offset of the slice handed out. -/
def getArray (s : Sp F) : Option (Sp F × Nat × Nat) := do
  let h ← s.head
  let s := if bufSize < (s.bufs h).num + maxContacts then s.pushFresh else s
  let h ← s.head
  some (s, h, (s.bufs h).num)

/-- /repo/space.go:842-845 `PushContacts` and, with a subtraction, /repo/space.go:847-849 `PopContacts`. -/
def pushContacts (s : Sp F) (n : Nat) : Sp F :=
  match s.head with
  | some h => s.setBuf h fun r => { r with num := r.num + n }
  | none => s

/-- /repo/space.go:847-849 `PopContacts`. -/
def popContacts (s : Sp F) (n : Nat) : Sp F :=
  match s.head with
  | some h => s.setBuf h fun r => { r with num := r.num - n }
  | none => s

/-! ## Activation -/

/-- `fromIndex.Remove(shape); toIndex.Insert(shape)` with the static index as source. A missing shape makes `Remove`
panic; inserting a shape twice is outside the contract of the index. -/
def toDynamic (s : Sp F) (sh : Nat) : Option (Sp F) :=
  if sh ∈ s.staticShapes ∧ sh ∉ s.dynamicShapes then
    some { s with staticShapes := s.staticShapes.erase sh, dynamicShapes := s.dynamicShapes ++ [sh] }
  else none

/-- The same with the dynamic index as source. -/
def toStatic (s : Sp F) (sh : Nat) : Option (Sp F) :=
  if sh ∈ s.dynamicShapes ∧ sh ∉ s.staticShapes then
    some { s with dynamicShapes := s.dynamicShapes.erase sh, staticShapes := s.staticShapes ++ [sh] }
  else none

/-- /repo/space.go:56-61 `arbiterSetEql`: an arbiter matches a pair of shapes in either order. -/
def samePair (s : Sp F) (a b x : Nat) : Bool :=
  ((s.arbs x).a == a && (s.arbs x).b == b) || ((s.arbs x).a == b && (s.arbs x).b == a)

/-- `cachedArbiters.Insert` of an existing arbiter: nothing happens if an equal pair is present. -/
def cacheInsert (s : Sp F) (x : Nat) : Sp F :=
  if s.cached.any (s.samePair (s.arbs x).a (s.arbs x).b) then s else { s with cached := s.cached ++ [x] }

/-- The test `body == bodyA || bodyA.GetType() == BODY_STATIC` for an arbiter. -/
def ownsArb (s : Sp F) (body x : Nat) : Bool :=
  decide (body = (s.arbs x).bodyA) || decide (s.typ (s.arbs x).bodyA = .static)

/-- The same test for a constraint. -/
def ownsCon (s : Sp F) (body c : Nat) : Bool :=
  decide (body = (s.cons c).a) || decide (s.typ (s.cons c).a = .static)

/-- /repo/space.go:173-194: an arbiter goes back into buffer memory, the cache and the list of the step. -/
def restoreArb (s : Sp F) (x : Nat) : Option (Sp F) := do
  let (s, k, o) ← s.getArray
  let s := s.setArb x fun r => { r with mem := .ring k o }
  let s := s.pushContacts (s.arbs x).count
  let s := s.cacheInsert x
  let s := s.setArb x fun r => { r with stamp := s.stamp }
  some { s with arbiters := s.arbiters ++ [x] }

/-- /repo/space.go:147-202 `Activate`. -/
def activateBody (s : Sp F) (body : Nat) : Option (Sp F) :=
  if s.locked ≠ 0 then
    some (if body ∈ s.roused then s else { s with roused := s.roused ++ [body] })
  else do
    let s := { s with dynamicBodies := s.dynamicBodies ++ [body] }
    let s ← (s.bodies body).shapes.foldlM toDynamic s
    let l ← s.arbList body
    let s ← (l.filter (s.ownsArb body)).foldlM restoreArb s
    let cl ← s.conList body
    some { s with constraints := s.constraints ++ cl.filter (s.ownsCon body) }

/-- /repo/space.go:823-840 `UncacheArbiter`, then /repo/space.go:224-226 (contacts copied to memory of their own). -/
def uncacheArb (s : Sp F) (x : Nat) : Option (Sp F) := do
  let s := { s with cached := s.cached.eraseP (s.samePair (s.arbs x).a (s.arbs x).b) }
  let l ← swapErase s.arbiters x
  some (({ s with arbiters := l } : Sp F).setArb x fun r => { r with mem := .own })

/-- /repo/space.go:234-238: `for i, c := range space.constraints` with a removal in the loop and no `break`. `range`
walks the original length over the backing array; a removal moves the tail one place to the left and leaves the last
place as it was. -/
def removeConLoop (c : Nat) : Nat → Nat → List Nat → List Nat → List Nat
  | 0, _, _, cur => cur
  | n + 1, i, back, cur =>
    if back.getD i 0 = c then
      let cur' := cur.eraseIdx i
      removeConLoop c n (i + 1) (cur' ++ back.drop cur'.length) cur'
    else removeConLoop c n (i + 1) back cur

/-- /repo/space.go:204-241 `Deactivate`. -/
def deactivateBody (s : Sp F) (body : Nat) : Option (Sp F) := do
  let s := { s with dynamicBodies := s.dynamicBodies.erase body }
  let s ← (s.bodies body).shapes.foldlM toStatic s
  let l ← s.arbList body
  let s ← (l.filter (s.ownsArb body)).foldlM uncacheArb s
  let cl ← s.conList body
  some ((cl.filter (s.ownsCon body)).foldl
    (fun s c => { s with
      constraints := removeConLoop c s.constraints.length 0 s.constraints s.constraints }) s)

variable [GoFloat F]

/-- `sleepingIdleTime = 0`. -/
def zeroIdle (s : Sp F) (b : Nat) : Sp F := s.setBody b fun r => { r with idle := .time 0 }

/-- /repo/body.go:387-396: the loop of `Body.Activate` over the sleeping component. -/
def wakeChain : Nat → Sp F → Option Nat → Option (Sp F)
  | _, s, none => some s
  | 0, _, some _ => none
  | n + 1, s, some b => do
    let next := (s.bodies b).next
    let s := s.setBody b fun r => { r with idle := .time 0, root := none, next := none }
    let s ← s.activateBody b
    wakeChain n s next

/-- The body at the other end of an arbiter. -/
def otherBody (s : Sp F) (body x : Nat) : Nat :=
  if (s.arbs x).bodyA = body then (s.arbs x).bodyB else (s.arbs x).bodyA

/-- /repo/body.go:375-419 `Activate`. -/
def bodyActivate (s : Sp F) (body : Nat) : Option (Sp F) :=
  if s.typ body ≠ .dynamic then some s
  else do
    let s := s.zeroIdle body
    let s ← match (s.bodies body).root with
      | some r =>
        if s.isSleeping r then do
          let s ← wakeChain s.nBodies s (some r)
          some { s with sleeping := s.sleeping.erase r }
        else some s
      | none => some s
    let l ← s.arbList body
    some (l.foldl (fun s x =>
      if s.typ (s.otherBody body x) ≠ .static then s.zeroIdle (s.otherBody body x) else s) s)

/-- /repo/body.go:422-434 `ActivateStatic`; `filter = none` is nil. -/
def activateStatic (s : Sp F) (body : Nat) (filter : Option Nat) : Option (Sp F) := do
  let l ← s.arbList body
  l.foldlM (fun s x =>
    if filter = none ∨ filter = some (s.arbs x).a ∨ filter = some (s.arbs x).b then
      s.bodyActivate (s.otherBody body x)
    else some s) s

/-- A user callback that calls `Activate` on some bodies. -/
def runActs (s : Sp F) (acts : List Nat) : Option (Sp F) := acts.foldlM bodyActivate s

/-! ## Locks -/

/-- /repo/space.go:784-786 `Lock`. -/
def lock (s : Sp F) : Sp F := { s with locked := s.locked + 1 }

/-- /repo/space.go:788-821 `Unlock` without the post-step callbacks (Model/PostStep.lean). -/
def unlock (s : Sp F) : Option (Sp F) :=
  if s.locked = 0 then none
  else
    let s := { s with locked := s.locked - 1 }
    if s.locked ≠ 0 then some s
    else do
      let s ← s.roused.foldlM activateBody s
      some { s with roused := [] }

/-! ## Adding and removing -/

/-- /repo/space.go:287-297 `AddBody`. -/
def addBody (s : Sp F) (b : Nat) : Option (Sp F) :=
  if (s.bodies b).inSpace then none
  else
    let s := if s.typ b = .static then { s with staticBodies := s.staticBodies ++ [b] }
      else { s with dynamicBodies := s.dynamicBodies ++ [b] }
    some (s.setBody b fun r => { r with inSpace := true })

/-- /repo/space.go:365-387 `RemoveBody`. -/
def removeBody (s : Sp F) (b : Nat) : Option (Sp F) :=
  if b = s.staticBody ∨ (s.bodies b).inSpace = false ∨ s.locked ≠ 0 then none
  else do
    let s ← s.bodyActivate b
    let s := if s.typ b = .static then { s with staticBodies := s.staticBodies.erase b }
      else { s with dynamicBodies := s.dynamicBodies.erase b }
    some (s.setBody b fun r => { r with inSpace := false })

/-- /repo/body.go:147-223 `SetType`. -/
def setType (s : Sp F) (b : Nat) (new : BType) : Option (Sp F) :=
  let old := s.typ b
  if old = new then some s
  else
    let s := s.setBody b fun r => { r with
      idle := (if new = .static then .infinity else .time 0)
      infMass := decide (new ≠ .dynamic) }
    if (s.bodies b).inSpace = false then some s
    else if s.locked ≠ 0 then none
    else do
      let s ← if old ≠ .static then s.bodyActivate b else some s
      let s := if old = .static then
          { s with staticBodies := s.staticBodies.erase b, dynamicBodies := s.dynamicBodies ++ [b] }
        else if new = .static then
          { s with dynamicBodies := s.dynamicBodies.erase b, staticBodies := s.staticBodies ++ [b] }
        else s
      if old = .static then (s.bodies b).shapes.foldlM toDynamic s
      else if new = .static then (s.bodies b).shapes.foldlM toStatic s
      else (s.bodies b).shapes.foldlM (fun s sh =>
        -- removed from and inserted into the same index
        if sh ∈ s.dynamicShapes then
          some { s with dynamicShapes := s.dynamicShapes.erase sh ++ [sh] }
        else none) s

/-- /repo/space.go:260-285 `AddShape` with /repo/body.go:442-448 `AddShape`. -/
def addShape (s : Sp F) (sh : Nat) : Option (Sp F) :=
  if (s.shapes sh).inSpace ∨ s.locked ≠ 0 then none
  else do
    let b := (s.shapes sh).body
    let isStatic := s.typ b = .static
    let s ← if isStatic then some s else s.bodyActivate b
    let s := s.setBody b fun r => { r with shapes := r.shapes ++ [sh] }
    let s := if isStatic then { s with staticShapes := s.staticShapes ++ [sh] }
      else { s with dynamicShapes := s.dynamicShapes ++ [sh] }
    some (s.setShape sh fun r => { r with inSpace := true })

/-- /repo/body.go:611-620 `filterConstraints`: the recursion down the list; `none` is the nil dereference at the end
of a list that does not hold the constraint. Returns the new heap and the new head. -/
def filterCons (body c : Nat) : Nat → Sp F → Option Nat → Option (Sp F × Option Nat)
  | _, _, none => none
  | 0, _, some _ => none
  | n + 1, s, some x =>
    if x = c then some (s, s.conNext body x)
    else if (s.cons x).a = body then do
      let (s, h) ← filterCons body c n s (s.cons x).nextA
      some (s.setCon x fun r => { r with nextA := h }, some x)
    else do
      let (s, h) ← filterCons body c n s (s.cons x).nextB
      some (s.setCon x fun r => { r with nextB := h }, some x)

/-- /repo/body.go:548-550 `RemoveConstraint`. -/
def bodyRemoveCon (s : Sp F) (body c : Nat) : Option (Sp F) := do
  let (s, h) ← filterCons body c s.nCons s (s.bodies body).cons
  some (s.setBody body fun r => { r with cons := h })

/-- /repo/space.go:299-322 `AddConstraint`. -/
def addConstraint (s : Sp F) (c : Nat) : Option (Sp F) :=
  if (s.cons c).inSpace ∨ s.locked ≠ 0 then none
  else do
    let a := (s.cons c).a
    let b := (s.cons c).b
    let s ← s.bodyActivate a
    let s ← s.bodyActivate b
    let s := { s with constraints := s.constraints ++ [c] }
    let s := s.setCon c fun r => { r with nextA := (s.bodies a).cons }
    let s := s.setBody a fun r => { r with cons := some c }
    let s := s.setCon c fun r => { r with nextB := (s.bodies b).cons }
    let s := s.setBody b fun r => { r with cons := some c }
    some (s.setCon c fun r => { r with inSpace := true })

/-- /repo/space.go:324-340 `RemoveConstraint`. -/
def removeConstraint (s : Sp F) (c : Nat) : Option (Sp F) :=
  if (s.cons c).inSpace = false ∨ s.locked ≠ 0 then none
  else do
    let a := (s.cons c).a
    let b := (s.cons c).b
    let s ← s.bodyActivate a
    let s ← s.bodyActivate b
    let s := { s with constraints := s.constraints.erase c }
    let s ← s.bodyRemoveCon a c
    let s ← s.bodyRemoveCon b c
    some (s.setCon c fun r => { r with inSpace := false })

/-! ## The arbiter cache -/

/-- Recording a callback for arbiter `x`. -/
def emit (s : Sp F) (k : EvKind) (x : Nat) : Sp F :=
  { s with trace := s.trace ++ [⟨k, (s.arbs x).a, (s.arbs x).b, s.stamp⟩] }

/-- /repo/hashset.go:146-166 `Filter` over the cached arbiters: every element is handed to the function, which may
change the space but not the set, and removed if the answer is false. -/
def filterCached (f : Sp F → Nat → Option (Sp F × Bool)) (s : Sp F) : Option (Sp F) :=
  s.cached.foldlM (fun s x => do
    let (s, keep) ← f s x
    some (if keep then s else { s with cached := s.cached.erase x })) s

/-- /repo/hashset_arbiter.go:4-32 `SpaceArbiterSetFilter`; `acts` is what the Separate callback does. -/
def setFilter (acts : Nat → List Nat) (s : Sp F) (x : Nat) : Option (Sp F × Bool) :=
  let a := (s.arbs x).bodyA
  let b := (s.arbs x).bodyB
  if (s.typ a = .static ∨ s.isSleeping a) ∧ (s.typ b = .static ∨ s.isSleeping b) then some (s, true)
  else do
    let ticks := s.stamp - (s.arbs x).stamp
    let s ← if 1 ≤ ticks ∧ (s.arbs x).state ≠ .cached then
        ((s.setArb x fun r => { r with state := .cached }).emit .separate x).runActs (acts x)
      else some s
    if persistence ≤ ticks then
      let s := s.setArb x fun r => { r with mem := .nil, count := 0 }
      some ({ s with pool := s.pool ++ [x] }, false)
    else some (s, true)

/-- /repo/hashset_arbiter.go:34-59 `CachedArbitersFilter` with a shape (the only way the code calls it). -/
def shapeFilter (body sh : Nat) (acts : Nat → List Nat) (s : Sp F) (x : Nat) : Option (Sp F × Bool) :=
  if (body = (s.arbs x).bodyA ∧ sh = (s.arbs x).a) ∨ (body = (s.arbs x).bodyB ∧ sh = (s.arbs x).b) then do
    let s ← if (s.arbs x).state ≠ .cached then
        ((s.setArb x fun r => { r with state := .invalidated }).emit .separate x).runActs (acts x)
      else some s
    let s := s.unthread x
    some ({ s with arbiters := s.arbiters.erase x, pool := s.pool ++ [x] }, false)
  else some (s, true)

/-- /repo/space.go:389-397 `FilterArbiters`. -/
def filterArbiters (s : Sp F) (body sh : Nat) (acts : Nat → List Nat) : Option (Sp F) := do
  let s ← filterCached (shapeFilter body sh acts) s.lock
  s.unlock

/-- /repo/body.go:553-567 `RemoveShape`: deletion from `shapeList` (nothing if absent). -/
def bodyRemoveShape (s : Sp F) (b sh : Nat) : Sp F :=
  s.setBody b fun r => { r with shapes := (swapErase r.shapes sh).getD r.shapes }

/-- /repo/space.go:342-363 `RemoveShape`. -/
def removeShape (s : Sp F) (sh : Nat) (acts : Nat → List Nat) : Option (Sp F) :=
  if (s.shapes sh).inSpace = false ∨ s.locked ≠ 0 then none
  else do
    let b := (s.shapes sh).body
    let isStatic := s.typ b = .static
    let s ← if isStatic then s.activateStatic b (some sh) else s.bodyActivate b
    let s := s.bodyRemoveShape b sh
    let s ← s.filterArbiters b sh acts
    let s ← if isStatic then
        (if sh ∈ s.staticShapes then some { s with staticShapes := s.staticShapes.erase sh } else none)
      else
        (if sh ∈ s.dynamicShapes then some { s with dynamicShapes := s.dynamicShapes.erase sh } else none)
    some (s.setShape sh fun r => { r with inSpace := false })

/-! ## Collisions -/

/-- What the narrow phase and the user's callbacks do for one pair reported by the broad phase: the shapes in the
order of the `CollisionInfo`, the number of contacts, the answers of Begin and PreSolve, whether they call
`Arbiter.Ignore` or `Activate`, and the recycled arbiter the pool would hand out. -/
structure CollideIn where
  a : Nat
  b : Nat
  count : Nat
  beginRet : Bool := true
  beginIgnore : Bool := false
  beginActs : List Nat := []
  preRet : Bool := true
  preIgnore : Bool := false
  preActs : List Nat := []
  pick : Option Nat := none

/-- /repo/space.go:442-447 with /repo/arbiter.go:35-64 `Init`: the arbiter of the pair from the cache, or a recycled
or new one. -/
def lookupArb (s : Sp F) (a b : Nat) (pick : Option Nat) : Sp F × Nat :=
  match s.cached.find? (s.samePair a b) with
  | some x => (s, x)
  | none =>
    let fresh : Sp F × Nat := ({ s with arbBound := s.arbBound + 1 }, s.arbBound)
    let (s, x) := match pick with
      | some x => if x ∈ s.pool then ({ s with pool := s.pool.erase x }, x) else fresh
      | none => fresh
    let s := s.setArb x fun _ => { a := a, b := b, bodyA := (s.shapes a).body, bodyB := (s.shapes b).body }
    ({ s with cached := s.cached ++ [x] }, x)

/-- /repo/arbiter.go:191-260 `Update`: the fields kept here. -/
def updateArb (s : Sp F) (x a b count k o : Nat) : Sp F :=
  s.setArb x fun r => { r with
    a := a, b := b, bodyA := (s.shapes a).body, bodyB := (s.shapes b).body
    count := count, mem := .ring k o
    state := (if r.state = .cached then .first else r.state) }

/-- /repo/space.go:419-481 `SpaceCollideShapesFunc` after `QueryReject`. -/
def collide (s : Sp F) (e : CollideIn) : Option (Sp F) := do
  let (s, k, o) ← s.getArray
  if e.count = 0 then some s
  else
    let s := s.pushContacts e.count
    let (s, x) := s.lookupArb e.a e.b e.pick
    let s := s.updateArb x e.a e.b e.count k o
    let s ← if (s.arbs x).state = .first then do
        let s ← (s.emit .begin x).runActs e.beginActs
        some (if e.beginRet = false ∨ e.beginIgnore then s.setArb x (fun r => { r with state := .ignore }) else s)
      else some s
    let (s, ok) ← if (s.arbs x).state ≠ .ignore then do
        let s ← (s.emit .preSolve x).runActs e.preActs
        let s := if e.preIgnore then s.setArb x (fun r => { r with state := .ignore }) else s
        some (s, e.preRet)
      else some (s, false)
    let sensor := (s.shapes e.a).sensor || (s.shapes e.b).sensor
    let inf := (s.bodies (s.shapes e.a).body).infMass && (s.bodies (s.shapes e.b).body).infMass
    let s := if ok ∧ (s.arbs x).state ≠ .ignore ∧ sensor = false ∧ inf = false then
        { s with arbiters := s.arbiters ++ [x] }
      else
        let s := s.popContacts e.count
        s.setArb x fun r => { r with
          mem := .nil, count := 0
          state := (if r.state ≠ .ignore then .normal else r.state) }
    some (s.setArb x fun r => { r with stamp := s.stamp })

/-! ## Components -/

/-- /repo/body.go:474-481 `ComponentAdd`. -/
def componentAdd (s : Sp F) (root body : Nat) : Sp F :=
  let s := s.setBody body fun r => { r with root := some root }
  if body ≠ root then
    let n := (s.bodies root).next
    let s := s.setBody body fun r => { r with next := n }
    s.setBody root fun r => { r with next := some body }
  else s

/-- The body at the other end of a constraint. -/
def otherCon (s : Sp F) (body c : Nat) : Nat :=
  if body = (s.cons c).a then (s.cons c).b else (s.cons c).a

/-- /repo/space.go:637-667 `FloodFillComponent`; `fuel` bounds the recursion depth. -/
def floodFill : Nat → Sp F → Nat → Nat → Option (Sp F)
  | 0, _, _, _ => none
  | n + 1, s, root, body =>
    if s.typ body ≠ .dynamic then some s
    else match (s.bodies body).root with
      | none => do
        let s := s.componentAdd root body
        let l ← s.arbList body
        let s ← (l.map (s.otherBody body)).foldlM (fun s o => floodFill n s root o) s
        let cl ← s.conList body
        (cl.map (s.otherCon body)).foldlM (fun s o => floodFill n s root o) s
      | some r => if r = root then some s else none

/-- The loop `for item := root; item != nil; item = item.sleepingNext`. -/
def compList (s : Sp F) (root : Nat) : Option (List Nat) :=
  walk (fun b => (s.bodies b).next) s.nBodies (some root)

/-- /repo/space.go:628-635 `ComponentActive`. -/
def componentActive (s : Sp F) (members : List Nat) : Bool :=
  members.any fun b => ((s.bodies b).idle).lt s.threshold

/-- /repo/space.go:598-624: the loop over `dynamicBodies` by index. Every round removes the body at the index or moves
on, so the length of the list bounds the number of rounds. -/
def componentLoop : Nat → Nat → Sp F → Option (Sp F)
  | 0, _, s => some s
  | n + 1, i, s =>
    match s.dynamicBodies[i]? with
    | none => some s
    | some body => do
      let (s, slept) ← match (s.bodies body).root with
        | none => do
          let s ← floodFill (s.nBodies + 1) s body body
          let l ← s.compList body
          if s.componentActive l then some (s, false)
          else do
            let s := { s with sleeping := s.sleeping ++ [body] }
            let s ← l.foldlM deactivateBody s
            some (s, true)
        | some _ => some (s, false)
      if slept then componentLoop n i s
      else componentLoop n (i + 1) (s.setBody body fun r => { r with root := none, next := none })

/-- /repo/space.go:541-565: idle times; `moving b` is `KineticEnergy() > keThreshold`. -/
def updateIdle (s : Sp F) (dt : F) (moving : Nat → Bool) (b : Nat) : Sp F :=
  if s.typ b = .dynamic then
    s.setBody b fun r => { r with idle :=
      (if moving b then .time 0 else match r.idle with | .time t => .time (t + dt) | .infinity => .infinity) }
  else s

/-- /repo/space.go:569-584: one round of the loop over the arbiters. -/
def pushRound (sleep : Bool) (s : Sp F) (x : Nat) : Option (Sp F) := do
  let a := (s.arbs x).bodyA
  let b := (s.arbs x).bodyB
  let s ← if sleep = true ∧ (s.typ b = .kinematic ∨ s.isSleeping a) then s.bodyActivate a else some s
  let s ← if sleep = true ∧ (s.typ a = .kinematic ∨ s.isSleeping b) then s.bodyActivate b else some s
  let s := s.pushArbiter a x
  some (s.pushArbiter b x)

/-- /repo/space.go:588-595: one round of the loop over the constraints. -/
def conRound (s : Sp F) (c : Nat) : Option (Sp F) := do
  let a := (s.cons c).a
  let b := (s.cons c).b
  let s ← if s.typ b = .kinematic then s.bodyActivate a else some s
  if s.typ a = .kinematic then s.bodyActivate b else some s

/-- `sleep := space.SleepTimeThreshold != INFINITY`. -/
def sleepOn (s : Sp F) : Bool := match s.threshold with | .infinity => false | .time _ => true

/-- /repo/space.go:536-626 `ProcessComponents`. The `range` loops walk the lists as they were at their start. -/
def processComponents (s : Sp F) (dt : F) (moving : Nat → Bool) : Option (Sp F) := do
  let sleep := s.sleepOn
  let s := if sleep then s.dynamicBodies.foldl (fun s b => s.updateIdle dt moving b) s else s
  let s ← s.arbiters.foldlM (pushRound sleep) s
  if sleep then do
    let s ← s.constraints.foldlM conRound s
    componentLoop s.dynamicBodies.length 0 s
  else some s

/-! ## The step -/

/-- What happens during one call of `Step`: time step, kinetic energies, position update functions that call
`Activate`, the pairs of the broad phase in order, the Separate callbacks, and the other callbacks of the second
half (joint callbacks, PostSolve). -/
structure StepIn (F : Type) where
  dt : F
  moving : Nat → Bool
  posActs : List Nat := []
  pairs : List CollideIn
  sepActs : Nat → List Nat := fun _ => []
  lateActs : List Nat := []

/-- /repo/space.go:686-695: the arbiters of the last step. -/
def resetArb (s : Sp F) (x : Nat) : Sp F :=
  let s := s.setArb x fun r => { r with state := .normal }
  if s.isSleeping (s.arbs x).bodyA = false ∧ s.isSleeping (s.arbs x).bodyB = false then s.unthread x else s

/-- /repo/space.go:676-782 `Step`. The solver proper (Model/Solver.lean) does not touch the bookkeeping. -/
def step (s : Sp F) (i : StepIn F) : Option (Sp F) :=
  if i.dt = 0 then some s
  else do
    let s := { s with stamp := s.stamp + 1 }
    let s := s.arbiters.foldl resetArb s
    let s := { s with arbiters := [] }
    let s := s.lock
    let s ← s.runActs i.posActs
    let s := s.pushFresh
    let s ← i.pairs.foldlM collide s
    let s ← s.unlock
    let s ← s.processComponents i.dt i.moving
    let s ← filterCached (setFilter i.sepActs) s.lock
    let s := s.arbiters.foldl (fun s x => s.emit .postSolve x) s
    let s ← s.runActs i.lateActs
    s.unlock

/-! ## Other entry points -/

/-- /repo/space.go:896-917 `EachBody`: the bodies in the order visited. -/
def eachBody (s : Sp F) : Option (List Nat) := do
  let comps ← s.sleeping.mapM s.compList
  some (s.dynamicBodies ++ s.staticBodies ++ comps.flatten)

/-- /repo/space.go:116-123 `SetGravity`: `range space.sleepingComponents` while `Activate` deletes from that slice in
place: `back` is the backing array over which `range` walks. -/
def gravityLoop : Nat → Nat → List Nat → Sp F → Option (Sp F)
  | 0, _, _, s => some s
  | n + 1, i, back, s => do
    let s ← s.bodyActivate (back.getD i 0)
    gravityLoop n (i + 1) (s.sleeping ++ back.drop s.sleeping.length) s

/-- /repo/space.go:116-123 `SetGravity`. -/
def setGravity (s : Sp F) : Option (Sp F) := gravityLoop s.sleeping.length 0 s.sleeping s

/-- A query or iteration (`EachBody`, `EachShape`, `EachConstraint`, `BBQuery`, `SegmentQuery`, `ShapeQuery`;
/repo/space.go:896-1131) with a callback that calls `Activate` on some bodies. -/
def query (s : Sp F) (acts : List Nat) : Option (Sp F) := do
  let s ← s.lock.runActs acts
  s.unlock

end Sp
end
end CP
